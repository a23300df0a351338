import Verif.Props.NetExpect

/-!
# Certain and impossible outcomes
-/

set_option autoImplicit false

namespace Bbn

open Finset

variable {α : Type} [Field α] [LinearOrder α] [IsStrictOrderedRing α]

theorem mass_and_not {n : Net α} (pols : List (String × Factor α)) (P Q : World → Prop) [DecidablePred P]
    [DecidablePred Q] : n.mass pols P = n.mass pols (fun w => P w ∧ Q w) + n.mass pols (fun w => P w ∧ ¬ Q w) := by
  unfold Net.mass Net.total
  have : (fun w => n.joint pols w * if P w then (1 : α) else 0) = fun w =>
      n.joint pols w * (if P w ∧ Q w then 1 else 0) + n.joint pols w * (if P w ∧ ¬ Q w then 1 else 0) := by
    funext w
    by_cases h1 : P w <;> by_cases h2 : Q w <;> simp [h1, h2]
  rw [this]
  generalize n.stateVars = l
  generalize (fun _ : String => 0) = w
  induction l generalizing w with
  | nil => rfl
  | cons v l ih => simp only [sumWorlds, ih, Finset.sum_add_distrib]

/-- If all of the weight of `P` is on `Q`, restricting to `Q` changes nothing. -/
theorem total_certain {n : Net α} (hnn : n.Nonneg) {pols : List (String × Factor α)} (hsub : ∀ p ∈ pols, p ∈ n.policies)
    {P Q : World → Prop} [DecidablePred P] [DecidablePred Q] (h : n.mass pols (fun w => P w ∧ Q w) = n.mass pols P)
    (F : World → α) :
    n.total pols (fun w => if P w ∧ Q w then F w else 0) = n.total pols (fun w => if P w then F w else 0) := by
  have h0 : n.mass pols (fun w => P w ∧ ¬ Q w) = 0 := by
    have := mass_and_not (n := n) pols P Q
    linarith
  have h1 := total_null hnn hsub h0 F
  have : n.total pols (fun w => if P w then F w else 0) =
      n.total pols (fun w => if P w ∧ Q w then F w else 0) + n.total pols (fun w => if P w ∧ ¬ Q w then F w else 0) := by
    unfold Net.total
    have e : (fun w => n.joint pols w * if P w then F w else 0) = fun w =>
        n.joint pols w * (if P w ∧ Q w then F w else 0) + n.joint pols w * (if P w ∧ ¬ Q w then F w else 0) := by
      funext w
      by_cases h1 : P w <;> by_cases h2 : Q w <;> simp [h1, h2]
    rw [e]
    generalize n.stateVars = l
    generalize (fun _ : String => 0) = w
    induction l generalizing w with
    | nil => rfl
    | cons v l ih => simp only [sumWorlds, ih, Finset.sum_add_distrib]
  rw [this, h1, add_zero]

section two

variable {n : Net α} (hn : n.Valid) (hp : n.PoliciesOK) (hnn : n.Nonneg) {evidence : List (String × String)}
  (hev : n.EvidenceOK evidence) {x y : NVar} (hx : x ∈ n.variables) (hxc : x.nodeType = .chance)
  (hxf : x.name ∉ evidence.map Prod.fst) (ign : Bool)
  (possible : n.mass (n.active evidence ign) (n.Agrees evidence) ≠ 0)

include hn hp hnn hev hx hxc hxf possible in
/-- **C128, certain outcomes.** If an outcome has probability one, observing it does not change the answer for any other
variable. -/
theorem C128_certain (s1 s2 s3 : NSched α) {a : String} (ha : a ∈ x.outcomes) (hy : y ∈ n.variables)
    (hyc : y.nodeType = .chance) (hyf : y.name ∉ evidence.map Prod.fst) (hne : x.name ≠ y.name) :
    ∃ dX dY : List α, n.Answers s1 evidence x.name ign dX ∧ n.Answers s2 evidence y.name ign dY ∧
      (dX[x.outcomes.idxOf a]? = some 1 → n.Answers s3 ((x.name, a) :: evidence) y.name ign dY) := by
  have hia := List.idxOf_lt_length_iff.2 ha
  obtain ⟨dX, h1, _, h1'⟩ := answers_mass s1 hn hp hev hx hxc hxf ign possible
  obtain ⟨dY, h2, h2l, h2'⟩ := answers_mass s2 hn hp hev hy hyc hyf ign possible
  refine ⟨dX, dY, h1, h2, fun hone => ?_⟩
  have hsub : ∀ p ∈ n.active evidence ign, p ∈ n.policies := active_sub
  rw [h1' _ hia, Option.some.injEq, div_eq_one_iff_eq possible] at hone
  have hsame := mass_congr n (n.active evidence ign) (agrees_cons hn (evidence := evidence) hx a)
  obtain ⟨dZ, h3, h3l, h3'⟩ := answers_mass s3 hn hp (evidence_cons hev hx hxc hxf ha) hy hyc
    (by rw [List.map_cons, List.mem_cons, not_or]; exact ⟨hne.symm, hyf⟩) ign
    (by rw [active_cons hn hp hx hxc, hsame, hone]; exact possible)
  have : dZ = dY := by
    apply List.ext_getElem?
    intro j
    by_cases hj : j < y.outcomes.length
    · rw [h3' j hj, h2' j hj, active_cons hn hp hx hxc, hsame, hone]
      congr 2
      have := total_certain hnn hsub hone (fun w => if w y.name = j then 1 else 0)
      have e1 : n.total (n.active evidence ign) (fun w => if n.Agrees evidence w then (if w y.name = j then 1 else 0) else 0) =
          n.mass (n.active evidence ign) (fun w => n.Agrees evidence w ∧ w y.name = j) := by
        unfold Net.mass
        congr 1
        funext w
        by_cases h1 : n.Agrees evidence w <;> simp [h1]
      rw [← e1, ← this]
      unfold Net.mass
      congr 1
      funext w
      have hc := agrees_cons hn hx a w (evidence := evidence)
      by_cases h1 : n.Agrees evidence w <;> by_cases h2 : w x.name = x.outcomes.idxOf a <;> simp [hc, h1, h2]
    · rw [List.getElem?_eq_none (by omega), List.getElem?_eq_none (by omega)]
  rw [← this]
  exact h3

include hn hp hnn hev hx hxc hxf possible in
/-- **C128, certain outcomes and utilities.** If an outcome has probability one, observing it does not change any expected
utility. -/
theorem C128_utility (s1 s2 s3 : NSched α) (hs : n.AllSolved) {a : String} (ha : a ∈ x.outcomes) {u : String}
    (hu : u = "" ∧ n.utilityVars ≠ [] ∨ ∃ v ∈ n.utilityVars, v.name = u) :
    ∃ dX : List α, ∃ z : α, n.Answers s1 evidence x.name ign dX ∧ n.Worth s2 evidence u ign z ∧
      (dX[x.outcomes.idxOf a]? = some 1 → n.Worth s3 ((x.name, a) :: evidence) u ign z) := by
  have hia := List.idxOf_lt_length_iff.2 ha
  obtain ⟨dX, h1, _, h1'⟩ := answers_mass s1 hn hp hev hx hxc hxf ign possible
  refine ⟨dX, _, h1, worth_total s2 hn hp hs hev hu ign, fun hone => ?_⟩
  have hsub : ∀ p ∈ n.active evidence ign, p ∈ n.policies := active_sub
  rw [h1' _ hia, Option.some.injEq, div_eq_one_iff_eq possible] at hone
  have := worth_total s3 hn hp hs (evidence_cons hev hx hxc hxf ha) hu ign
  rw [active_cons hn hp hx hxc] at this
  simp only [agrees_cons hn hx] at this
  rwa [total_certain hnn hsub hone] at this

include hn hp hnn hev hx hxc hxf possible in
/-- **C128, settled outcomes.** What is impossible or certain given some evidence remains so whatever is observed in
addition, as long as the observations are possible. -/
theorem C128_settled (s1 s2 : NSched α) {b : String} (hy : y ∈ n.variables) (hyc : y.nodeType = .chance)
    (hyf : y.name ∉ evidence.map Prod.fst) (hne : x.name ≠ y.name) (hb : b ∈ y.outcomes)
    (possible' : n.mass (n.active evidence ign) (n.Agrees ((y.name, b) :: evidence)) ≠ 0) :
    ∃ dX dX' : List α, n.Answers s1 evidence x.name ign dX ∧ n.Answers s2 ((y.name, b) :: evidence) x.name ign dX' ∧
      ∀ k : Nat, (dX[k]? = some 0 → dX'[k]? = some 0) ∧ (dX[k]? = some 1 → dX'[k]? = some 1) := by
  obtain ⟨dX, h1, h1l, h1'⟩ := answers_mass s1 hn hp hev hx hxc hxf ign possible
  obtain ⟨dZ, h2, h2l, h2'⟩ := answers_mass s2 hn hp (evidence_cons hev hy hyc hyf hb) hx hxc
    (by rw [List.map_cons, List.mem_cons, not_or]; exact ⟨hne, hxf⟩) ign
    (by rw [active_cons hn hp hy hyc]; exact possible')
  rw [active_cons hn hp hy hyc] at h2'
  have hsub : ∀ p ∈ n.active evidence ign, p ∈ n.policies := active_sub
  have hmore : ∀ w, n.Agrees ((y.name, b) :: evidence) w → n.Agrees evidence w := fun w h => ((agrees_cons hn hy b w).1 h).1
  refine ⟨dX, dZ, h1, h2, fun k => ?_⟩
  by_cases hk : k < x.outcomes.length
  · rw [h1' k hk, h2' k hk]
    refine ⟨fun h => ?_, fun h => ?_⟩
    · rw [Option.some.injEq, div_eq_zero_iff] at h
      have h0 := h.resolve_right possible
      have hle := mass_mono hnn hsub (fun w => n.Agrees ((y.name, b) :: evidence) w ∧ w x.name = k)
        (fun w => n.Agrees evidence w ∧ w x.name = k) (fun w h => ⟨hmore w h.1, h.2⟩)
      have hge := mass_nonneg hnn hsub (fun w => n.Agrees ((y.name, b) :: evidence) w ∧ w x.name = k)
      rw [h0] at hle
      rw [le_antisymm hle hge, zero_div]
    · rw [Option.some.injEq, div_eq_one_iff_eq possible] at h
      rw [Option.some.injEq, div_eq_one_iff_eq possible']
      have e1 := mass_and_not (n := n) (n.active evidence ign) (n.Agrees evidence) (fun w => w x.name = k)
      have e2 := mass_and_not (n := n) (n.active evidence ign) (n.Agrees ((y.name, b) :: evidence)) (fun w => w x.name = k)
      have hle := mass_mono hnn hsub (fun w => n.Agrees ((y.name, b) :: evidence) w ∧ ¬ w x.name = k)
        (fun w => n.Agrees evidence w ∧ ¬ w x.name = k) (fun w h => ⟨hmore w h.1, h.2⟩)
      have hge := mass_nonneg hnn hsub (fun w => n.Agrees ((y.name, b) :: evidence) w ∧ ¬ w x.name = k)
      linarith
  · rw [List.getElem?_eq_none (l := dX) (by omega)]
    simp

end two

/-- The lamp is on exactly if the switch is; whether one can read depends on the lamp, and is worth something. -/
def Ex.lamp : Net ℚ where
  name := "lamp"
  info := ""
  «variables» := [⟨"Switch", .chance, ["on", "off"], (0, 0), "", some 0⟩, ⟨"Lamp", .chance, ["on", "off"], (0, 0), "", some 1⟩,
    ⟨"Read", .chance, ["yes", "no"], (0, 0), "", some 2⟩, ⟨"Joy", .utility, ["joy"], (0, 0), "", some 3⟩]
  factors := [⟨"Switch", [], some [3, 7], [], 2⟩, ⟨"Lamp", ["Switch"], some [1, 0, 0, 1], [2], 2⟩,
    ⟨"Read", ["Lamp"], some [9, 1, 2, 8], [2], 2⟩, ⟨"Joy", ["Lamp", "Read"], some [5, 1, 2, 0], [2, 2], 1⟩]
  policies := []
  vs := none
  names := []
  totalUtility := none

theorem Ex.lamp_valid : Ex.lamp.Valid where
  names := by decide
  named := by decide
  few := by decide
  outcomes := by decide
  tables := by decide
  hasTable := by decide
  known := by decide
  dims := by decide
  parents := by decide
  size := by
    intro f hf _ _
    simp only [Ex.lamp, List.mem_cons, List.not_mem_nil, or_false] at hf
    rcases hf with rfl | rfl | rfl | rfl <;> exact ⟨_, rfl, by decide⟩
  single := by decide
  weights := by intro i h; simp [Ex.lamp] at h

/-- The hypotheses of **C128** are met: if the switch is on, the lamp is on for certain, and seeing it does not change
anything. -/
example : ∃ d : List ℚ, Ex.lamp.Answers Ex.back [("Switch", "on")] "Read" false d ∧
    Ex.lamp.Answers Ex.back [("Lamp", "on"), ("Switch", "on")] "Read" false d := by
  obtain ⟨dX, dY, h1, h2, h3⟩ := C128_certain Ex.lamp_valid (Ex.noPolicies rfl) ⟨by decide, by decide⟩
    (evidence := [("Switch", "on")]) ⟨by decide, by decide⟩ (x := ⟨"Lamp", .chance, ["on", "off"], (0, 0), "", some 1⟩)
    (by decide) rfl (by decide) false (by decide +kernel) Ex.back Ex.back Ex.back (a := "on") (by decide)
    (y := ⟨"Read", .chance, ["yes", "no"], (0, 0), "", some 2⟩) (by decide) rfl (by decide) (by decide)
  refine ⟨dY, h2, h3 ?_⟩
  obtain ⟨r, f, n', h4, h5⟩ := h1
  have hrun : ((Ex.lamp.solveQuery Ex.back [("Switch", "on")] ["Lamp"] false).1.toOption.map Prod.fst) =
      some [("Lamp", [1, 0])] := by decide +kernel
  rw [h4] at hrun
  simp only [Except.toOption, Option.map_some, Option.some.injEq] at hrun
  rw [hrun, List.mem_singleton, Prod.mk.injEq] at h5
  rw [h5.2]
  rfl

example : ∃ dX : List ℚ, ∃ z : ℚ, Ex.lamp.Answers Ex.back [("Switch", "on")] "Lamp" false dX ∧
    Ex.lamp.Worth Ex.back [("Switch", "on")] "Joy" false z ∧
    (dX[0]? = some 1 → Ex.lamp.Worth Ex.back [("Lamp", "on"), ("Switch", "on")] "Joy" false z) :=
  C128_utility Ex.lamp_valid (Ex.noPolicies rfl) ⟨by decide, by decide⟩
    (evidence := [("Switch", "on")]) ⟨by decide, by decide⟩ (x := ⟨"Lamp", .chance, ["on", "off"], (0, 0), "", some 1⟩)
    (by decide) rfl (by decide) false (by decide +kernel) Ex.back Ex.back Ex.back
    (fun v hv h => absurd h ((by decide : ∀ v ∈ Ex.lamp.variables, v.nodeType ≠ .decision) v hv)) (a := "on") (by decide)
    (.inr (by decide))

example : ∃ dX dX' : List ℚ, Ex.lamp.Answers Ex.back [("Switch", "on")] "Lamp" false dX ∧
    Ex.lamp.Answers Ex.back [("Read", "no"), ("Switch", "on")] "Lamp" false dX' ∧
    ∀ k : Nat, (dX[k]? = some 0 → dX'[k]? = some 0) ∧ (dX[k]? = some 1 → dX'[k]? = some 1) :=
  C128_settled Ex.lamp_valid (Ex.noPolicies rfl) ⟨by decide, by decide⟩
    (evidence := [("Switch", "on")]) ⟨by decide, by decide⟩ (x := ⟨"Lamp", .chance, ["on", "off"], (0, 0), "", some 1⟩)
    (by decide) rfl (by decide) false (by decide +kernel) Ex.back Ex.back (b := "no")
    (y := ⟨"Read", .chance, ["yes", "no"], (0, 0), "", some 2⟩) (by decide) rfl (by decide) (by decide) (by decide)
    (by decide +kernel)

end Bbn
