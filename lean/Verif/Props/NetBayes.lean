import Verif.Lemmas.TuiOk
import Verif.Lemmas.NetOptimal
import Mathlib.Tactic.FieldSimp

/-!
# Answers of different queries fit together
-/

set_option autoImplicit false

namespace Bbn

open Finset

variable {α : Type}

theorem mass_congr [Field α] [DecidableEq α] (n : Net α) (pols : List (String × Factor α)) {P Q : World → Prop}
    [DecidablePred P] [DecidablePred Q] (h : ∀ w, P w ↔ Q w) : n.mass pols P = n.mass pols Q := by
  unfold Net.mass
  congr 1
  funext w
  simp only [h w]

/-- Observing one more chance variable leaves the policies in use alone. -/
theorem active_cons {n : Net α} (hn : n.Valid) (hp : n.PoliciesOK) {evidence : List (String × String)} {ign : Bool} {v : NVar}
    (hv : v ∈ n.variables) (hc : v.nodeType = .chance) (o : String) :
    n.active ((v.name, o) :: evidence) ign = n.active evidence ign := by
  unfold Net.active
  split_ifs
  · apply List.filter_congr
    intro p hpm
    obtain ⟨i, u, h1, h2, h3, _⟩ := hp.decision p hpm
    have hne : v.name ≠ p.1 := by
      intro e
      have := name_unique hn hv (List.mem_of_getElem? h1) (by rw [e, h2])
      rw [this, h3] at hc
      exact absurd hc (by decide)
    simp [hne]
  · rfl

theorem agrees_cons {n : Net α} (hn : n.Valid) {evidence : List (String × String)} {v : NVar} (hv : v ∈ n.variables)
    (o : String) (w : World) :
    n.Agrees ((v.name, o) :: evidence) w ↔ n.Agrees evidence w ∧ w v.name = v.outcomes.idxOf o := by
  unfold Net.Agrees
  simp only [List.mem_cons, forall_eq_or_imp]
  constructor
  · rintro ⟨h1, h2⟩
    exact ⟨h2, h1 v hv rfl⟩
  · rintro ⟨h1, h2⟩
    refine ⟨fun u hu e => ?_, h1⟩
    rw [name_unique hn hu hv e]; exact h2

theorem sumWorlds_sum [AddCommMonoid α] (F : Nat → World → α) (m : Nat) : ∀ (l : List NVar) (w : World),
    sumWorlds l (fun w => ∑ k ∈ range m, F k w) w = ∑ k ∈ range m, sumWorlds l (F k) w := by
  intro l
  induction l with
  | nil => intro w; rfl
  | cons v l ih =>
    intro w
    simp only [sumWorlds, ih]
    rw [Finset.sum_comm]

/-- The masses of the outcomes of a variable sum to the whole. -/
theorem mass_split [Field α] [DecidableEq α] {n : Net α} (hn : n.Valid) (pols : List (String × Factor α)) {v : NVar}
    (hv : v ∈ n.stateVars) (P : World → Prop) [DecidablePred P] :
    ∑ k ∈ range v.outcomes.length, n.mass pols (fun w => P w ∧ w v.name = k) = n.mass pols P := by
  unfold Net.mass Net.total
  rw [← sumWorlds_sum]
  refine sumWorlds_congr _ _ (stateVars_names hn) (fun w h _ => ?_)
  rw [← Finset.mul_sum]
  congr 1
  by_cases hP : P w
  · simp [hP, h v hv]
  · simp [hP]

/-- The call for one variable succeeds and returns the probabilities `d`. -/
def Net.Answers [Zero α] [One α] [Add α] [Mul α] [Div α] [DecidableEq α] (n : Net α) (sch : NSched α)
    (evidence : List (String × String)) (q : String) (ign : Bool) (d : List α) : Prop :=
  ∃ r f n', n.solveQuery sch evidence [q] ign = (.ok (r, f), n') ∧ (q, d) ∈ r

theorem answers_mass [Field α] [CharZero α] [DecidableEq α] (sch : NSched α) {n : Net α} (hn : n.Valid) (hp : n.PoliciesOK)
    {evidence : List (String × String)} (hev : n.EvidenceOK evidence) {v : NVar} (hv : v ∈ n.variables)
    (hc : v.nodeType = .chance) (hfree : v.name ∉ evidence.map Prod.fst) (ign : Bool)
    (possible : n.mass (n.active evidence ign) (n.Agrees evidence) ≠ 0) :
    ∃ d, n.Answers sch evidence v.name ign d ∧ d.length = v.outcomes.length ∧ ∀ k < v.outcomes.length, d[k]? =
      some (n.mass (n.active evidence ign) (fun w => n.Agrees evidence w ∧ w v.name = k) /
        n.mass (n.active evidence ign) (n.Agrees evidence)) := by
  obtain ⟨r, f, n', h1, _, _, h4⟩ := C31_solveQuery_posterior sch hn hp hev (query := [v.name]) ign
    ⟨fun q hq => by
      rw [List.mem_singleton] at hq
      exact ⟨v, mem_stateVars.2 ⟨hv, by rw [hc]; decide⟩, hq.symm⟩, fun q hq e he e' => by
      rw [List.mem_singleton] at hq
      rw [hq] at e'
      exact hfree (e' ▸ List.mem_map_of_mem he), fun q hq => by
      rw [List.mem_singleton] at hq
      rw [hq]; exact chance_occurs hn _ hv hc⟩ possible
  obtain ⟨d, a1, a2, a3⟩ := h4 v.name (by simp)
  rw [count_eq hn hv] at a2 a3
  exact ⟨d, ⟨r, f, n', h1, a1⟩, a2, a3⟩

theorem evidence_cons {n : Net α} {evidence : List (String × String)} (hev : n.EvidenceOK evidence) {v : NVar}
    (hv : v ∈ n.variables) (hc : v.nodeType = .chance) (hfree : v.name ∉ evidence.map Prod.fst) {o : String}
    (ho : o ∈ v.outcomes) : n.EvidenceOK ((v.name, o) :: evidence) := by
  refine ⟨?_, ?_⟩
  · rw [List.map_cons, List.nodup_cons]; exact ⟨hfree, hev.keys⟩
  · intro e he
    rcases List.mem_cons.1 he with rfl | he
    · exact ⟨v, hv, rfl, by rw [hc]; decide, ho⟩
    · exact hev.known e he

/-- **C88, Bayes' rule.** For two chance variables that are not observed: the probability of an outcome of the first,
times that of an outcome of the second if the first is observed as well, is the same as the other way round. All four
numbers are answers to different queries. -/
theorem C88_bayes [Field α] [CharZero α] [DecidableEq α] (s1 s2 s3 s4 : NSched α) {n : Net α} (hn : n.Valid)
    (hp : n.PoliciesOK) {evidence : List (String × String)} (hev : n.EvidenceOK evidence) {x y : NVar}
    (hx : x ∈ n.variables) (hxc : x.nodeType = .chance) (hxf : x.name ∉ evidence.map Prod.fst)
    (hy : y ∈ n.variables) (hyc : y.nodeType = .chance) (hyf : y.name ∉ evidence.map Prod.fst) (hne : x.name ≠ y.name)
    {a b : String} (ha : a ∈ x.outcomes) (hb : b ∈ y.outcomes) (ign : Bool)
    (possible : n.mass (n.active evidence ign) (n.Agrees evidence) ≠ 0)
    (possibleX : n.mass (n.active evidence ign) (n.Agrees ((x.name, a) :: evidence)) ≠ 0)
    (possibleY : n.mass (n.active evidence ign) (n.Agrees ((y.name, b) :: evidence)) ≠ 0) :
    ∃ dX dY dYx dXy : List α, n.Answers s1 evidence x.name ign dX ∧ n.Answers s2 evidence y.name ign dY ∧
      n.Answers s3 ((x.name, a) :: evidence) y.name ign dYx ∧ n.Answers s4 ((y.name, b) :: evidence) x.name ign dXy ∧
      ∃ px py pyx pxy, dX[x.outcomes.idxOf a]? = some px ∧ dY[y.outcomes.idxOf b]? = some py ∧
        dYx[y.outcomes.idxOf b]? = some pyx ∧ dXy[x.outcomes.idxOf a]? = some pxy ∧ px * pyx = py * pxy := by
  have hia := List.idxOf_lt_length_iff.2 ha
  have hib := List.idxOf_lt_length_iff.2 hb
  obtain ⟨dX, h1, _, h1'⟩ := answers_mass s1 hn hp hev hx hxc hxf ign possible
  obtain ⟨dY, h2, _, h2'⟩ := answers_mass s2 hn hp hev hy hyc hyf ign possible
  obtain ⟨dYx, h3, _, h3'⟩ := answers_mass s3 hn hp (evidence_cons hev hx hxc hxf ha) hy hyc
    (by rw [List.map_cons, List.mem_cons, not_or]; exact ⟨hne.symm, hyf⟩) ign
    (by rw [active_cons hn hp hx hxc]; exact possibleX)
  obtain ⟨dXy, h4, _, h4'⟩ := answers_mass s4 hn hp (evidence_cons hev hy hyc hyf hb) hx hxc
    (by rw [List.map_cons, List.mem_cons, not_or]; exact ⟨hne, hxf⟩) ign
    (by rw [active_cons hn hp hy hyc]; exact possibleY)
  refine ⟨dX, dY, dYx, dXy, h1, h2, h3, h4, _, _, _, _, h1' _ hia, h2' _ hib, h3' _ hib, h4' _ hia, ?_⟩
  rw [active_cons hn hp hx hxc, active_cons hn hp hy hyc]
  set pols := n.active evidence ign
  rw [mass_congr n pols (agrees_cons hn (evidence := evidence) hx a)] at possibleX ⊢
  rw [mass_congr n pols (agrees_cons hn (evidence := evidence) hy b)] at possibleY ⊢
  rw [mass_congr n pols (P := fun w => n.Agrees ((x.name, a) :: evidence) w ∧ w y.name = y.outcomes.idxOf b)
    (Q := fun w => (n.Agrees evidence w ∧ w x.name = x.outcomes.idxOf a) ∧ w y.name = y.outcomes.idxOf b)
    (fun w => by rw [agrees_cons hn hx])]
  rw [mass_congr n pols (P := fun w => n.Agrees ((y.name, b) :: evidence) w ∧ w x.name = x.outcomes.idxOf a)
    (Q := fun w => (n.Agrees evidence w ∧ w x.name = x.outcomes.idxOf a) ∧ w y.name = y.outcomes.idxOf b)
    (fun w => by rw [agrees_cons hn hy]; tauto)]
  field_simp

/-- **C88, total probability.** The probability of an outcome of `y` is the average of the answers for `y` after
observing each outcome of `x`, weighted with the answers for `x`. Outcomes of `x` with probability zero, for which the
conditional question makes no sense, are left out. -/
theorem C88_total [Field α] [LinearOrder α] [IsStrictOrderedRing α] (s1 s2 : NSched α) (s3 : Nat → NSched α) {n : Net α}
    (hn : n.Valid) (hp : n.PoliciesOK) (hnn : n.Nonneg) {evidence : List (String × String)}
    (hev : n.EvidenceOK evidence) {x y : NVar} (hx : x ∈ n.variables) (hxc : x.nodeType = .chance)
    (hxf : x.name ∉ evidence.map Prod.fst) (hxn : x.outcomes.Nodup)
    (hy : y ∈ n.variables) (hyc : y.nodeType = .chance) (hyf : y.name ∉ evidence.map Prod.fst) (hne : x.name ≠ y.name)
    (ign : Bool) (possible : n.mass (n.active evidence ign) (n.Agrees evidence) ≠ 0) :
    ∃ dX dY : List α, ∃ dYx : Nat → List α, n.Answers s1 evidence x.name ign dX ∧ n.Answers s2 evidence y.name ign dY ∧
      (∀ (k : Nat) (hk : k < x.outcomes.length), dX[k]? ≠ some 0 →
        n.Answers (s3 k) ((x.name, x.outcomes[k]) :: evidence) y.name ign (dYx k)) ∧
      ∀ j < y.outcomes.length, dY[j]? = some (∑ k ∈ range x.outcomes.length,
        if dX.getD k 0 = 0 then 0 else dX.getD k 0 * (dYx k).getD j 0) := by
  classical
  obtain ⟨dX, h1, _, h1'⟩ := answers_mass s1 hn hp hev hx hxc hxf ign possible
  obtain ⟨dY, h2, _, h2'⟩ := answers_mass s2 hn hp hev hy hyc hyf ign possible
  set pols := n.active evidence ign with hpols
  have hmk : ∀ (k : Nat) (hk : k < x.outcomes.length), n.mass pols (n.Agrees ((x.name, x.outcomes[k]) :: evidence)) =
      n.mass pols (fun w => n.Agrees evidence w ∧ w x.name = k) := by
    intro k hk
    apply mass_congr
    intro w
    rw [agrees_cons hn hx, hxn.idxOf_getElem k hk]
  have hd : ∀ k, k < x.outcomes.length → dX.getD k 0 =
      n.mass pols (fun w => n.Agrees evidence w ∧ w x.name = k) / n.mass pols (n.Agrees evidence) := by
    intro k hk
    rw [List.getD_eq_getElem?_getD, h1' k hk]; rfl
  have h3 : ∀ k, ∃ d : List α, ∀ hk : k < x.outcomes.length,
      n.mass pols (fun w => n.Agrees evidence w ∧ w x.name = k) ≠ 0 →
      n.Answers (s3 k) ((x.name, x.outcomes[k]) :: evidence) y.name ign d ∧ ∀ j < y.outcomes.length, d.getD j 0 =
        n.mass pols (fun w => (n.Agrees evidence w ∧ w x.name = k) ∧ w y.name = j) /
          n.mass pols (fun w => n.Agrees evidence w ∧ w x.name = k) := by
    intro k
    by_cases hk : k < x.outcomes.length
    · by_cases h0 : n.mass pols (fun w => n.Agrees evidence w ∧ w x.name = k) = 0
      · exact ⟨[], fun _ h => absurd h0 h⟩
      · obtain ⟨d, a1, _, a3⟩ := answers_mass (s3 k) hn hp (evidence_cons hev hx hxc hxf (List.getElem_mem hk)) hy hyc
          (by rw [List.map_cons, List.mem_cons, not_or]; exact ⟨hne.symm, hyf⟩) ign
          (by rw [active_cons hn hp hx hxc, hmk k hk]; exact h0)
        refine ⟨d, fun _ _ => ⟨a1, fun j hj => ?_⟩⟩
        rw [active_cons hn hp hx hxc, hmk k hk] at a3
        rw [List.getD_eq_getElem?_getD, a3 j hj, Option.getD_some]
        congr 1
        apply mass_congr
        intro w
        rw [agrees_cons hn hx, hxn.idxOf_getElem k hk]
    · exact ⟨[], fun h => absurd h hk⟩
  choose dYx hdYx using h3
  refine ⟨dX, dY, dYx, h1, h2, fun k hk h0 => ?_, fun j hj => ?_⟩
  · refine (hdYx k hk (fun h => h0 ?_)).1
    rw [h1' k hk, h, zero_div]
  · rw [h2' j hj]
    congr 1
    have hsplit := mass_split hn pols (v := x) (mem_stateVars.2 ⟨hx, by rw [hxc]; decide⟩)
      (fun w => n.Agrees evidence w ∧ w y.name = j)
    rw [← hsplit, Finset.sum_div]
    refine Finset.sum_congr rfl (fun k hk => ?_)
    rw [Finset.mem_range] at hk
    have hsub : ∀ p ∈ pols, p ∈ n.policies := active_sub
    rw [hd k hk]
    by_cases h0 : n.mass pols (fun w => n.Agrees evidence w ∧ w x.name = k) = 0
    · rw [h0, zero_div, if_pos rfl]
      have hle := mass_mono hnn hsub (fun w => (n.Agrees evidence w ∧ w y.name = j) ∧ w x.name = k)
        (fun w => n.Agrees evidence w ∧ w x.name = k) (fun w h => ⟨h.1.1, h.2⟩)
      have hge := mass_nonneg hnn hsub (fun w => (n.Agrees evidence w ∧ w y.name = j) ∧ w x.name = k)
      rw [h0] at hle
      rw [le_antisymm hle hge, zero_div]
    · rw [if_neg (div_ne_zero h0 possible), (hdYx k hk h0).2 j hj, mass_congr n pols (P := fun w =>
        (n.Agrees evidence w ∧ w y.name = j) ∧ w x.name = k) (Q := fun w => (n.Agrees evidence w ∧ w x.name = k) ∧
        w y.name = j) (fun w => by tauto)]
      field_simp

/-- **C88, one by one or together.** Asking for several variables in one call gives the same as asking for each in a
call of its own. -/
theorem C88_separately [Field α] [CharZero α] [DecidableEq α] (sch sch' : NSched α) {n : Net α} (hn : n.Valid)
    (hp : n.PoliciesOK) {evidence : List (String × String)} (hev : n.EvidenceOK evidence) {query : List String}
    (ign : Bool) (hq : n.QueryOK evidence ign query)
    (possible : n.mass (n.active evidence ign) (n.Agrees evidence) ≠ 0) :
    ∃ r f n', n.solveQuery sch evidence query ign = (.ok (r, f), n') ∧ ∀ q ∈ query, ∃ d, (q, d) ∈ r ∧
      n.Answers sch' evidence q ign d := by
  obtain ⟨r, f, n', h1, _, _, h4⟩ := C31_solveQuery_posterior sch hn hp hev ign hq possible
  refine ⟨r, f, n', h1, fun q hqm => ?_⟩
  obtain ⟨d, a1, a2, a3⟩ := h4 q hqm
  obtain ⟨r', f', m', b1, _, _, b4⟩ := C31_solveQuery_posterior sch' hn hp hev (query := [q]) ign
    ⟨fun s hs => hq.state s (by rw [List.mem_singleton] at hs; rw [hs]; exact hqm),
      fun s hs => hq.free s (by rw [List.mem_singleton] at hs; rw [hs]; exact hqm),
      fun s hs => hq.occurs s (by rw [List.mem_singleton] at hs; rw [hs]; exact hqm)⟩ possible
  obtain ⟨d', c1, c2, c3⟩ := b4 q (by simp)
  have : d' = d := by
    apply List.ext_getElem?
    intro k
    by_cases hk : k < n.count q
    · rw [a3 k hk, c3 k hk]
    · rw [List.getElem?_eq_none (l := d) (by omega), List.getElem?_eq_none (l := d') (by omega)]
  exact ⟨d, a1, r', f', m', b1, this ▸ c1⟩

theorem Ex.spr_nonneg : Ex.spr.Nonneg := ⟨by decide, by decide⟩

/-- The hypotheses of **C88** are met by the sprinkler network: rain and the sprinkler, given wet grass. -/
example : ∃ dX dY dYx dXy : List ℚ, Ex.spr.Answers Ex.back Ex.wet "Rain" false dX ∧
    Ex.spr.Answers Ex.back Ex.wet "Sprinkler" false dY ∧
    Ex.spr.Answers Ex.back (("Rain", "yes") :: Ex.wet) "Sprinkler" false dYx ∧
    Ex.spr.Answers Ex.back (("Sprinkler", "on") :: Ex.wet) "Rain" false dXy ∧
    ∃ px py pyx pxy, dX[0]? = some px ∧ dY[0]? = some py ∧ dYx[0]? = some pyx ∧ dXy[0]? = some pxy ∧
      px * pyx = py * pxy :=
  C88_bayes Ex.back Ex.back Ex.back Ex.back Ex.spr_valid (Ex.noPolicies rfl) Ex.wet_ok
    (x := ⟨"Rain", .chance, ["yes", "no"], (0, 0), "", some 0⟩) (by decide) rfl (by decide)
    (y := ⟨"Sprinkler", .chance, ["on", "off"], (0, 0), "", some 1⟩) (by decide) rfl (by decide) (by decide)
    (a := "yes") (b := "on") (by decide) (by decide) false (by decide +kernel) (by decide +kernel) (by decide +kernel)

example : ∃ dX dY : List ℚ, ∃ dYx : Nat → List ℚ, Ex.spr.Answers Ex.back Ex.wet "Rain" false dX ∧
    Ex.spr.Answers Ex.back Ex.wet "Sprinkler" false dY ∧
    (∀ (k : Nat) (hk : k < 2), dX[k]? ≠ some 0 →
      Ex.spr.Answers Ex.back (("Rain", ["yes", "no"][k]) :: Ex.wet) "Sprinkler" false (dYx k)) ∧
    ∀ j < 2, dY[j]? = some (∑ k ∈ range 2, if dX.getD k 0 = 0 then 0 else dX.getD k 0 * (dYx k).getD j 0) :=
  C88_total Ex.back Ex.back (fun _ => Ex.back) Ex.spr_valid (Ex.noPolicies rfl) Ex.spr_nonneg Ex.wet_ok
    (x := ⟨"Rain", .chance, ["yes", "no"], (0, 0), "", some 0⟩) (by decide) rfl (by decide) (by decide)
    (y := ⟨"Sprinkler", .chance, ["on", "off"], (0, 0), "", some 1⟩) (by decide) rfl (by decide) (by decide)
    false (by decide +kernel)

end Bbn
