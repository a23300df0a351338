import Verif.Spec.Toss
import Verif.Props.NetSameJoint

/-!
# C160: as long as a decision is open, queries treat it as if it were taken by chance
-/

set_option autoImplicit false

namespace Bbn

open Finset

variable {α : Type}

section
variable [Field α] [DecidableEq α] {n n' : Net α} (ht : n.Tossed n')

include ht

theorem Tossed.bare : n'.stateVars.map NVar.bare = n.stateVars.map NVar.bare := by
  have hv := ht.vars
  unfold Net.stateVars
  revert hv
  generalize n.variables = l
  generalize n'.variables = l'
  induction l generalizing l' with
  | nil => intro h; cases l' with
    | nil => rfl
    | cons a l' => simp at h
  | cons v l ih =>
    intro h
    cases l' with
    | nil => simp at h
    | cons v' l' =>
      simp only [List.map_cons, List.cons.injEq, Prod.mk.injEq] at h
      obtain ⟨⟨e1, e2, e3⟩, h⟩ := h
      have hb : v'.bare = v.bare := by unfold NVar.bare; rw [e1, e3]
      have ih' := ih _ h
      cases hk : v.nodeType <;> simp [hk, e2, hb] <;> simpa using ih'

theorem Tossed.back {v' : NVar} (h : v' ∈ n'.variables) : ∃ v ∈ n.variables, v.name = v'.name ∧
    v'.nodeType = (if v.nodeType = .decision then .chance else v.nodeType) ∧ v.outcomes = v'.outcomes := by
  have : (v'.name, v'.nodeType, v'.outcomes) ∈ n'.variables.map (fun v => (v.name, v.nodeType, v.outcomes)) :=
    List.mem_map.2 ⟨v', h, rfl⟩
  rw [ht.vars] at this
  obtain ⟨v, hm, e⟩ := List.mem_map.1 this
  simp only [Prod.mk.injEq] at e
  exact ⟨v, hm, e.1, e.2.1.symm, e.2.2⟩

theorem Tossed.forth {v : NVar} (h : v ∈ n.variables) : ∃ v' ∈ n'.variables, v'.name = v.name ∧
    v'.nodeType = (if v.nodeType = .decision then .chance else v.nodeType) ∧ v'.outcomes = v.outcomes := by
  have : (v.name, (if v.nodeType = .decision then NodeType.chance else v.nodeType), v.outcomes) ∈
      n.variables.map (fun v => (v.name, (if v.nodeType = .decision then NodeType.chance else v.nodeType), v.outcomes)) :=
    List.mem_map.2 ⟨v, h, rfl⟩
  rw [← ht.vars] at this
  obtain ⟨v', hm, e⟩ := List.mem_map.1 this
  simp only [Prod.mk.injEq] at e
  exact ⟨v', hm, e.1, e.2.1, e.2.2⟩

theorem Tossed.agrees (evidence : List (String × String)) (w : World) : n'.Agrees evidence w ↔ n.Agrees evidence w := by
  constructor
  · intro h e he v hm hn
    obtain ⟨u, hu, e1, _, e3⟩ := Tossed.forth ht hm
    rw [h e he u hu (by rw [e1, hn]), e3]
  · intro h e he v hm hn
    obtain ⟨u, hu, e1, _, e3⟩ := Tossed.back ht hm
    rw [h e he u hu (by rw [e1, hn]), e3]

theorem Tossed.state {v : NVar} (h : v ∈ n.stateVars) : ∃ v' ∈ n'.variables, v'.name = v.name ∧ v'.nodeType = .chance ∧
    v'.outcomes = v.outcomes := by
  obtain ⟨h1, h2⟩ := mem_stateVars.1 h
  obtain ⟨v', k1, k2, k3, k4⟩ := Tossed.forth ht h1
  refine ⟨v', k1, k2, ?_, k4⟩
  rw [k3]
  cases hk : v.nodeType <;> simp_all

/-- The chance that all decisions are taken in a certain way. -/
theorem Tossed.joint (hn : n.Valid) (hn' : n'.Valid) {w : World} (hw : n.Allowed w) :
    n'.joint [] w = (n.stateVars.map (fun v => if v.nodeType = .decision then (1 / (v.outcomes.length : α)) else 1)).prod *
      n.joint [] w := by
  have hb : (fun v => n'.kernel v w) = (fun v => n'.kernel v w) ∘ NVar.bare := rfl
  rw [joint_kernel hn, joint_kernel hn', hb, ← List.map_map, Tossed.bare ht, List.map_map, ← List.prod_map_mul]
  congr 1
  refine List.map_congr_left (fun v hv => ?_)
  have hv0 := (mem_stateVars.1 hv).1
  obtain ⟨v', k1, k2, k3, k4⟩ := Tossed.state ht hv
  obtain ⟨f', hf', ef'⟩ := hn'.hasTable v' k1 (by rw [k3]; decide)
  have hf0' : f' ∈ n'.chanceTables := mem_chanceTables.2 ⟨hf', by rw [ef', isKind_iff hn' k1, k3]⟩
  show n'.kernel v w = _
  rw [kernel_table hn' hf0' (by rw [ef', k2])]
  cases hk : v.nodeType with
  | chance =>
    obtain ⟨f, hf, ef⟩ := hn.hasTable v hv0 (by rw [hk]; decide)
    have hf0 : f ∈ n.chanceTables := mem_chanceTables.2 ⟨hf, by rw [ef, isKind_iff hn hv0, hk]⟩
    rw [kernel_table hn hf0 ef.symm, ht.chances f hf0 f' hf0' (by rw [ef', k2, ef]) w hw]
    simp
  | decision =>
    rw [ht.tosses f' hf0' (by rw [ef', k2, isKind_iff hn hv0, hk]) w hw,
      kernel_none (n := n) (by rw [Bool.eq_false_iff, ne_eq, isKind_iff hn hv0, hk]; decide), ef', k2, count_eq hn hv0]
    simp
  | utility => exact absurd hk (mem_stateVars.1 hv).2

end

/-- **C160.** As long as no decision is solved, `SolveQuery` treats decisions as if they were taken by chance, with all options
equally likely: the network with chance variables in place of the decisions gives the same answers. (Decisions that nothing
depends on must not be asked for; see C131.) -/
theorem C160_toss [Field α] [CharZero α] [DecidableEq α] (s1 s2 : NSched α) {n n' : Net α} (hn : n.Valid) (hn' : n'.Valid)
    (hpol : n.policies = []) (hpol' : n'.policies = []) (ht : n.Tossed n') {evidence : List (String × String)}
    (hev : n.EvidenceOK evidence) {query : List String}
    (hq : ∀ q ∈ query, (∃ v ∈ n.stateVars, v.name = q) ∧ q ∉ evidence.map Prod.fst ∧
      ∃ f ∈ n.chanceTables, q ∈ f.dims) (ign1 ign2 : Bool)
    (possible : n.mass [] (n.Agrees evidence) ≠ 0) :
    ∃ r g m r' g' m', n.solveQuery s1 evidence query ign1 = (.ok (r, g), m) ∧
      n'.solveQuery s2 evidence query ign2 = (.ok (r', g'), m') ∧
      (∀ q, q ∈ r.map Prod.fst ↔ q ∈ query) ∧ ∀ q p, (q, p) ∈ r' ↔ (q, p) ∈ r := by
  set K : α := (n.stateVars.map (fun v => if v.nodeType = .decision then (1 / (v.outcomes.length : α)) else 1)).prod with hKd
  have hK : K ≠ 0 := by
    refine List.prod_ne_zero (fun h => ?_)
    obtain ⟨v, hv, e⟩ := List.mem_map.1 h
    have h1 := (hn.outcomes v (mem_stateVars.1 hv).1).1
    split at e
    · rw [one_div, inv_eq_zero, Nat.cast_eq_zero] at e
      omega
    · exact one_ne_zero e
  have htot : ∀ F : World → α, n'.total [] F = K * n.total [] F := by
    intro F
    unfold Net.total
    rw [← sumWorlds_bare, Tossed.bare ht, sumWorlds_bare, ← sumWorlds_mul]
    refine sumWorlds_congr _ _ (stateVars_names hn) (fun w hw _ => ?_)
    rw [Tossed.joint ht hn hn' hw, mul_assoc]
  have hm : ∀ (P : World → Prop) [DecidablePred P],
      n'.mass [] (fun w => n'.Agrees evidence w ∧ P w) = K * n.mass [] (fun w => n.Agrees evidence w ∧ P w) := by
    intro P _
    rw [mass_congr n' [] (fun w => and_congr_left (fun _ => Tossed.agrees ht evidence w))]
    exact htot _
  have hm0 : n'.mass [] (n'.Agrees evidence) = K * n.mass [] (n.Agrees evidence) := by
    have := hm (fun _ => True)
    simpa only [and_true] using this
  have hev' : n'.EvidenceOK evidence := by
    refine ⟨hev.keys, fun e he => ?_⟩
    obtain ⟨v, h1, h2, h3, h4⟩ := hev.known e he
    obtain ⟨v', k1, k2, k3, k4⟩ := Tossed.state ht (mem_stateVars.2 ⟨h1, h3⟩)
    exact ⟨v', k1, by rw [k2, h2], by rw [k3]; decide, by rw [k4]; exact h4⟩
  have hact : n.active evidence ign1 = [] := by simp [Net.active, hpol]
  have hact' : n'.active evidence ign2 = [] := by simp [Net.active, hpol']
  obtain ⟨r, g, m, a1, a2, a3, a4⟩ := C31_solveQuery_posterior s1 hn (by constructor <;> simp [hpol]) hev ign1
    (query := query) ⟨fun q h => (hq q h).1, fun q h e he e' => (hq q h).2.1 (e' ▸ List.mem_map_of_mem he),
      fun q h => .inl (hq q h).2.2⟩ (by rw [hact]; exact possible)
  obtain ⟨r', g', m', b1, b2, b3, b4⟩ := C31_solveQuery_posterior s2 hn' (by constructor <;> simp [hpol']) hev' ign2
    (query := query) ⟨fun q h => by
        obtain ⟨v, h1, h2⟩ := (hq q h).1
        obtain ⟨v', k1, k2, k3, _⟩ := Tossed.state ht h1
        exact ⟨v', mem_stateVars.2 ⟨k1, by rw [k3]; decide⟩, by rw [k2, h2]⟩,
      fun q h e he e' => (hq q h).2.1 (e' ▸ List.mem_map_of_mem he), fun q h => by
        obtain ⟨v, h1, h2⟩ := (hq q h).1
        obtain ⟨v', k1, k2, k3, _⟩ := Tossed.state ht h1
        rw [← h2, ← k2]
        exact chance_occurs hn' _ k1 k3⟩
    (by rw [hact', hm0]; exact mul_ne_zero hK possible)
  refine ⟨r, g, m, r', g', m', a1, b1, a3, ?_⟩
  have hsame : ∀ q ∈ query, ∃ d, (q, d) ∈ r ∧ (q, d) ∈ r' := by
    intro q hq'
    obtain ⟨d, u1, u2, u3⟩ := a4 q hq'
    obtain ⟨d', v1, v2, v3⟩ := b4 q hq'
    have hcount : n'.count q = n.count q := by
      obtain ⟨v, h1, h2⟩ := (hq q hq').1
      obtain ⟨v', k1, k2, _, k4⟩ := Tossed.state ht h1
      rw [← h2, count_eq hn (mem_stateVars.1 h1).1, ← k2, count_eq hn' k1, k4]
    have : d' = d := by
      apply List.ext_getElem?
      intro k
      by_cases hk : k < n.count q
      · rw [u3 k hk, v3 k (by rw [hcount]; exact hk), hact, hact', hm, hm0, mul_div_mul_left _ _ hK]
      · rw [List.getElem?_eq_none (l := d) (by omega), List.getElem?_eq_none (l := d') (by rw [v2, hcount]; omega)]
    exact ⟨d, u1, this ▸ v1⟩
  have huni : ∀ {L : List (String × List α)}, (L.map Prod.fst).Nodup → ∀ {q d d'}, (q, d) ∈ L → (q, d') ∈ L → d = d' := by
    intro L hL q d d' h1 h2
    have := List.inj_on_of_nodup_map hL h1 h2 rfl
    simpa using this
  intro q p
  constructor
  · intro h
    obtain ⟨e, h1, h2⟩ := hsame q ((b3 q).1 (List.mem_map_of_mem h))
    rw [huni b2 h h2]; exact h1
  · intro h
    obtain ⟨e, h1, h2⟩ := hsame q ((a3 q).1 (List.mem_map_of_mem h))
    rw [huni a2 h h1]; exact h2

namespace Ex

/-- Who gets wet depends on the weather and on the umbrella. -/
def walk : Net ℚ where
  name := "walk"
  info := ""
  «variables» := [⟨"Weather", .chance, ["sun", "rain"], (0, 0), "", some 0⟩,
    ⟨"Umbrella", .decision, ["no", "yes"], (0, 0), "", some 1⟩, ⟨"Wet", .chance, ["yes", "no"], (0, 0), "", some 2⟩]
  factors := [⟨"Weather", [], some [7, 3], [], 2⟩, ⟨"Umbrella", [], none, [], 2⟩,
    ⟨"Wet", ["Weather", "Umbrella"], some [0, 1, 0, 1, 9, 1, 1, 9], [2, 2], 2⟩]
  policies := []
  vs := none
  names := []
  totalUtility := none

theorem walk_new : newNet "walk" "" [nv "Weather" .chance ["sun", "rain"], nv "Umbrella" .decision ["no", "yes"],
    nv "Wet" .chance ["yes", "no"]] [nf "Weather" [] [7, 3], ⟨"Umbrella", [], none, [], 0⟩,
    nf "Wet" ["Weather", "Umbrella"] [0, 1, 0, 1, 9, 1, 1, 9]] = .ok walk := rfl

/-- The same with a coin in place of the decision. -/
def walkToss : Net ℚ where
  name := "walk"
  info := ""
  «variables» := [⟨"Weather", .chance, ["sun", "rain"], (0, 0), "", some 0⟩,
    ⟨"Umbrella", .chance, ["no", "yes"], (0, 0), "", some 1⟩, ⟨"Wet", .chance, ["yes", "no"], (0, 0), "", some 2⟩]
  factors := [⟨"Weather", [], some [7, 3], [], 2⟩, ⟨"Umbrella", [], some [5, 5], [], 2⟩,
    ⟨"Wet", ["Weather", "Umbrella"], some [0, 1, 0, 1, 9, 1, 1, 9], [2, 2], 2⟩]
  policies := []
  vs := none
  names := []
  totalUtility := none

theorem walk_valid : walk.Valid where
  names := by decide
  named := by decide
  few := by decide
  outcomes := by decide
  tables := by decide
  hasTable := by decide
  known := by decide
  dims := by decide
  parents := by decide
  size := by
    have key : ∀ f ∈ walk.factors, f.forVar ≠ "Umbrella" → f.table = some f.tab ∧ f.tab.length = (f.dims.map walk.count).prod := by
      decide +kernel
    intro f hf _ h
    exact ⟨f.tab, key f hf (by rintro e; rw [e] at h; exact absurd h (by decide))⟩
  single := by decide
  weights := by intro i h; cases h

theorem walkToss_new : newNet "walk" "" [nv "Weather" .chance ["sun", "rain"], nv "Umbrella" .chance ["no", "yes"],
    nv "Wet" .chance ["yes", "no"]] [nf "Weather" [] [7, 3], nf "Umbrella" [] [5, 5],
    nf "Wet" ["Weather", "Umbrella"] [0, 1, 0, 1, 9, 1, 1, 9]] = .ok walkToss := rfl

theorem walkToss_valid : walkToss.Valid where
  names := by decide
  named := by decide
  few := by decide
  outcomes := by decide
  tables := by decide
  hasTable := by decide
  known := by decide
  dims := by decide
  parents := by decide
  size := by
    have key : ∀ f ∈ walkToss.factors, f.table = some f.tab ∧ f.tab.length = (f.dims.map walkToss.count).prod := by
      decide +kernel
    exact fun f hf _ _ => ⟨f.tab, key f hf⟩
  single := by decide
  weights := by intro i h; cases h

theorem walk_tossed : walk.Tossed walkToss := by
  have hb : ∀ w, walk.Allowed w → w "Weather" < 2 ∧ w "Umbrella" < 2 ∧ w "Wet" < 2 := fun w hw =>
    ⟨hw ⟨"Weather", .chance, ["sun", "rain"], (0, 0), "", some 0⟩ (by decide),
      hw ⟨"Umbrella", .decision, ["no", "yes"], (0, 0), "", some 1⟩ (by decide),
      hw ⟨"Wet", .chance, ["yes", "no"], (0, 0), "", some 2⟩ (by decide)⟩
  have hd : ∀ m ∈ [walk, walkToss], ∀ f ∈ m.chanceTables, ∀ s ∈ f.dims, s = "Weather" ∨ s = "Umbrella" ∨ s = "Wet" := by
    intro m hm
    simp only [List.mem_cons, List.not_mem_nil, or_false] at hm
    rcases hm with rfl | rfl <;> decide
  refine ⟨rfl, fun f hf f' hf' e w hw => ?_, fun f' hf' e w hw => ?_⟩
  · obtain ⟨h1, h2, h3⟩ := hb w hw
    rw [prob_three walk f (hd _ (by simp) f hf) w, prob_three walkToss f' (hd _ (by simp) f' hf') w]
    have key : ∀ f ∈ walk.chanceTables, ∀ f' ∈ walkToss.chanceTables, f'.forVar = f.forVar → ∀ a < 2, ∀ b < 2, ∀ c < 2,
        walkToss.prob f' (three "Weather" "Umbrella" "Wet" a b c) = walk.prob f (three "Weather" "Umbrella" "Wet" a b c) := by
      decide +kernel
    exact key f hf f' hf' e _ h1 _ h2 _ h3
  · obtain ⟨h1, h2, h3⟩ := hb w hw
    rw [prob_three walkToss f' (hd _ (by simp) f' hf') w]
    have key : ∀ f' ∈ walkToss.chanceTables, walk.isKind .decision f'.forVar = true → ∀ a < 2, ∀ b < 2, ∀ c < 2,
        walkToss.prob f' (three "Weather" "Umbrella" "Wet" a b c) = 1 / (walk.count f'.forVar : ℚ) := by
      decide +kernel
    exact key f' hf' e _ h1 _ h2 _ h3

end Ex

open Ex in
/-- The hypotheses of `C160_toss` are met: given that someone got wet, the weather and the umbrella are asked for. -/
example (s1 s2 : NSched ℚ) : ∃ r g m r' g' m',
    walk.solveQuery s1 [("Wet", "yes")] ["Weather", "Umbrella"] false = (.ok (r, g), m) ∧
      walkToss.solveQuery s2 [("Wet", "yes")] ["Weather", "Umbrella"] false = (.ok (r', g'), m') ∧
      (∀ q, q ∈ r.map Prod.fst ↔ q ∈ ["Weather", "Umbrella"]) ∧ ∀ q p, (q, p) ∈ r' ↔ (q, p) ∈ r :=
  C160_toss s1 s2 walk_valid walkToss_valid rfl rfl walk_tossed (evidence := [("Wet", "yes")]) ⟨by decide, by decide⟩
    (by decide) false false (by decide +kernel)

end Bbn
