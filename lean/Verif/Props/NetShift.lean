import Verif.Spec.Shift
import Verif.Lemmas.Timed
import Verif.Props.NetInformed
import Verif.Props.NetAttain

/-!
# Another zero of the utility scale
-/

set_option autoImplicit false

namespace Bbn

open Finset

variable {α : Type}

set_option linter.unusedSectionVars false

theorem sumWorlds_add [AddCommMonoid α] (F G : World → α) : ∀ (l : List NVar) (w : World),
    sumWorlds l (fun w => F w + G w) w = sumWorlds l F w + sumWorlds l G w := by
  intro l
  induction l with
  | nil => intro w; rfl
  | cons v l ih =>
    intro w
    simp only [sumWorlds, ih, Finset.sum_add_distrib]

section shifted

variable [Field α] [LinearOrder α] [IsStrictOrderedRing α] {n : Net α} {b : String → α}

/-- One table after adding constants. -/
def Net.shiftTable (n : Net α) (b : String → α) (f : NFactor α) : NFactor α :=
  if n.isKind .utility f.forVar = true ∧ f.forVar ≠ n.totalName then
    { f with table := f.table.map (fun t => t.map (fun x => x + b f.forVar)) } else f

theorem shifted_factors : (n.shifted b).factors = n.factors.map (n.shiftTable b) := rfl

theorem shift_forVar (f : NFactor α) : (n.shiftTable b f).forVar = f.forVar := by
  unfold Net.shiftTable; split_ifs <;> rfl

theorem shift_given (f : NFactor α) : (n.shiftTable b f).given = f.given := by
  unfold Net.shiftTable; split_ifs <;> rfl

theorem shift_dims (f : NFactor α) : (n.shiftTable b f).dims = f.dims := by
  unfold NFactor.dims; rw [shift_forVar, shift_given]

theorem shift_kept {f : NFactor α} (h : n.isKind .utility f.forVar = false ∨ f.forVar = n.totalName) :
    n.shiftTable b f = f := by
  unfold Net.shiftTable
  rw [if_neg]
  rintro ⟨h1, h2⟩
  rcases h with h | h
  · rw [h1] at h; cases h
  · exact h2 h

theorem shifted_valid (hn : n.Valid) : (n.shifted b).Valid where
  names := hn.names
  named := hn.named
  few := hn.few
  outcomes := hn.outcomes
  tables := by
    rw [shifted_factors, List.map_map]
    have : (NFactor.forVar ∘ n.shiftTable b : NFactor α → String) = NFactor.forVar := funext shift_forVar
    rw [this]; exact hn.tables
  hasTable := by
    intro v hv hd
    obtain ⟨f, hf, e⟩ := hn.hasTable v hv hd
    exact ⟨_, List.mem_map_of_mem hf, by rw [← e]; exact shift_forVar f⟩
  known := by
    intro f hf
    obtain ⟨g, hg, rfl⟩ := List.mem_map.1 hf
    obtain ⟨v, hv, e⟩ := hn.known g hg
    exact ⟨v, hv, e.trans (shift_forVar g).symm⟩
  dims := by
    intro f hf
    obtain ⟨g, hg, rfl⟩ := List.mem_map.1 hf
    show (n.shiftTable b g).dims.Nodup
    rw [shift_dims]; exact hn.dims g hg
  parents := by
    intro f hf
    obtain ⟨g, hg, rfl⟩ := List.mem_map.1 hf
    show (n.shiftTable b g).forVar ≠ n.totalName → ∀ x ∈ (n.shiftTable b g).given, _
    rw [shift_forVar, shift_given]
    exact hn.parents g hg
  size := by
    intro f hf
    obtain ⟨g, hg, rfl⟩ := List.mem_map.1 hf
    show (n.shiftTable b g).forVar ≠ n.totalName → n.isKind .decision (n.shiftTable b g).forVar = false →
      ∃ t, (n.shiftTable b g).table = some t ∧ t.length = ((n.shiftTable b g).dims.map n.count).prod
    rw [shift_forVar, shift_dims]
    intro h1 h2
    obtain ⟨t, e1, e2⟩ := hn.size g hg h1 h2
    unfold Net.shiftTable
    split_ifs
    · exact ⟨_, by rw [e1]; rfl, by rw [List.length_map]; exact e2⟩
    · exact ⟨t, e1, e2⟩
  single := hn.single
  weights := by
    intro i hi
    obtain ⟨v, j, f, h1, h2, h3, h4, h5, h6, h7⟩ := hn.weights i hi
    have hnm : n.totalName = v.name := by
      unfold Net.totalName; rw [show n.totalUtility = some i from hi]; simp [h1]
    refine ⟨v, j, f, h1, h2, h3, ?_, h5, h6, h7⟩
    rw [shifted_factors, List.getElem?_map, h4, Option.map_some, shift_kept (.inr (by rw [h5, hnm]))]

theorem shifted_isKind (t : NodeType) (s : String) : (n.shifted b).isKind t s = n.isKind t s := rfl

theorem shifted_chanceTables (hn : n.Valid) : (n.shifted b).chanceTables = n.chanceTables := by
  unfold Net.chanceTables
  rw [shifted_factors, List.filter_map]
  have : ((fun f => (n.shifted b).isKind .chance f.forVar) ∘ n.shiftTable b : NFactor α → Bool) =
      fun f => n.isKind .chance f.forVar := by
    funext f
    show n.isKind .chance (n.shiftTable b f).forVar = _
    rw [shift_forVar]
  rw [this]
  conv_rhs => rw [← List.map_id (n.factors.filter _)]
  apply List.map_congr_left
  intro f hf
  exact shift_kept (.inl (one_kind hn (List.mem_filter.1 hf).2 (by decide)))

theorem shifted_known {ds : List String} {s : String} : (n.shifted b).Known ds s ↔ n.Known ds s := by
  unfold Net.Known
  rw [shifted_factors]
  simp only [List.mem_map]
  constructor
  · rintro (h | ⟨f, ⟨g, hg, rfl⟩, h1, h2⟩)
    · exact .inl h
    · rw [shift_forVar] at h1
      rw [shift_given] at h2
      exact .inr ⟨g, hg, h1, h2⟩
  · rintro (h | ⟨g, hg, h1, h2⟩)
    · exact .inl h
    · exact .inr ⟨_, ⟨g, hg, rfl⟩, by rw [shift_forVar]; exact h1, by rw [shift_given]; exact h2⟩

theorem shifted_parent {p d : String} : (n.shifted b).DecisionParent p d ↔ n.DecisionParent p d := by
  unfold Net.DecisionParent
  rw [shifted_factors]
  simp only [shifted_isKind, List.mem_map]
  constructor
  · rintro ⟨h1, h2, f, ⟨g, hg, rfl⟩, h3, h4⟩
    rw [shift_forVar] at h3
    rw [shift_given] at h4
    exact ⟨h1, h2, g, hg, h3, h4⟩
  · rintro ⟨h1, h2, g, hg, h3, h4⟩
    exact ⟨h1, h2, _, ⟨g, hg, rfl⟩, by rw [shift_forVar]; exact h3, by rw [shift_given]; exact h4⟩

theorem shifted_solvable (hs : n.Solvable) : (n.shifted b).Solvable where
  utility := hs.utility
  used := by
    intro v hv hd
    obtain ⟨f, hf, h1, h2, h3⟩ := hs.used v hv hd
    refine ⟨_, List.mem_map_of_mem hf, ?_⟩
    show (n.shiftTable b f).forVar ≠ n.totalName ∧ n.isKind .decision (n.shiftTable b f).forVar = false ∧
      v.name ∈ (n.shiftTable b f).given
    rw [shift_forVar, shift_given]
    exact ⟨h1, h2, h3⟩
  acyclic := by
    intro s h
    have hr : (n.shifted b).DecisionParent = n.DecisionParent := by funext a b; exact propext shifted_parent
    rw [hr] at h
    exact hs.acyclic s h

theorem shifted_matters (hn : n.Valid) {ds : List String} {s : String} (h : n.Matters ds s) : (n.shifted b).Matters ds s := by
  induction h with
  | utility hf hu ht hs =>
    refine .utility (List.mem_map_of_mem hf) ?_ ?_ ?_
    · show n.isKind .utility (n.shiftTable b _).forVar = true
      rw [shift_forVar]; exact hu
    · show (n.shiftTable b _).forVar ≠ n.totalName
      rw [shift_forVar]; exact ht
    · show _ ∈ (n.shiftTable b _).given
      rw [shift_given]; exact hs
  | chance hf hu hc hk _ hs ih =>
    exact .chance (by rw [shifted_chanceTables hn]; exact hf) hu hc (fun h => hk (shifted_known.1 h)) ih hs

theorem shifted_weight (s : String) : (n.shifted b).weight s = n.weight s := by
  unfold Net.weight
  rw [show (n.shifted b).totalUtility = n.totalUtility from rfl]
  cases hT : n.totalUtility with
  | none => rfl
  | some i =>
    dsimp only
    rw [shifted_factors, List.find?_map]
    have : ((fun f => decide (f.forVar = (n.shifted b).totalName)) ∘ n.shiftTable b : NFactor α → Bool) =
        fun f => decide (f.forVar = n.totalName) := by
      funext f
      show decide ((n.shiftTable b f).forVar = n.totalName) = _
      rw [shift_forVar]
    rw [this]
    cases hf : n.factors.find? (fun f => decide (f.forVar = n.totalName)) with
    | none => rfl
    | some f =>
      have := List.find?_some hf
      rw [Option.map_some, shift_kept (.inr (by simpa using this))]

theorem shifted_utility (hn : n.Valid) {u : NVar} (hu : u ∈ n.utilityVars) {w : World} (hw : n.Allowed w) :
    (n.shifted b).utilityIn u.name w = n.utilityIn u.name w + b u.name := by
  have hu' := hu
  simp only [Net.utilityVars, List.mem_filter, decide_eq_true_eq] at hu'
  obtain ⟨hv, hk, ht⟩ := hu'
  obtain ⟨f, hf, hfu⟩ := hn.hasTable u hv (by rw [hk]; decide)
  have hd : n.isKind .decision f.forVar = false := by
    rw [← Bool.not_eq_true, hfu, isKind_iff hn hv, hk]; decide
  obtain ⟨t, h1, h2⟩ := hn.size f hf (by rw [hfu]; exact ht) hd
  have e1 := utilityIn_table (shifted_valid (b := b) hn) (f := n.shiftTable b f) (List.mem_map_of_mem hf) (w := w)
  rw [shift_forVar] at e1
  have e2 := utilityIn_table hn hf (w := w)
  rw [← hfu, e1, e2]
  have hlt := rowMajor_lt (f.dims.map (fun s => (n.count s, (w.set f.forVar 0) s))) (by
    intro x hx
    obtain ⟨s, hs, rfl⟩ := List.mem_map.1 hx
    dsimp only
    rcases List.mem_append.1 hs with hs | hs
    · obtain ⟨x, hx, e, hx2⟩ := hn.parents f hf (by rw [hfu]; exact ht) s hs
      have hnd := hn.dims f hf
      unfold NFactor.dims at hnd
      have hne : s ≠ f.forVar := fun e' => (List.nodup_append.1 hnd).2.2 s hs f.forVar (by simp) e'
      simp only [World.set, if_neg hne]
      rw [← e, count_eq hn hx]
      exact hw x (mem_stateVars.2 ⟨hx, hx2⟩)
    · rw [List.mem_singleton.1 hs]
      simp only [World.set, if_true]
      rw [hfu, count_eq hn hv]
      exact (hn.outcomes u hv).1)
  rw [List.map_map] at hlt
  show (n.shiftTable b f).tab.getD (rowMajor ((n.shiftTable b f).dims.map (fun s' => (n.count s', (w.set f.forVar 0) s')))) 0 =
    f.tab.getD (rowMajor (f.dims.map (fun s' => (n.count s', (w.set f.forVar 0) s')))) 0 + _
  rw [shift_dims]
  unfold Net.shiftTable
  rw [if_pos ⟨by rw [hfu, isKind_iff hn hv]; exact hk, by rw [hfu]; exact ht⟩]
  unfold NFactor.tab
  rw [h1]
  dsimp only [Option.map_some, Option.getD_some]
  rw [List.getD_eq_getElem?_getD, List.getD_eq_getElem?_getD, List.getElem?_map,
    List.getElem?_eq_getElem (by rw [h2]; exact hlt)]
  rfl

theorem shifted_total (hn : n.Valid) {w : World} (hw : n.Allowed w) :
    (n.shifted b).totalIn w = n.totalIn w + n.totalShift b := by
  unfold Net.totalIn Net.totalShift
  rw [← List.sum_map_add]
  congr 1
  apply List.map_congr_left
  intro u hu
  rw [shifted_weight, shifted_utility hn hu hw]
  ring

theorem shifted_prob (hn : n.Valid) (w : World) :
    ((n.shifted b).chanceTables.map (fun f => (n.shifted b).prob f w)).prod = (n.chanceTables.map (fun f => n.prob f w)).prod := by
  rw [shifted_chanceTables hn]; rfl

theorem shifted_expected (hn : n.Valid) {δ : String → World → α}
    (hone : sumWorlds n.stateVars (fun w => (n.chanceTables.map (fun f => n.prob f w)).prod *
      (n.decisions.map (fun d => δ d w)).prod) (fun _ => 0) = 1) :
    (n.shifted b).expectedTotal δ = n.expectedTotal δ + n.totalShift b := by
  unfold Net.expectedTotal
  conv_rhs => rw [← mul_one (n.totalShift b), ← hone, ← sumWorlds_mul, ← sumWorlds_add]
  refine sumWorlds_congr _ _ (stateVars_names (shifted_valid hn)) (fun w hw _ => ?_)
  rw [shifted_prob hn, shifted_total hn hw]
  show _ * _ * (n.decisions.map (fun d => δ d w)).prod = _
  ring

end shifted

/-- **C110, reported utilities.** Adding constants to the tables of the utility variables adds to what `SolveUtility`
reports: for one utility variable its constant, for the total the weighted sum of the constants, times the probability
of the evidence. -/
theorem C110_report [Field α] [LinearOrder α] [IsStrictOrderedRing α] (s1 s2 s3 : NSched α) {n : Net α} (hn : n.Valid)
    (hp : n.PoliciesOK) (hs : n.AllSolved) {evidence : List (String × String)} (hev : n.EvidenceOK evidence)
    (b : String → α) (ign : Bool) :
    ∃ p, n.Likely s1 evidence ign p ∧
      (∀ u ∈ n.utilityVars, ∃ y, n.Worth s2 evidence u.name ign y ∧
        (n.shifted b).Worth s3 evidence u.name ign (y + b u.name * p)) ∧
      (n.utilityVars ≠ [] → ∃ y, n.Worth s2 evidence "" ign y ∧
        (n.shifted b).Worth s3 evidence "" ign (y + n.totalShift b * p)) := by
  have hp' : (n.shifted b).PoliciesOK := ⟨hp.keys, hp.wf, hp.decision, hp.vars⟩
  have key : ∀ (u : String) (c : α), (u = "" ∧ n.utilityVars ≠ [] ∨ ∃ v ∈ n.utilityVars, v.name = u) →
      (∀ w, n.Allowed w → (n.shifted b).asked u w = n.asked u w + c) →
      ∃ y, n.Worth s2 evidence u ign y ∧
        (n.shifted b).Worth s3 evidence u ign (y + c * n.mass (n.active evidence ign) (n.Agrees evidence)) := by
    intro u c hu hc
    refine ⟨_, worth_total s2 hn hp hs hev hu ign, ?_⟩
    have := worth_total s3 (shifted_valid (b := b) hn) hp' hs (evidence := evidence) ⟨hev.keys, hev.known⟩ (u := u) hu ign
    convert this using 1
    unfold Net.mass Net.total
    rw [← sumWorlds_mul, ← sumWorlds_add]
    refine sumWorlds_congr _ _ (stateVars_names hn) (fun w hw _ => ?_)
    have ej : (n.shifted b).joint ((n.shifted b).active evidence ign) w = n.joint (n.active evidence ign) w := by
      unfold Net.joint
      rw [shifted_prob hn]; rfl
    rw [ej]
    show _ * (if n.Agrees evidence w then _ else _) + c * (_ * (if n.Agrees evidence w then _ else _)) =
      _ * (if n.Agrees evidence w then (n.shifted b).asked u w else 0)
    rw [hc w hw]
    split_ifs <;> ring
  refine ⟨_, likely_mass s1 hn hp hs hev ign, fun u hu => ?_, fun hu => ?_⟩
  · have hne : u.name ≠ "" := hn.named u (List.mem_filter.1 hu).1
    refine key u.name _ (.inr ⟨u, hu, rfl⟩) (fun w hw => ?_)
    unfold Net.asked
    rw [if_neg hne, if_neg hne, shifted_utility hn hu hw]
  · refine key "" _ (.inl ⟨rfl, hu⟩) (fun w hw => ?_)
    unfold Net.asked
    rw [if_pos rfl, if_pos rfl, shifted_total hn hw]

/-- **C110, best utility.** If there is a time for every variable, with parents before chance variables and observations
before decisions, and decisions are listed in this order or declared in line, then adding constants to the utility
tables adds the weighted sum of the constants to the expected utility that `SolveUtility` reports after solving all
decisions together. -/
theorem C110_best [Field α] [LinearOrder α] [IsStrictOrderedRing α] (sch sch₁ sch' sch₁' : NSched α) {n : Net α}
    (hn : n.Valid) (hs : n.Solvable) (hd : n.decisions ≠ []) (hr : n.Regular)
    (hnn : ∀ f ∈ n.chanceTables, ∀ x ∈ f.tab, 0 ≤ x) {rank : String → Nat}
    (ht : ∀ f ∈ n.chanceTables, ∀ g ∈ f.given, rank g < rank f.forVar)
    (ht' : ∀ f ∈ n.factors, n.isKind .decision f.forVar = true → ∀ g ∈ f.given, rank g < rank f.forVar)
    (hl : n.decisions.Pairwise (fun d e => rank d < rank e) ∨ n.InLine)
    (hm : ∀ order, order.Perm n.decisions → n.Ordered order → ∀ A d B, order = A ++ d :: B → n.Matters (A ++ [d]) d)
    (b : String → α) (ign ign₁ : Bool) :
    ∃ tables n' x tables₁ m', n.solvePolicies sch false = (.ok tables, n') ∧ n'.Worth sch' [] "" ign x ∧
      (n.shifted b).solvePolicies sch₁ false = (.ok tables₁, m') ∧ m'.Worth sch₁' [] "" ign₁ (x + n.totalShift b) := by
  have hord : ∀ o, (n.shifted b).Ordered o ↔ n.Ordered o := by
    intro o
    unfold Net.Ordered
    simp only [shifted_parent]
  have hst : ∀ A d (δ : World → α), (n.shifted b).Strategy A d δ ↔ n.Strategy A d δ := by
    intro A d δ
    exact ⟨kinds_strategy (n := n.shifted b) (m := n) rfl (fun _ _ => shifted_known.1),
      kinds_strategy (n := n) (m := n.shifted b) rfl (fun _ _ => shifted_known.2)⟩
  obtain ⟨tables, n', o, k1, k2, k3, k0, k3', k4, g, n'', k5, k6⟩ := C81_listed sch sch' hn hs hd hnn hm
    (stepwise := false) (by simp) ign
  obtain ⟨tables₁, m', o', l1, l2, l3, l0, l3', l4, g₁, m'', l5, l6⟩ := C81_listed sch₁ sch₁' (n := n.shifted b)
    (shifted_valid hn) (shifted_solvable hs) hd (by rw [shifted_chanceTables hn]; exact hnn)
    (fun o hp ho A d B e => shifted_matters hn (hm o hp ((hord o).1 ho) A d B e))
    (stepwise := false) (by simp) ign₁
  have htime := timed_order hn ht ht' hl k2 k3 k0
  obtain rfl : o = o' := by
    rcases hl with hl | hl
    · have ho : n.Ordered n.decisions := listed_ordered ht' hl
      rw [k0 ho, l0 ((hord _).2 ho)]; rfl
    · exact hl.unique hn k2 l2 k3 ((hord _).1 l3)
  have hone : ∀ δ : String → World → α, (∀ A d B, o = A ++ d :: B → n.Strategy A d (δ d)) →
      (n.shifted b).expectedTotal δ = n.expectedTotal δ + n.totalShift b :=
    fun δ hδ => shifted_expected hn (strategies_one hn hr htime k2 hδ)
  refine ⟨tables, n', _, tables₁, m', k1, ⟨g, n'', k5, k6⟩, l1, g₁, m'', l5, ?_⟩
  rw [l6]
  congr 1
  have hb : (n.shifted b).byTables tables₁ = n.byTables tables₁ := rfl
  apply le_antisymm
  · rw [hone _ (fun A d B e => (hst _ _ _).1 (l3' A d B e).1)]
    exact add_le_add_left (k4 _ (fun A d B e => (hst _ _ _).1 (l3' A d B e).1)) _
  · rw [← hone _ (fun A d B e => (k3' A d B e).1)]
    exact l4 _ (fun A d B e => (hst _ _ _).2 (k3' A d B e).1)

namespace Ex

theorem unloop_matters {ds : List String} : ∀ d ∈ unloop.decisions, unloop.Matters ds d := by
  intro d hd
  refine .utility (f := ⟨"Gain", ["Set", "Act"], some [1, 0, 0, 1], [2, 2], 1⟩) (by decide) (by decide) (by decide) ?_
  revert d
  decide

/-- The gain of the switch is measured from 5 below: the best expected utility is 5 more. -/
example (sch sch₁ sch' sch₁' : NSched ℚ) : ∃ tables n' x tables₁ m',
    unloop.solvePolicies sch false = (.ok tables, n') ∧ n'.Worth sch' [] "" false x ∧
    (unloop.shifted (fun _ => 5)).solvePolicies sch₁ false = (.ok tables₁, m') ∧ m'.Worth sch₁' [] "" true (x + 5) := by
  have h := C110_best sch sch₁ sch' sch₁' unloop_valid unloop_solvable (by decide) unloop_regular (by decide)
    (rank := loopRank) (by decide) (by decide) (.inl (by decide)) (matters_order unloop_matters) (fun _ => 5) false true
  rwa [show unloop.totalShift (fun _ => (5 : ℚ)) = 5 by decide +kernel] at h

/-- The comfort of the umbrella network is measured from 5 below and its cost from 2 above. -/
example (s1 s2 s3 : NSched ℚ) : ∃ p y, umbSolved.Likely s1 [("Weather", "rain")] false p ∧
    umbSolved.Worth s2 [("Weather", "rain")] "Comfort" false y ∧
    (umbSolved.shifted (fun u => if u = "Comfort" then 5 else -2)).Worth s3 [("Weather", "rain")] "Comfort" false
      (y + 5 * p) := by
  obtain ⟨p, h1, h2, _⟩ := C110_report s1 s2 s3 umbSolved_valid umbSolved_policies umbSolved_all
    (evidence := [("Weather", "rain")]) ⟨by decide, by decide⟩ (fun u => if u = "Comfort" then 5 else -2) false
  obtain ⟨y, h3, h4⟩ := h2 ⟨"Comfort", .utility, ["comfort"], (0, 0), "", some 3⟩ (by decide)
  exact ⟨p, y, h1, h3, h4⟩

end Ex

end Bbn
