import Verif.Spec.Undecided
import Verif.Props.NetMix
import Verif.Props.NetStepwise
import Verif.Props.NetExpect

/-!
# C140: what decisions are worth when two experts disagree

Without decisions, the expected utility is linear in the probabilities of one variable, and in the utilities. With
decisions the best that can be reached lies below the line between the two experts: one has to decide without knowing
who is right.
-/

set_option autoImplicit false

namespace Bbn

open Finset

variable {α : Type}

section Form

variable {n m : Net α} (h : n.SameForm m)

include h

theorem form_decisions : m.decisions = n.decisions := by unfold Net.decisions; rw [h.vars]

theorem form_stateVars : m.stateVars = n.stateVars := by unfold Net.stateVars; rw [h.vars]

theorem form_isKind (t : NodeType) (s : String) : m.isKind t s = n.isKind t s := by unfold Net.isKind; rw [h.vars]

theorem form_count (s : String) : m.count s = n.count s := by unfold Net.count; rw [h.vars]

theorem form_totalName : m.totalName = n.totalName := by unfold Net.totalName; rw [h.vars, h.totalNode]

theorem form_utilityVars : m.utilityVars = n.utilityVars := by
  unfold Net.utilityVars; rw [h.vars, form_totalName h]

theorem form_allowed (w : World) : m.Allowed w ↔ n.Allowed w := by unfold Net.Allowed; rw [form_stateVars h]

theorem form_find {f : NFactor α} (hf : f ∈ n.factors) : ∃ g ∈ m.factors, g.forVar = f.forVar ∧ g.given = f.given := by
  have : (f.forVar, f.given) ∈ n.factors.map (fun f => (f.forVar, f.given)) := List.mem_map.2 ⟨f, hf, rfl⟩
  rw [← h.parents] at this
  obtain ⟨g, hg, e⟩ := List.mem_map.1 this
  simp only [Prod.mk.injEq] at e
  exact ⟨g, hg, e.1, e.2⟩

theorem form_symm : m.SameForm n := ⟨h.vars.symm, h.parents.symm, h.totalNode.symm⟩

theorem form_known (ds : List String) (s : String) (hk : n.Known ds s) : m.Known ds s := by
  rcases hk with hk | ⟨f, hf, h1, h2⟩
  · exact .inl hk
  · obtain ⟨g, hg, e1, e2⟩ := form_find h hf
    exact .inr ⟨g, hg, by rw [e1]; exact h1, by rw [e2]; exact h2⟩

theorem form_parent {p d : String} (hp : n.DecisionParent p d) : m.DecisionParent p d := by
  obtain ⟨h1, h2, f, hf, e, hg⟩ := hp
  obtain ⟨g, hg', e1, e2⟩ := form_find h hf
  exact ⟨by rw [form_isKind h]; exact h1, by rw [form_isKind h]; exact h2, g, hg', by rw [e1, e], by rw [e2]; exact hg⟩

theorem form_ordered {o : List String} (ho : n.Ordered o) : m.Ordered o :=
  fun A d B e p hp => ho A d B e p (form_parent (form_symm h) hp)

theorem form_matters {ds : List String} {s : String} (hs : n.Matters ds s) : m.Matters ds s := by
  induction hs with
  | utility hf hu ht hs =>
    obtain ⟨g, hg, e1, e2⟩ := form_find h hf
    refine .utility hg ?_ ?_ (by rw [e2]; exact hs)
    · rw [e1, form_isKind h]; exact hu
    · rw [e1, form_totalName h]; exact ht
  | @chance f u s hf hu hc hk _ hs ih =>
    obtain ⟨hf1, hf2⟩ := mem_chanceTables.1 hf
    obtain ⟨g, hg, e1, e2⟩ := form_find h hf1
    have hd : g.dims = f.dims := by unfold NFactor.dims; rw [e1, e2]
    refine .chance (mem_chanceTables.2 ⟨hg, ?_⟩) (by rw [hd]; exact hu) ?_
      (fun hk' => hk (form_known (form_symm h) _ _ hk')) ih (by rw [hd]; exact hs)
    · rw [e1, form_isKind h]; exact hf2
    · rw [form_isKind h]; exact hc

theorem form_solvable (hs : n.Solvable) : m.Solvable where
  used := by
    intro v hv hd
    obtain ⟨f, hf, h1, h2, h3⟩ := hs.used v (h.vars ▸ hv) hd
    obtain ⟨g, hg, e1, e2⟩ := form_find h hf
    exact ⟨g, hg, by rw [e1, form_totalName h]; exact h1, by rw [e1, form_isKind h]; exact h2, by rw [e2]; exact h3⟩
  acyclic := fun s ht => hs.acyclic s (Relation.TransGen.mono (fun _ _ hp => form_parent (form_symm h) hp) _ _ ht)
  utility := by rw [form_utilityVars h]; exact hs.utility

theorem form_strategy [CommSemiring α] [PartialOrder α] {A : List String} {d : String} {δ : World → α}
    (hs : n.Strategy A d δ) : m.Strategy A d δ where
  nonneg := fun w hw => hs.nonneg w ((form_allowed h w).1 hw)
  one := fun w hw => by rw [form_count h]; exact hs.one w ((form_allowed h w).1 hw)
  known := fun w w' hw hw' hk => hs.known w w' ((form_allowed h w).1 hw) ((form_allowed h w').1 hw')
    (fun s hs' => hk s (form_known h _ _ hs'))

end Form

/-- If the expected utility of all ways to decide is in between, the best is not above the line. -/
theorem undecided [Field α] [LinearOrder α] [IsStrictOrderedRing α] (sch sch₀ sch₁ sch' sch₀' sch₁' : NSched α)
    {n n₀ n₁ : Net α} (hn : n.Valid) (hn₀ : n₀.Valid) (hn₁ : n₁.Valid) (h₀ : n.SameForm n₀) (h₁ : n.SameForm n₁)
    (hs : n.Solvable) (hd : n.decisions ≠ []) (hl : n.InLine) (hnn : ∀ f ∈ n.chanceTables, ∀ x ∈ f.tab, 0 ≤ x)
    (hnn₀ : ∀ f ∈ n₀.chanceTables, ∀ x ∈ f.tab, 0 ≤ x) (hnn₁ : ∀ f ∈ n₁.chanceTables, ∀ x ∈ f.tab, 0 ≤ x)
    (hmat : ∀ order, order.Perm n.decisions → n.Ordered order → ∀ A d B, order = A ++ d :: B → n.Matters (A ++ [d]) d)
    {t : α} (ht : 0 ≤ t) (ht' : t ≤ 1) (ign ign₀ ign₁ : Bool)
    (hlin : ∀ δ, n.expectedTotal δ = (1 - t) * n₀.expectedTotal δ + t * n₁.expectedTotal δ) :
    ∃ tables n' g n'' x tables₀ n₀' g₀ n₀'' x₀ tables₁ n₁' g₁ n₁'' x₁,
      n.solvePolicies sch false = (.ok tables, n') ∧ n'.solveUtility sch' [] [] "" ign = (.ok g, n'') ∧ g.data = [x] ∧
      n₀.solvePolicies sch₀ false = (.ok tables₀, n₀') ∧ n₀'.solveUtility sch₀' [] [] "" ign₀ = (.ok g₀, n₀'') ∧
      g₀.data = [x₀] ∧
      n₁.solvePolicies sch₁ false = (.ok tables₁, n₁') ∧ n₁'.solveUtility sch₁' [] [] "" ign₁ = (.ok g₁, n₁'') ∧
      g₁.data = [x₁] ∧ x ≤ (1 - t) * x₀ + t * x₁ := by
  have hmats : ∀ {m : Net α}, n.SameForm m → ∀ order, order.Perm m.decisions → m.Ordered order →
      ∀ A d B, order = A ++ d :: B → m.Matters (A ++ [d]) d := fun h o hp ho A d B e =>
    form_matters h (hmat o (form_decisions h ▸ hp) (form_ordered (form_symm h) ho) A d B e)
  obtain ⟨tables, n', o, k1, k2, k3, k4, _, g, n'', k5, k6⟩ := C81_optimal sch sch' hn hs hd hnn hmat
    (stepwise := false) (by simp) ign
  obtain ⟨tables₀, n₀', o₀, a1, a2, a3, _, a4, g₀, n₀'', a5, a6⟩ := C81_optimal sch₀ sch₀' hn₀ (form_solvable h₀ hs)
    (by rw [form_decisions h₀]; exact hd) hnn₀ (hmats h₀) (stepwise := false) (by simp) ign₀
  obtain ⟨tables₁, n₁', o₁, b1, b2, b3, _, b4, g₁, n₁'', b5, b6⟩ := C81_optimal sch₁ sch₁' hn₁ (form_solvable h₁ hs)
    (by rw [form_decisions h₁]; exact hd) hnn₁ (hmats h₁) (stepwise := false) (by simp) ign₁
  obtain rfl := hl.unique hn k2 (form_decisions h₀ ▸ a2) k3 (form_ordered (form_symm h₀) a3)
  obtain rfl := hl.unique hn k2 (form_decisions h₁ ▸ b2) k3 (form_ordered (form_symm h₁) b3)
  refine ⟨tables, n', g, n'', _, tables₀, n₀', g₀, n₀'', _, tables₁, n₁', g₁, n₁'', _, k1, k5, k6, a1, a5, a6, b1, b5, b6, ?_⟩
  rw [hlin]
  exact add_le_add
    (mul_le_mul_of_nonneg_left (a4 _ (fun A d B e => form_strategy h₀ (k4 A d B e).1)) (sub_nonneg.2 ht'))
    (mul_le_mul_of_nonneg_left (b4 _ (fun A d B e => form_strategy h₁ (k4 A d B e).1)) ht)

section Linear

variable [Field α] [DecidableEq α] {n n₀ n₁ : Net α} {s : String} {t : α}

theorem expectedTotal_joint (n : Net α) (δ : String → World → α) :
    n.expectedTotal δ = n.total [] (fun w => n.totalIn w * (n.decisions.map (fun d => δ d w)).prod) := by
  unfold Net.expectedTotal Net.total Net.joint
  simp only [List.map_nil, List.prod_nil, mul_one, mul_assoc]

theorem total_congr (hn : n.Valid) {F G : World → α} (hFG : ∀ w, n.Allowed w → F w = G w) : n.total [] F = n.total [] G := by
  unfold Net.total
  exact sumWorlds_congr _ _ (stateVars_names hn) (fun w hw _ => by rw [hFG w hw])

/-- One table of a chance variable mixed: expected utilities are mixed. -/
theorem mix_expected (hn : n.Valid) (hn₀ : n₀.Valid) (hn₁ : n₁.Valid) (h₀ : n.SameForm n₀) (h₁ : n.SameForm n₁)
    (hm : n.Mixes n₀ n₁ [s] t) (hu₀ : ∀ w, n.Allowed w → n₀.totalIn w = n.totalIn w)
    (hu₁ : ∀ w, n.Allowed w → n₁.totalIn w = n.totalIn w) (δ : String → World → α) :
    n.expectedTotal δ = (1 - t) * n₀.expectedTotal δ + t * n₁.expectedTotal δ := by
  rw [expectedTotal_joint, expectedTotal_joint, expectedTotal_joint, mix_total hn hn₀ hn₁ hm, form_decisions h₀,
    form_decisions h₁]
  congr 2
  · exact total_congr hn₀ (fun w hw => by rw [hu₀ w ((form_allowed h₀ w).1 hw)])
  · exact total_congr hn₁ (fun w hw => by rw [hu₁ w ((form_allowed h₁ w).1 hw)])

/-- Utilities mixed: expected utilities are mixed. -/
theorem mix_utilities (hn : n.Valid) (h₀ : n.SameForm n₀) (h₁ : n.SameForm n₁)
    (hj₀ : ∀ w, n.Allowed w → n₀.joint [] w = n.joint [] w) (hj₁ : ∀ w, n.Allowed w → n₁.joint [] w = n.joint [] w)
    (F F₀ F₁ : World → α) (hF : ∀ w, n.Allowed w → F w = (1 - t) * F₀ w + t * F₁ w) :
    n.total [] F = (1 - t) * n₀.total [] F₀ + t * n₁.total [] F₁ := by
  unfold Net.total
  rw [form_stateVars h₀, form_stateVars h₁, ← sumWorlds_mul, ← sumWorlds_mul, ← sumWorlds_add]
  refine sumWorlds_congr _ _ (stateVars_names hn) (fun w hw _ => ?_)
  rw [hj₀ w hw, hj₁ w hw, hF w hw]
  ring

end Linear

/-- **C140, expected utilities without decisions.** If the probabilities of one variable are a mixture, then what
`SolveUtility` returns is the same mixture of what it returns for the two networks, whatever is observed. -/
theorem C140_expectation [Field α] [DecidableEq α] (sch sch₀ sch₁ : NSched α) {n n₀ n₁ : Net α} {s : String} {t : α}
    (hn : n.Valid) (hn₀ : n₀.Valid) (hn₁ : n₁.Valid) (hpol : n.policies = []) (hpol₀ : n₀.policies = [])
    (hpol₁ : n₁.policies = []) (h₀ : n.SameForm n₀) (h₁ : n.SameForm n₁) (hd : n.decisions = [])
    (hm : n.Mixes n₀ n₁ [s] t) {u : String} (hu : u = "" ∧ n.utilityVars ≠ [] ∨ ∃ v ∈ n.utilityVars, v.name = u)
    (hu₀ : ∀ w, n.Allowed w → n₀.asked u w = n.asked u w) (hu₁ : ∀ w, n.Allowed w → n₁.asked u w = n.asked u w)
    {evidence : List (String × String)} (hev : n.EvidenceOK evidence) (ign ign₀ ign₁ : Bool) :
    ∃ y₀ y₁ : α, n₀.Worth sch₀ evidence u ign₀ y₀ ∧ n₁.Worth sch₁ evidence u ign₁ y₁ ∧
      n.Worth sch evidence u ign ((1 - t) * y₀ + t * y₁) := by
  have hsol : ∀ {m : Net α}, m.decisions = [] → m.AllSolved := by
    intro m hd v hv hvd
    have : v.name ∈ m.decisions := List.mem_map_of_mem (List.mem_filter.2 ⟨hv, by simp [hvd]⟩)
    rw [hd] at this
    simp at this
  have w0 := worth_total sch₀ hn₀ (by constructor <;> simp [hpol₀]) (hsol (by rw [form_decisions h₀, hd]))
    (evidence := evidence) ⟨hev.keys, by rw [h₀.vars]; exact hev.known⟩ (by rw [form_utilityVars h₀]; exact hu) ign₀
  have w1 := worth_total sch₁ hn₁ (by constructor <;> simp [hpol₁]) (hsol (by rw [form_decisions h₁, hd]))
    (evidence := evidence) ⟨hev.keys, by rw [h₁.vars]; exact hev.known⟩ (by rw [form_utilityVars h₁]; exact hu) ign₁
  have w := worth_total sch hn (by constructor <;> simp [hpol]) (hsol hd) hev hu ign
  have ha : ∀ (m : Net α) i, m.policies = [] → m.active evidence i = [] := fun m i h => by simp [Net.active, h]
  rw [ha n₀ _ hpol₀] at w0
  rw [ha n₁ _ hpol₁] at w1
  rw [ha n _ hpol, mix_total hn hn₀ hn₁ hm] at w
  refine ⟨_, _, w0, w1, ?_⟩
  have hag₀ : ∀ w, n₀.Agrees evidence w ↔ n.Agrees evidence w := fun w => by unfold Net.Agrees; rw [h₀.vars]
  have hag₁ : ∀ w, n₁.Agrees evidence w ↔ n.Agrees evidence w := fun w => by unfold Net.Agrees; rw [h₁.vars]
  rw [total_congr hn₀ (F := fun w => if n₀.Agrees evidence w then n₀.asked u w else 0)
      (G := fun w => if n.Agrees evidence w then n.asked u w else 0)
      (fun w hw => by simp only [hag₀, hu₀ w ((form_allowed h₀ w).1 hw)]),
    total_congr hn₁ (F := fun w => if n₁.Agrees evidence w then n₁.asked u w else 0)
      (G := fun w => if n.Agrees evidence w then n.asked u w else 0)
      (fun w hw => by simp only [hag₁, hu₁ w ((form_allowed h₁ w).1 hw)])]
  exact w

section Main

variable [Field α] [LinearOrder α] [IsStrictOrderedRing α]

/-- **C140, decisions under a mixture of probabilities.** Two experts disagree about the probabilities of one variable.
The expected utility reported after solving the decisions for a mixture is at most the same mixture of what is reported
for each expert: it never helps not to know who is right. -/
theorem C140_probabilities (sch sch₀ sch₁ sch' sch₀' sch₁' : NSched α) {n n₀ n₁ : Net α} (hn : n.Valid) (hn₀ : n₀.Valid)
    (hn₁ : n₁.Valid) (h₀ : n.SameForm n₀) (h₁ : n.SameForm n₁) (hs : n.Solvable) (hd : n.decisions ≠ []) (hl : n.InLine)
    (hnn : ∀ f ∈ n.chanceTables, ∀ x ∈ f.tab, 0 ≤ x) (hnn₀ : ∀ f ∈ n₀.chanceTables, ∀ x ∈ f.tab, 0 ≤ x)
    (hnn₁ : ∀ f ∈ n₁.chanceTables, ∀ x ∈ f.tab, 0 ≤ x)
    (hmat : ∀ order, order.Perm n.decisions → n.Ordered order → ∀ A d B, order = A ++ d :: B → n.Matters (A ++ [d]) d)
    {s : String} {t : α} (ht : 0 ≤ t) (ht' : t ≤ 1) (hm : n.Mixes n₀ n₁ [s] t)
    (hu₀ : ∀ w, n.Allowed w → n₀.totalIn w = n.totalIn w) (hu₁ : ∀ w, n.Allowed w → n₁.totalIn w = n.totalIn w)
    (ign ign₀ ign₁ : Bool) :
    ∃ tables n' g n'' x tables₀ n₀' g₀ n₀'' x₀ tables₁ n₁' g₁ n₁'' x₁,
      n.solvePolicies sch false = (.ok tables, n') ∧ n'.solveUtility sch' [] [] "" ign = (.ok g, n'') ∧ g.data = [x] ∧
      n₀.solvePolicies sch₀ false = (.ok tables₀, n₀') ∧ n₀'.solveUtility sch₀' [] [] "" ign₀ = (.ok g₀, n₀'') ∧
      g₀.data = [x₀] ∧
      n₁.solvePolicies sch₁ false = (.ok tables₁, n₁') ∧ n₁'.solveUtility sch₁' [] [] "" ign₁ = (.ok g₁, n₁'') ∧
      g₁.data = [x₁] ∧ x ≤ (1 - t) * x₀ + t * x₁ :=
  undecided sch sch₀ sch₁ sch' sch₀' sch₁' hn hn₀ hn₁ h₀ h₁ hs hd hl hnn hnn₀ hnn₁ hmat ht ht' ign ign₀ ign₁
    (mix_expected hn hn₀ hn₁ h₀ h₁ hm hu₀ hu₁)

/-- **C140, decisions under a mixture of utilities.** The same if the experts agree about the probabilities, but not about
the utilities. -/
theorem C140_utilities (sch sch₀ sch₁ sch' sch₀' sch₁' : NSched α) {n n₀ n₁ : Net α} (hn : n.Valid) (hn₀ : n₀.Valid)
    (hn₁ : n₁.Valid) (h₀ : n.SameForm n₀) (h₁ : n.SameForm n₁) (hs : n.Solvable) (hd : n.decisions ≠ []) (hl : n.InLine)
    (hnn : ∀ f ∈ n.chanceTables, ∀ x ∈ f.tab, 0 ≤ x) (hnn₀ : ∀ f ∈ n₀.chanceTables, ∀ x ∈ f.tab, 0 ≤ x)
    (hnn₁ : ∀ f ∈ n₁.chanceTables, ∀ x ∈ f.tab, 0 ≤ x)
    (hmat : ∀ order, order.Perm n.decisions → n.Ordered order → ∀ A d B, order = A ++ d :: B → n.Matters (A ++ [d]) d)
    {t : α} (ht : 0 ≤ t) (ht' : t ≤ 1) (hj₀ : ∀ w, n.Allowed w → n₀.joint [] w = n.joint [] w)
    (hj₁ : ∀ w, n.Allowed w → n₁.joint [] w = n.joint [] w)
    (hu : ∀ w, n.Allowed w → n.totalIn w = (1 - t) * n₀.totalIn w + t * n₁.totalIn w) (ign ign₀ ign₁ : Bool) :
    ∃ tables n' g n'' x tables₀ n₀' g₀ n₀'' x₀ tables₁ n₁' g₁ n₁'' x₁,
      n.solvePolicies sch false = (.ok tables, n') ∧ n'.solveUtility sch' [] [] "" ign = (.ok g, n'') ∧ g.data = [x] ∧
      n₀.solvePolicies sch₀ false = (.ok tables₀, n₀') ∧ n₀'.solveUtility sch₀' [] [] "" ign₀ = (.ok g₀, n₀'') ∧
      g₀.data = [x₀] ∧
      n₁.solvePolicies sch₁ false = (.ok tables₁, n₁') ∧ n₁'.solveUtility sch₁' [] [] "" ign₁ = (.ok g₁, n₁'') ∧
      g₁.data = [x₁] ∧ x ≤ (1 - t) * x₀ + t * x₁ := by
  refine undecided sch sch₀ sch₁ sch' sch₀' sch₁' hn hn₀ hn₁ h₀ h₁ hs hd hl hnn hnn₀ hnn₁ hmat ht ht' ign ign₀ ign₁
    (fun δ => ?_)
  rw [expectedTotal_joint, expectedTotal_joint, expectedTotal_joint, form_decisions h₀, form_decisions h₁]
  refine mix_utilities hn h₀ h₁ hj₀ hj₁ _ _ _ (fun w hw => ?_)
  rw [hu w hw]
  ring

end Main

namespace Ex

/-- The umbrella network with other numbers for the weather and for the comfort. -/
def umbWith (p c : List ℚ) : Net ℚ :=
  { umb with
    factors := [⟨"Weather", [], some p, [], 2⟩, ⟨"Forecast", ["Weather"], some [8, 2, 1, 9], [2], 2⟩,
      ⟨"Umbrella", ["Forecast"], none, [2], 2⟩,
      ⟨"Comfort", ["Weather", "Umbrella"], some c, [2, 2], 1⟩, ⟨"Effort", ["Umbrella"], some [0, -5], [2], 1⟩,
      ⟨"Total", ["Effort", "Comfort"], some [2, 1], [1, 1], 2⟩] }

/-- The numbers used below. -/
def umbNumbers : List (List ℚ × List ℚ) := [([1, 1], [100, 20, 0, 70]), ([1, 0], [100, 20, 0, 70]), ([0, 1], [100, 20, 0, 70]),
  ([1, 1], [200, 0, 0, 0]), ([1, 1], [0, 40, 0, 140])]

theorem umbWith_valid : ∀ a ∈ umbNumbers, (umbWith a.1 a.2).Valid := by
  intro a ha
  simp only [umbNumbers, List.mem_cons, List.not_mem_nil, or_false] at ha
  rcases ha with rfl | rfl | rfl | rfl | rfl <;> exact
    { names := by decide
      named := by decide
      few := by decide
      outcomes := by decide
      tables := by decide
      hasTable := by decide
      known := by decide
      dims := by decide
      parents := by decide
      size := by
        intro f hf h1 h2
        simp only [umbWith, List.mem_cons, List.not_mem_nil, or_false] at hf
        rcases hf with rfl | rfl | rfl | rfl | rfl | rfl
        · exact ⟨_, rfl, by decide⟩
        · exact ⟨_, rfl, by decide⟩
        · exact absurd h2 (by decide)
        · exact ⟨_, rfl, by decide⟩
        · exact ⟨_, rfl, by decide⟩
        · exact absurd rfl h1
      single := by decide
      weights := by
        intro i h
        obtain rfl : 3 = i := Option.some.inj h
        exact ⟨_, _, _, rfl, rfl, rfl, rfl, rfl, by decide, by decide⟩ }

theorem umbWith_form (p c p' c' : List ℚ) : (umbWith p c).SameForm (umbWith p' c') := ⟨rfl, rfl, rfl⟩

theorem umbWith_solvable (p c : List ℚ) : (umbWith p c).Solvable :=
  form_solvable (n := umb) ⟨rfl, rfl, rfl⟩ umb_solvable

theorem umbWith_inLine (p c : List ℚ) : (umbWith p c).InLine := by
  have hdec : (umbWith p c).decisions = ["Umbrella"] := rfl
  intro d hd e he
  rw [hdec, List.mem_singleton] at hd he
  exact .inl (hd.trans he.symm)

theorem umbWith_matters (p c : List ℚ) : ∀ order, order.Perm (umbWith p c).decisions → (umbWith p c).Ordered order →
    ∀ A d B, order = A ++ d :: B → (umbWith p c).Matters (A ++ [d]) d := by
  have hdec : (umbWith p c).decisions = ["Umbrella"] := rfl
  intro o ho _ A d B e
  have hd : d ∈ (umbWith p c).decisions := ho.subset (by rw [e]; simp)
  rw [hdec, List.mem_singleton] at hd
  subst hd
  exact .utility (f := ⟨"Effort", ["Umbrella"], some [0, -5], [2], 1⟩) (by simp [umbWith]) rfl
    (by show "Effort" ≠ "Total"; decide) (by decide)

theorem umbWith_mixes : (umbWith [1, 1] [100, 20, 0, 70]).Mixes (umbWith [1, 0] [100, 20, 0, 70])
    (umbWith [0, 1] [100, 20, 0, 70]) ["Weather"] (1 / 2) := by
  refine mixes_three "Weather" "Forecast" "Forecast" rfl rfl (fun w hw => ?_) ?_ ?_
  · have h1 : w "Weather" < 2 := hw ⟨"Weather", .chance, ["sun", "rain"], (0, 0), "", some 0⟩ (by decide)
    have h2 : w "Forecast" < 2 := hw ⟨"Forecast", .chance, ["good", "bad"], (0, 0), "", some 1⟩ (by decide)
    exact ⟨h1, h2, h2⟩
  · intro m hm
    simp only [List.mem_cons, List.not_mem_nil, or_false] at hm
    rcases hm with rfl | rfl | rfl <;> decide
  · set_option synthInstance.maxHeartbeats 200000 in set_option synthInstance.maxSize 4096 in decide +kernel

theorem umbWith_utility (w : World) (hw : (umbWith [1, 1] [100, 20, 0, 70]).Allowed w) :
    (umbWith [1, 1] [100, 20, 0, 70]).totalIn w = (1 - 1 / 2) * (umbWith [1, 1] [200, 0, 0, 0]).totalIn w +
      1 / 2 * (umbWith [1, 1] [0, 40, 0, 140]).totalIn w := by
  have key : ∀ c, (umbWith [1, 1] c).totalIn w =
      (umbWith [1, 1] c).totalIn (fun s => if s = "Weather" then w "Weather" else w "Umbrella") := fun c => rfl
  rw [key, key, key]
  have h1 : w "Weather" < 2 := hw ⟨"Weather", .chance, ["sun", "rain"], (0, 0), "", some 0⟩ (by decide)
  have h2 : w "Umbrella" < 2 := hw ⟨"Umbrella", .decision, ["no", "yes"], (0, 0), "", some 2⟩ (by decide)
  have : ∀ a < 2, ∀ b < 2, (umbWith [1, 1] [100, 20, 0, 70]).totalIn (fun s => if s = "Weather" then a else b) =
      (1 - 1 / 2) * (umbWith [1, 1] [200, 0, 0, 0]).totalIn (fun s => if s = "Weather" then a else b) +
      1 / 2 * (umbWith [1, 1] [0, 40, 0, 140]).totalIn (fun s => if s = "Weather" then a else b) := by decide +kernel
  exact this _ h1 _ h2

/-- The hypotheses of `C140_probabilities` are met: one expert expects sun for sure, the other rain. -/
example (sch sch₀ sch₁ sch' sch₀' sch₁' : NSched ℚ) : ∃ g g₀ g₁ : Factor ℚ, ∃ x x₀ x₁, g.data = [x] ∧ g₀.data = [x₀] ∧
    g₁.data = [x₁] ∧ x ≤ (1 - 1 / 2) * x₀ + 1 / 2 * x₁ := by
  obtain ⟨_, _, g, _, x, _, _, g₀, _, x₀, _, _, g₁, _, x₁, _, _, h, _, _, h₀, _, _, h₁, hx⟩ := C140_probabilities sch sch₀ sch₁ sch'
    sch₀' sch₁' (umbWith_valid ([1, 1], [100, 20, 0, 70]) (by decide)) (umbWith_valid ([1, 0], [100, 20, 0, 70]) (by decide))
    (umbWith_valid ([0, 1], [100, 20, 0, 70]) (by decide)) (umbWith_form _ _ _ _) (umbWith_form _ _ _ _)
    (umbWith_solvable _ _) (by decide) (umbWith_inLine _ _) (by decide) (by decide) (by decide) (umbWith_matters _ _)
    (by norm_num) (by norm_num) umbWith_mixes (fun _ _ => rfl) (fun _ _ => rfl) false false false
  exact ⟨g, g₀, g₁, x, x₀, x₁, h, h₀, h₁, hx⟩

/-- The hypotheses of `C140_utilities` are met: the experts disagree about the comfort. -/
example (sch sch₀ sch₁ sch' sch₀' sch₁' : NSched ℚ) : ∃ g g₀ g₁ : Factor ℚ, ∃ x x₀ x₁, g.data = [x] ∧ g₀.data = [x₀] ∧
    g₁.data = [x₁] ∧ x ≤ (1 - 1 / 2) * x₀ + 1 / 2 * x₁ := by
  obtain ⟨_, _, g, _, x, _, _, g₀, _, x₀, _, _, g₁, _, x₁, _, _, h, _, _, h₀, _, _, h₁, hx⟩ := C140_utilities sch sch₀ sch₁ sch'
    sch₀' sch₁' (umbWith_valid ([1, 1], [100, 20, 0, 70]) (by decide)) (umbWith_valid ([1, 1], [200, 0, 0, 0]) (by decide))
    (umbWith_valid ([1, 1], [0, 40, 0, 140]) (by decide)) (umbWith_form _ _ _ _) (umbWith_form _ _ _ _)
    (umbWith_solvable _ _) (by decide) (umbWith_inLine _ _) (by decide) (by decide) (by decide) (umbWith_matters _ _)
    (by norm_num) (by norm_num) (fun _ _ => rfl) (fun _ _ => rfl) umbWith_utility false false false
  exact ⟨g, g₀, g₁, x, x₀, x₁, h, h₀, h₁, hx⟩

/-- What is reported in the first case: 100 for sun, 60 for rain, and 68 (not 80) half way in between. -/
example : ∀ a ∈ [(([1, 1] : List ℚ), (68 : ℚ)), ([1, 0], 100), ([0, 1], 60)],
    (((umbWith a.1 [100, 20, 0, 70]).solvePolicies back false).2.solveUtility back [] [] "" false).1.toOption.map Factor.data =
      some [a.2] := by
  decide +kernel

/-- Rain and a sprinkler with a mood, with rain more or less often. -/
def moodWith (p : List ℚ) : Net ℚ where
  name := "mood"
  info := ""
  «variables» := [⟨"Sprinkler", .chance, ["on", "off"], (0, 0), "", some 0⟩,
    ⟨"Rain", .chance, ["yes", "no"], (0, 0), "", some 1⟩, ⟨"Mood", .utility, ["mood"], (0, 0), "", some 2⟩]
  factors := [⟨"Sprinkler", ["Rain"], some [1, 99, 4, 6], [2], 2⟩, ⟨"Rain", [], some p, [], 2⟩,
    ⟨"Mood", ["Rain"], some [-5, 10], [2], 1⟩]
  policies := []
  vs := none
  names := []
  totalUtility := none

theorem moodWith_valid : ∀ p ∈ [([1, 1] : List ℚ), [1, 0], [0, 1]], (moodWith p).Valid := by
  intro p hp
  simp only [List.mem_cons, List.not_mem_nil, or_false] at hp
  rcases hp with rfl | rfl | rfl <;> exact
    { names := by decide
      named := by decide
      few := by decide
      outcomes := by decide
      tables := by decide
      hasTable := by decide
      known := by decide
      dims := by decide
      parents := by decide
      size := by
        intro f hf _ _
        simp only [moodWith, List.mem_cons, List.not_mem_nil, or_false] at hf
        rcases hf with rfl | rfl | rfl <;> exact ⟨_, rfl, by decide⟩
      single := by decide
      weights := by intro i h; simp [moodWith] at h }

/-- The hypotheses of `C140_expectation` are met. -/
example (sch sch₀ sch₁ : NSched ℚ) : ∃ y₀ y₁ : ℚ, (moodWith [1, 0]).Worth sch₀ [("Sprinkler", "on")] "Mood" false y₀ ∧
    (moodWith [0, 1]).Worth sch₁ [("Sprinkler", "on")] "Mood" false y₁ ∧
    (moodWith [1, 1]).Worth sch [("Sprinkler", "on")] "Mood" false ((1 - 1 / 2) * y₀ + 1 / 2 * y₁) := by
  refine C140_expectation (s := "Rain") (u := "Mood") (evidence := [("Sprinkler", "on")]) sch sch₀ sch₁
    (moodWith_valid [1, 1] (by decide)) (moodWith_valid [1, 0] (by decide)) (moodWith_valid [0, 1] (by decide)) rfl rfl rfl ⟨rfl, rfl, rfl⟩ ⟨rfl, rfl, rfl⟩ rfl ?_ (.inr (by decide)) (fun _ _ => rfl)
    (fun _ _ => rfl) ⟨by decide, by decide⟩ false false false
  refine mixes_three "Rain" "Sprinkler" "Sprinkler" rfl rfl (fun w hw => ?_) ?_ ?_
  · have h1 : w "Rain" < 2 := hw ⟨"Rain", .chance, ["yes", "no"], (0, 0), "", some 1⟩ (by decide)
    have h2 : w "Sprinkler" < 2 := hw ⟨"Sprinkler", .chance, ["on", "off"], (0, 0), "", some 0⟩ (by decide)
    exact ⟨h1, h2, h2⟩
  · intro m hm
    simp only [List.mem_cons, List.not_mem_nil, or_false] at hm
    rcases hm with rfl | rfl | rfl <;> decide
  · set_option synthInstance.maxHeartbeats 200000 in set_option synthInstance.maxSize 4096 in decide +kernel

end Ex

end Bbn
