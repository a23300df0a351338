import Verif.Spec.Informed
import Verif.Props.NetListing
import Verif.Props.NetRecall

/-!
# More information, other units
-/

set_option autoImplicit false

namespace Bbn

open Finset

variable {α : Type}

/-! ## Networks with the same variables -/

section kinds

variable {n m : Net α} (hv : m.variables.map NVar.kindOf = n.variables.map NVar.kindOf)

include hv in
theorem kinds_isKind (t : NodeType) (s : String) : m.isKind t s = n.isKind t s := by
  have key : ∀ L : List NVar, L.any (fun v => v.name = s ∧ v.nodeType = t) =
      (L.map NVar.kindOf).any (fun k => k.1 = s ∧ k.2.1 = t) := by
    intro L; rw [List.any_map]; rfl
  unfold Net.isKind
  rw [key, key, hv]

include hv in
theorem kinds_count (s : String) : m.count s = n.count s := by
  have key : ∀ L : List NVar, outcomeCount L s = ((L.map NVar.kindOf).find? (fun k => k.1 = s)).map (fun k => k.2.2.length) := by
    intro L; rw [List.find?_map, Option.map_map]; rfl
  unfold Net.count
  rw [key, key, hv]

include hv in
theorem kinds_decisions : m.decisions = n.decisions := by
  have key : ∀ L : List NVar, (L.filter (fun v => v.nodeType = .decision)).map NVar.name =
      ((L.map NVar.kindOf).filter (fun k => k.2.1 = .decision)).map Prod.fst := by
    intro L; rw [List.filter_map, List.map_map]; rfl
  unfold Net.decisions
  rw [key, key, hv]

include hv in
theorem kinds_states : m.stateVars.map NVar.bare = n.stateVars.map NVar.bare := by
  have key : ∀ L : List NVar, (L.filter (fun v => v.nodeType ≠ .utility)).map NVar.bare =
      ((L.map NVar.kindOf).filter (fun k => k.2.1 ≠ .utility)).map (fun k => ⟨k.1, .chance, k.2.2, (0, 0), "", none⟩) := by
    intro L; rw [List.filter_map, List.map_map]; rfl
  unfold Net.stateVars
  rw [key, key, hv]

include hv in
theorem kinds_totalName (ht : m.totalUtility = n.totalUtility) : m.totalName = n.totalName := by
  have key : ∀ (L : List NVar) (i : Nat), (L[i]?).map NVar.name = ((L.map NVar.kindOf)[i]?).map Prod.fst := by
    intro L i; rw [List.getElem?_map, Option.map_map]; rfl
  unfold Net.totalName
  rw [ht]
  cases n.totalUtility with
  | none => rfl
  | some i => dsimp only; rw [key, key, hv]

include hv in
theorem kinds_utilityVars (ht : m.totalUtility = n.totalUtility) :
    m.utilityVars.map NVar.name = n.utilityVars.map NVar.name := by
  have key : ∀ (L : List NVar) (s : String), (L.filter (fun v => v.nodeType = .utility ∧ v.name ≠ s)).map NVar.name =
      ((L.map NVar.kindOf).filter (fun k => k.2.1 = .utility ∧ k.1 ≠ s)).map Prod.fst := by
    intro L s; rw [List.filter_map, List.map_map]; rfl
  unfold Net.utilityVars
  rw [kinds_totalName hv ht, key, key, hv]

include hv in
theorem kinds_allowed (w : World) : m.Allowed w ↔ n.Allowed w := by
  have key : ∀ (N : Net α), N.Allowed w ↔ ∀ v ∈ N.stateVars.map NVar.bare, w v.name < v.outcomes.length := by
    intro N
    unfold Net.Allowed
    rw [List.forall_mem_map]; rfl
  rw [key, key, kinds_states hv]

include hv in
theorem kinds_strategy [CommSemiring α] [PartialOrder α] (hk : ∀ ds s, n.Known ds s → m.Known ds s) {A : List String}
    {d : String} {δ : World → α} (h : n.Strategy A d δ) : m.Strategy A d δ where
  nonneg w hw := h.nonneg w ((kinds_allowed hv w).1 hw)
  one w hw := by rw [kinds_count hv]; exact h.one w ((kinds_allowed hv w).1 hw)
  known w w' hw hw' e := h.known w w' ((kinds_allowed hv w).1 hw) ((kinds_allowed hv w').1 hw')
    (fun s hs => e s (hk _ s hs))

include hv in
theorem kinds_expected [Field α] [DecidableEq α] (hn : n.Valid) {k : α}
    (hc : ∀ w, (m.chanceTables.map (fun f => m.prob f w)).prod = (n.chanceTables.map (fun f => n.prob f w)).prod)
    (hu : ∀ w, m.totalIn w = k * n.totalIn w) (δ : String → World → α) : m.expectedTotal δ = k * n.expectedTotal δ := by
  unfold Net.expectedTotal
  rw [← sumWorlds_mul, kinds_decisions hv, sumWorlds_relisted (l' := n.stateVars) _ (by rw [kinds_states hv]) _ (by
    have := congrArg (List.map NVar.name) (kinds_states hv)
    rw [bare_names, bare_names] at this
    rw [this]; exact stateVars_names hn)]
  congr 1
  funext w
  rw [hc, hu]
  ring

end kinds

/-! ## More information -/

/-- What counts in a table. -/
def NFactor.content (f : NFactor α) : String × List String × Option (List α) := (f.forVar, f.given, f.table)

/-- A table with the given content. -/
def ofContent (t : String × List String × Option (List α)) : NFactor α := ⟨t.1, t.2.1, t.2.2, [], 0⟩

theorem one_kind {n : Net α} (hn : n.Valid) {t t' : NodeType} {s : String} (h : n.isKind t s = true) (hne : t ≠ t') :
    n.isKind t' s = false := by
  obtain ⟨v, hv, rfl, h2⟩ := isKind_mem.1 h
  rw [Bool.eq_false_iff]
  intro h'
  exact hne (h2.symm.trans ((isKind_iff hn hv _).1 h'))

/-- The content of the tables of chance and utility variables. -/
def Net.fixedTables (n : Net α) : List (String × List String × Option (List α)) :=
  (n.factors.filter (fun f => !n.isKind .decision f.forVar)).map NFactor.content

theorem fixed_chance {n : Net α} (hn : n.Valid) :
    n.chanceTables.map NFactor.content = n.fixedTables.filter (fun t => n.isKind .chance t.1) := by
  unfold Net.chanceTables Net.fixedTables
  rw [List.filter_map, List.filter_filter]
  congr 1
  apply List.filter_congr
  intro f _
  simp only [Function.comp, NFactor.content]
  cases h : n.isKind .chance f.forVar with
  | false => rfl
  | true => rw [one_kind hn h (by decide)]; rfl

theorem fixed_find {n : Net α} (hn : n.Valid) {s : String} (hs : n.isKind .utility s = true) :
    (n.factors.find? (fun f => f.forVar = s)).map NFactor.content = n.fixedTables.find? (fun t => t.1 = s) := by
  unfold Net.fixedTables
  rw [List.find?_map, List.find?_filter]
  congr 1
  apply congrFun
  apply congrArg
  funext f
  show decide (f.forVar = s) = decide ((!n.isKind .decision f.forVar) = true ∧ decide (f.forVar = s) = true)
  by_cases h : f.forVar = s
  · rw [h, one_kind hn hs (by decide)]; simp
  · simp [h]

theorem fixed_utility {n : Net α} (hn : n.Valid) {s : String} (hs : n.isKind .utility s = true) :
    (n.factors.filter (fun f => f.forVar = s)).map NFactor.content = n.fixedTables.filter (fun t => t.1 = s) := by
  unfold Net.fixedTables
  rw [List.filter_map, List.filter_filter]
  congr 1
  apply List.filter_congr
  intro f _
  show decide (f.forVar = s) = (decide (f.forVar = s) && !n.isKind .decision f.forVar)
  by_cases h : f.forVar = s
  · rw [h, one_kind hn hs (by decide)]; simp
  · simp [h]

section informed

variable {n m : Net α} (hn : n.Valid) (hm : m.Valid) (h : n.MoreInformed m)

include h in
theorem informed_vars : m.variables.map NVar.kindOf = n.variables.map NVar.kindOf := h.vars

include h in
theorem informed_fixed : m.fixedTables = n.fixedTables := h.tables

include h in
theorem informed_known (ds : List String) (s : String) (hk : n.Known ds s) : m.Known ds s := by
  rcases hk with hk | ⟨f, hf, h1, h2⟩
  · exact .inl hk
  right
  by_cases hd : n.isKind .decision f.forVar = true
  · obtain ⟨g, hg, e, hs⟩ := h.informed f hf hd
    exact ⟨g, hg, by rw [e]; exact h1, hs s h2⟩
  · have : f.content ∈ n.fixedTables := List.mem_map_of_mem (List.mem_filter.2 ⟨hf, by simp [hd]⟩)
    rw [← informed_fixed h] at this
    obtain ⟨g, hg, e⟩ := List.mem_map.1 this
    simp only [NFactor.content, Prod.mk.injEq] at e
    exact ⟨g, (List.mem_filter.1 hg).1, by rw [e.1]; exact h1, by rw [e.2.1]; exact h2⟩

include hn hm h in
theorem informed_chance [Field α] [DecidableEq α] (w : World) :
    (m.chanceTables.map (fun f => m.prob f w)).prod = (n.chanceTables.map (fun f => n.prob f w)).prod := by
  have key : ∀ N : Net α, N.chanceTables.map (fun f => N.prob f w) =
      (N.chanceTables.map NFactor.content).map (fun t => N.prob (ofContent t) w) := by
    intro N; rw [List.map_map]; rfl
  have hp : ∀ t : String × List String × Option (List α), m.prob (ofContent t) w = n.prob (ofContent t) w := by
    intro t
    rw [prob_same rfl rfl rfl (fun s _ => kinds_count h.vars s)]
  rw [key, key, fixed_chance hn, fixed_chance hm, informed_fixed h]
  simp only [hp, kinds_isKind h.vars]

include hn hm h in
theorem informed_total [Field α] [DecidableEq α] (w : World) : m.totalIn w = n.totalIn w := by
  have hname : m.totalName = n.totalName := kinds_totalName h.vars h.total
  have hw : ∀ s, m.weight s = n.weight s := by
    intro s
    unfold Net.weight
    rw [h.total]
    cases hT : n.totalUtility with
    | none => rfl
    | some i =>
      dsimp only
      obtain ⟨v, _, _, hv, h2, _⟩ := hn.weights i hT
      have hnm : n.totalName = v.name := by unfold Net.totalName; rw [hT]; simp [hv]
      have hk : n.isKind .utility n.totalName = true := by
        rw [hnm]; exact (isKind_iff hn (List.mem_of_getElem? hv) _).2 h2
      have key : ∀ N : Net α, N.Valid → N.isKind .utility n.totalName = true →
          (N.factors.find? (fun f => f.forVar = n.totalName)).map (fun f => f.tab.getD (f.given.idxOf s) 0) =
          (N.fixedTables.find? (fun t => t.1 = n.totalName)).map (fun t => (ofContent t).tab.getD (t.2.1.idxOf s) 0) := by
        intro N hN hk
        rw [← fixed_find hN hk, Option.map_map]; rfl
      rw [hname, key n hn hk, key m hm (by rw [kinds_isKind h.vars]; exact hk), informed_fixed h]
  have hu : ∀ s, n.isKind .utility s = true → m.utilityIn s w = n.utilityIn s w := by
    intro s hs
    unfold Net.utilityIn
    have key : ∀ N : Net α, N.Valid → N.isKind .utility s = true →
        (N.factors.filter (fun f => f.forVar = s)).map (fun f => N.entry f (w.set s 0)) =
        (N.fixedTables.filter (fun t => t.1 = s)).map (fun t => N.entry (ofContent t) (w.set s 0)) := by
      intro N hN hk
      rw [← fixed_utility hN hk, List.map_map]; rfl
    have he : ∀ t : String × List String × Option (List α), m.entry (ofContent t) (w.set s 0) = n.entry (ofContent t) (w.set s 0) := by
      intro t
      unfold Net.entry
      simp only [kinds_count h.vars]
    rw [key n hn hs, key m hm (by rw [kinds_isKind h.vars]; exact hs), informed_fixed h]
    simp only [he]
  have key : ∀ N : Net α, N.totalIn w = ((N.utilityVars.map NVar.name).map (fun s => N.weight s * N.utilityIn s w)).sum := by
    intro N; unfold Net.totalIn; rw [List.map_map]; rfl
  rw [key, key, kinds_utilityVars h.vars h.total]
  congr 1
  apply List.map_congr_left
  intro s hs
  obtain ⟨v, hv, rfl⟩ := List.mem_map.1 hs
  simp only [Net.utilityVars, List.mem_filter, decide_eq_true_eq] at hv
  rw [hw, hu _ ((isKind_iff hn hv.1 _).2 hv.2.1)]

include hn hm h in
theorem informed_expected [Field α] [DecidableEq α] (δ : String → World → α) : m.expectedTotal δ = n.expectedTotal δ := by
  rw [kinds_expected h.vars hn (k := 1) (informed_chance hn hm h) (fun w => by rw [informed_total hn hm h, one_mul]), one_mul]

include h in
theorem informed_parent {p d : String} (hp : n.DecisionParent p d) : m.DecisionParent p d := by
  obtain ⟨h1, h2, f, hf, rfl, h3⟩ := hp
  obtain ⟨g, hg, e, hs⟩ := h.informed f hf h2
  exact ⟨by rw [kinds_isKind h.vars]; exact h1, by rw [kinds_isKind h.vars]; exact h2, g, hg, e, hs p h3⟩

include hn hm h in
theorem informed_matters {ds : List String} {s : String} (hs : m.Matters ds s) : n.Matters ds s := by
  have find : ∀ f ∈ m.factors, m.isKind .decision f.forVar = false → ∃ g ∈ n.factors, g.forVar = f.forVar ∧ g.given = f.given := by
    intro f hf hd
    have : f.content ∈ m.fixedTables := List.mem_map_of_mem (List.mem_filter.2 ⟨hf, by simp [hd]⟩)
    rw [informed_fixed h] at this
    obtain ⟨g, hg, e⟩ := List.mem_map.1 this
    simp only [NFactor.content, Prod.mk.injEq] at e
    exact ⟨g, (List.mem_filter.1 hg).1, e.1, e.2.1⟩
  induction hs with
  | utility hf hu ht hs =>
    obtain ⟨g, hg, e1, e2⟩ := find _ hf (one_kind hm hu (by decide))
    refine .utility hg ?_ ?_ (by rw [e2]; exact hs)
    · rw [e1, ← kinds_isKind h.vars]; exact hu
    · rw [e1, ← kinds_totalName h.vars h.total]; exact ht
  | @chance f u s hf hu hc hk _ hs ih =>
    obtain ⟨hf1, hf2⟩ := mem_chanceTables.1 hf
    obtain ⟨g, hg, e1, e2⟩ := find _ hf1 (one_kind hm hf2 (by decide))
    have hd : g.dims = f.dims := by unfold NFactor.dims; rw [e1, e2]
    refine .chance (mem_chanceTables.2 ⟨hg, ?_⟩) (by rw [hd]; exact hu) ?_ (fun hk' => hk (informed_known h _ _ hk')) ih
      (by rw [hd]; exact hs)
    · rw [e1, ← kinds_isKind h.vars]; exact hf2
    · rw [← kinds_isKind h.vars]; exact hc

end informed

/-- **C100.** If the declared order of the decisions leaves no choice, giving decisions more information does not make
things worse: the expected utility that `SolveUtility` reports after solving all decisions together is at least as high. -/
theorem C100_information [Field α] [LinearOrder α] [IsStrictOrderedRing α] (sch sch₁ sch' sch₁' : NSched α) {n m : Net α}
    (hn : n.Valid) (hm : m.Valid) (h : n.MoreInformed m) (hs : n.Solvable) (hsm : m.Solvable) (hd : n.decisions ≠ [])
    (hl : n.InLine) (hnn : ∀ f ∈ n.chanceTables, ∀ x ∈ f.tab, 0 ≤ x)
    (hmat : ∀ order, order.Perm m.decisions → m.Ordered order → ∀ A d B, order = A ++ d :: B → m.Matters (A ++ [d]) d)
    (ign ign₁ : Bool) :
    ∃ tables n' g n'' x tables₁ m' g₁ m'' y,
      n.solvePolicies sch false = (.ok tables, n') ∧ n'.solveUtility sch' [] [] "" ign = (.ok g, n'') ∧ g.data = [x] ∧
      m.solvePolicies sch₁ false = (.ok tables₁, m') ∧ m'.solveUtility sch₁' [] [] "" ign₁ = (.ok g₁, m'') ∧
      g₁.data = [y] ∧ x ≤ y := by
  have hdec : m.decisions = n.decisions := kinds_decisions h.vars
  have hord : ∀ o, m.Ordered o → n.Ordered o := fun o ho A d B e p hp => ho A d B e p (informed_parent h hp)
  have hmn : ∀ f ∈ m.chanceTables, ∀ x ∈ f.tab, 0 ≤ x := by
    intro f hf
    have : f.content ∈ m.chanceTables.map NFactor.content := List.mem_map_of_mem hf
    rw [fixed_chance hm, informed_fixed h] at this
    simp only [kinds_isKind h.vars] at this
    rw [← fixed_chance hn] at this
    obtain ⟨g, hg, e⟩ := List.mem_map.1 this
    simp only [NFactor.content, Prod.mk.injEq] at e
    have ht : f.tab = g.tab := by unfold NFactor.tab; rw [e.2.2]
    rw [ht]; exact hnn g hg
  obtain ⟨tables₁, m', o', l1, l2, l3, _, l4, g₁, m'', l5, l6⟩ := C81_optimal sch₁ sch₁' hm hsm (by rw [hdec]; exact hd) hmn
    hmat (stepwise := false) (by simp) ign₁
  obtain ⟨tables, n', o, k1, k2, k3, k3', _, g, n'', k5, k6⟩ := C81_optimal sch sch' hn hs hd hnn (by
    intro o hp ho A d B e
    obtain rfl := hl.unique hn hp (by rw [← hdec]; exact l2) ho (hord _ l3)
    exact informed_matters hn hm h (hmat o l2 l3 A d B e)) (stepwise := false) (by simp) ign
  obtain rfl := hl.unique hn k2 (by rw [← hdec]; exact l2) k3 (hord _ l3)
  refine ⟨tables, n', g, n'', _, tables₁, m', g₁, m'', _, k1, k5, k6, l1, l5, l6, ?_⟩
  rw [← informed_expected hn hm h]
  exact l4 _ (fun A d B e => kinds_strategy h.vars (informed_known h) (k3' A d B e).1)

/-! ## Other units -/

set_option linter.unusedSectionVars false

section rescaled

variable [Field α] [LinearOrder α] [IsStrictOrderedRing α] {n : Net α} {k : α}

/-- One table after rescaling. -/
def Net.rescaleTable (n : Net α) (k : α) (f : NFactor α) : NFactor α :=
  if n.isKind .utility f.forVar = true ∧ f.forVar ≠ n.totalName then
    { f with table := f.table.map (fun t => t.map (fun x => k * x)) } else f

theorem rescaled_factors : (n.rescaled k).factors = n.factors.map (n.rescaleTable k) := rfl

theorem rescale_forVar (f : NFactor α) : (n.rescaleTable k f).forVar = f.forVar := by
  unfold Net.rescaleTable; split_ifs <;> rfl

theorem rescale_given (f : NFactor α) : (n.rescaleTable k f).given = f.given := by
  unfold Net.rescaleTable; split_ifs <;> rfl

theorem rescale_dims (f : NFactor α) : (n.rescaleTable k f).dims = f.dims := by
  unfold NFactor.dims; rw [rescale_forVar, rescale_given]

theorem rescale_kept {f : NFactor α} (h : n.isKind .utility f.forVar = false ∨ f.forVar = n.totalName) :
    n.rescaleTable k f = f := by
  unfold Net.rescaleTable
  rw [if_neg]
  rintro ⟨h1, h2⟩
  rcases h with h | h
  · rw [h1] at h; cases h
  · exact h2 h

theorem rescaled_valid (hn : n.Valid) : (n.rescaled k).Valid where
  names := hn.names
  named := hn.named
  few := hn.few
  outcomes := hn.outcomes
  tables := by
    rw [rescaled_factors, List.map_map]
    have : (NFactor.forVar ∘ n.rescaleTable k : NFactor α → String) = NFactor.forVar := funext rescale_forVar
    rw [this]; exact hn.tables
  hasTable := by
    intro v hv hd
    obtain ⟨f, hf, e⟩ := hn.hasTable v hv hd
    exact ⟨_, List.mem_map_of_mem hf, by rw [← e]; exact rescale_forVar f⟩
  known := by
    intro f hf
    obtain ⟨g, hg, rfl⟩ := List.mem_map.1 hf
    obtain ⟨v, hv, e⟩ := hn.known g hg
    exact ⟨v, hv, e.trans (rescale_forVar g).symm⟩
  dims := by
    intro f hf
    obtain ⟨g, hg, rfl⟩ := List.mem_map.1 hf
    show (n.rescaleTable k g).dims.Nodup
    rw [rescale_dims]; exact hn.dims g hg
  parents := by
    intro f hf
    obtain ⟨g, hg, rfl⟩ := List.mem_map.1 hf
    show (n.rescaleTable k g).forVar ≠ n.totalName → ∀ x ∈ (n.rescaleTable k g).given, _
    rw [rescale_forVar, rescale_given]
    exact hn.parents g hg
  size := by
    intro f hf
    obtain ⟨g, hg, rfl⟩ := List.mem_map.1 hf
    show (n.rescaleTable k g).forVar ≠ n.totalName → n.isKind .decision (n.rescaleTable k g).forVar = false →
      ∃ t, (n.rescaleTable k g).table = some t ∧ t.length = ((n.rescaleTable k g).dims.map n.count).prod
    rw [rescale_forVar, rescale_dims]
    intro h1 h2
    obtain ⟨t, e1, e2⟩ := hn.size g hg h1 h2
    unfold Net.rescaleTable
    split_ifs
    · exact ⟨t.map (fun x => k * x), by rw [e1]; rfl, by rw [List.length_map]; exact e2⟩
    · exact ⟨t, e1, e2⟩
  single := hn.single
  weights := by
    intro i hi
    obtain ⟨v, j, f, h1, h2, h3, h4, h5, h6, h7⟩ := hn.weights i hi
    have hnm : n.totalName = v.name := by
      unfold Net.totalName; rw [show n.totalUtility = some i from hi]; simp [h1]
    refine ⟨v, j, f, h1, h2, h3, ?_, h5, h6, h7⟩
    rw [rescaled_factors, List.getElem?_map, h4, Option.map_some, rescale_kept (.inr (by rw [h5, hnm]))]

theorem rescaled_isKind (t : NodeType) (s : String) : (n.rescaled k).isKind t s = n.isKind t s := rfl

theorem rescaled_chanceTables (hn : n.Valid) : (n.rescaled k).chanceTables = n.chanceTables := by
  unfold Net.chanceTables
  rw [rescaled_factors, List.filter_map]
  have : ((fun f => (n.rescaled k).isKind .chance f.forVar) ∘ n.rescaleTable k : NFactor α → Bool) =
      fun f => n.isKind .chance f.forVar := by
    funext f
    show n.isKind .chance (n.rescaleTable k f).forVar = _
    rw [rescale_forVar]
  rw [this]
  conv_rhs => rw [← List.map_id (n.factors.filter _)]
  apply List.map_congr_left
  intro f hf
  exact rescale_kept (.inl (one_kind hn (List.mem_filter.1 hf).2 (by decide)))

theorem rescaled_known {ds : List String} {s : String} : (n.rescaled k).Known ds s ↔ n.Known ds s := by
  unfold Net.Known
  rw [rescaled_factors]
  simp only [List.mem_map]
  constructor
  · rintro (h | ⟨f, ⟨g, hg, rfl⟩, h1, h2⟩)
    · exact .inl h
    · rw [rescale_forVar] at h1
      rw [rescale_given] at h2
      exact .inr ⟨g, hg, h1, h2⟩
  · rintro (h | ⟨g, hg, h1, h2⟩)
    · exact .inl h
    · exact .inr ⟨_, ⟨g, hg, rfl⟩, by rw [rescale_forVar]; exact h1, by rw [rescale_given]; exact h2⟩

theorem rescaled_parent {p d : String} : (n.rescaled k).DecisionParent p d ↔ n.DecisionParent p d := by
  unfold Net.DecisionParent
  rw [rescaled_factors]
  simp only [rescaled_isKind, List.mem_map]
  constructor
  · rintro ⟨h1, h2, f, ⟨g, hg, rfl⟩, h3, h4⟩
    rw [rescale_forVar] at h3
    rw [rescale_given] at h4
    exact ⟨h1, h2, g, hg, h3, h4⟩
  · rintro ⟨h1, h2, g, hg, h3, h4⟩
    exact ⟨h1, h2, _, ⟨g, hg, rfl⟩, by rw [rescale_forVar]; exact h3, by rw [rescale_given]; exact h4⟩

theorem rescaled_solvable (hs : n.Solvable) : (n.rescaled k).Solvable where
  utility := hs.utility
  used := by
    intro v hv hd
    obtain ⟨f, hf, h1, h2, h3⟩ := hs.used v hv hd
    refine ⟨_, List.mem_map_of_mem hf, ?_⟩
    show (n.rescaleTable k f).forVar ≠ n.totalName ∧ n.isKind .decision (n.rescaleTable k f).forVar = false ∧
      v.name ∈ (n.rescaleTable k f).given
    rw [rescale_forVar, rescale_given]
    exact ⟨h1, h2, h3⟩
  acyclic := by
    intro s h
    have hr : (n.rescaled k).DecisionParent = n.DecisionParent := by funext a b; exact propext rescaled_parent
    rw [hr] at h
    exact hs.acyclic s h

theorem rescaled_total (hn : n.Valid) (w : World) : (n.rescaled k).totalIn w = k * n.totalIn w := by
  have hw : ∀ s, (n.rescaled k).weight s = n.weight s := by
    intro s
    unfold Net.weight
    rw [show (n.rescaled k).totalUtility = n.totalUtility from rfl]
    cases hT : n.totalUtility with
    | none => rfl
    | some i =>
      dsimp only
      rw [rescaled_factors, List.find?_map]
      have : ((fun f => decide (f.forVar = (n.rescaled k).totalName)) ∘ n.rescaleTable k : NFactor α → Bool) =
          fun f => decide (f.forVar = n.totalName) := by
        funext f
        show decide ((n.rescaleTable k f).forVar = n.totalName) = _
        rw [rescale_forVar]
      rw [this]
      cases hf : n.factors.find? (fun f => decide (f.forVar = n.totalName)) with
      | none => rfl
      | some f =>
        have := List.find?_some hf
        rw [Option.map_some, rescale_kept (.inr (by simpa using this))]
  have hu : ∀ s, n.isKind .utility s = true → s ≠ n.totalName → (n.rescaled k).utilityIn s w = k * n.utilityIn s w := by
    intro s hs hne
    unfold Net.utilityIn
    rw [rescaled_factors, List.filter_map]
    have : ((fun f => decide (f.forVar = s)) ∘ n.rescaleTable k : NFactor α → Bool) = fun f => decide (f.forVar = s) := by
      funext f
      show decide ((n.rescaleTable k f).forVar = s) = _
      rw [rescale_forVar]
    rw [this, List.map_map, ← List.sum_map_mul_left]
    congr 1
    apply List.map_congr_left
    intro f hf
    have hfs : f.forVar = s := by simpa using (List.mem_filter.1 hf).2
    show (n.rescaleTable k f).tab.getD (rowMajor ((n.rescaleTable k f).dims.map (fun s' => (n.count s', (w.set s 0) s')))) 0 = _
    rw [rescale_dims]
    unfold Net.rescaleTable Net.entry
    rw [if_pos ⟨by rw [hfs]; exact hs, by rw [hfs]; exact hne⟩]
    unfold NFactor.tab
    cases f.table with
    | none => simp
    | some t =>
      dsimp only [Option.map_some, Option.getD_some]
      rw [List.getD_eq_getElem?_getD, List.getD_eq_getElem?_getD, List.getElem?_map]
      cases t[rowMajor (f.dims.map fun s' => (n.count s', (w.set s 0) s'))]? <;> simp
  have key : (n.rescaled k).totalIn w = (n.utilityVars.map (fun u => k * (n.weight u.name * n.utilityIn u.name w))).sum := by
    unfold Net.totalIn
    congr 1
    apply List.map_congr_left
    intro v hv
    have hv' : v ∈ n.utilityVars := hv
    simp only [Net.utilityVars, List.mem_filter, decide_eq_true_eq] at hv'
    rw [hw, hu _ ((isKind_iff hn hv'.1 _).2 hv'.2.1) hv'.2.2]
    ring
  rw [key, List.sum_map_mul_left]; rfl

theorem rescaled_expected (hn : n.Valid) (δ : String → World → α) :
    (n.rescaled k).expectedTotal δ = k * n.expectedTotal δ :=
  kinds_expected (n := n) (m := n.rescaled k) rfl hn (fun w => by rw [rescaled_chanceTables hn]; rfl) (rescaled_total hn) δ

theorem rescaled_matters (hn : n.Valid) {ds : List String} {s : String} (h : n.Matters ds s) : (n.rescaled k).Matters ds s := by
  induction h with
  | utility hf hu ht hs =>
    refine .utility (List.mem_map_of_mem hf) ?_ ?_ ?_
    · show n.isKind .utility (n.rescaleTable k _).forVar = true
      rw [rescale_forVar]; exact hu
    · show (n.rescaleTable k _).forVar ≠ n.totalName
      rw [rescale_forVar]; exact ht
    · show _ ∈ (n.rescaleTable k _).given
      rw [rescale_given]; exact hs
  | chance hf hu hc hk _ hs ih =>
    exact .chance (by rw [rescaled_chanceTables hn]; exact hf) hu hc (fun h => hk (rescaled_known.1 h)) ih hs

end rescaled

/-- **C101.** If the declared order of the decisions leaves no choice, multiplying all utilities by a positive number
multiplies by it the expected utility that `SolveUtility` reports after solving all decisions together. -/
theorem C101_units [Field α] [LinearOrder α] [IsStrictOrderedRing α] (sch sch₁ sch' sch₁' : NSched α) {n : Net α}
    (hn : n.Valid) (hs : n.Solvable) (hd : n.decisions ≠ [])
    (hl : n.InLine) (hnn : ∀ f ∈ n.chanceTables, ∀ x ∈ f.tab, 0 ≤ x)
    (hm : ∀ order, order.Perm n.decisions → n.Ordered order → ∀ A d B, order = A ++ d :: B → n.Matters (A ++ [d]) d)
    {k : α} (hk : 0 < k) (ign ign₁ : Bool) :
    ∃ tables n' g n'' x tables₁ m' g₁ m'',
      n.solvePolicies sch false = (.ok tables, n') ∧ n'.solveUtility sch' [] [] "" ign = (.ok g, n'') ∧ g.data = [x] ∧
      (n.rescaled k).solvePolicies sch₁ false = (.ok tables₁, m') ∧
      m'.solveUtility sch₁' [] [] "" ign₁ = (.ok g₁, m'') ∧ g₁.data = [k * x] := by
  have hord : ∀ o, (n.rescaled k).Ordered o ↔ n.Ordered o := by
    intro o
    unfold Net.Ordered
    simp only [rescaled_parent]
  have hst : ∀ A d (δ : World → α), (n.rescaled k).Strategy A d δ ↔ n.Strategy A d δ := by
    intro A d δ
    exact ⟨kinds_strategy (n := n.rescaled k) (m := n) rfl (fun _ _ => rescaled_known.1),
      kinds_strategy (n := n) (m := n.rescaled k) rfl (fun _ _ => rescaled_known.2)⟩
  obtain ⟨tables, n', o, k1, k2, k3, k3', k4, g, n'', k5, k6⟩ := C81_optimal sch sch' hn hs hd hnn hm
    (stepwise := false) (by simp) ign
  obtain ⟨tables₁, m', o', l1, l2, l3, l3', l4, g₁, m'', l5, l6⟩ := C81_optimal sch₁ sch₁' (n := n.rescaled k)
    (rescaled_valid hn) (rescaled_solvable hs) hd (by rw [rescaled_chanceTables hn]; exact hnn)
    (fun o hp ho A d B e => rescaled_matters hn (hm o hp ((hord o).1 ho) A d B e))
    (stepwise := false) (by simp) ign₁
  obtain rfl := hl.unique hn k2 l2 k3 ((hord _).1 l3)
  refine ⟨tables, n', g, n'', _, tables₁, m', g₁, m'', k1, k5, k6, l1, l5, ?_⟩
  rw [l6]
  congr 1
  apply le_antisymm
  · have := k4 ((n.rescaled k).byTables tables₁) (fun A d B e => (hst _ _ _).1 (l3' A d B e).1)
    rw [rescaled_expected hn]
    exact mul_le_mul_of_nonneg_left this hk.le
  · have := l4 (n.byTables tables) (fun A d B e => (hst _ _ _).2 (k3' A d B e).1)
    rwa [rescaled_expected hn] at this

namespace Ex

/-- The letter again, but its content is still known when one has to act. -/
def letter2 : Net ℚ :=
  { letter with factors := [⟨"Letter", [], some [3, 1], [], 2⟩, ⟨"File", ["Letter"], none, [2], 2⟩,
      ⟨"Act", ["File", "Letter"], none, [2, 2], 2⟩,
      ⟨"Gain", ["Letter", "File", "Act"], some [1, 0, 1, 0, 0, 1, 0, 1], [2, 2, 2], 1⟩] }

theorem letter2_new : newNet "letter" "" [nv "Letter" .chance ["a", "b"], nv "File" .decision ["left", "right"],
    nv "Act" .decision ["a", "b"], nv "Gain" .utility ["gain"]] [nf "Letter" [] [3, 1], ⟨"File", ["Letter"], none, [], 0⟩,
    ⟨"Act", ["File", "Letter"], none, [], 0⟩, nf "Gain" ["Letter", "File", "Act"] [1, 0, 1, 0, 0, 1, 0, 1]] = .ok letter2 := rfl

theorem letter2_valid : letter2.Valid where
  names := by decide
  named := by decide
  few := by decide
  outcomes := by decide
  tables := by decide
  hasTable := by decide
  known := by decide
  dims := by decide
  parents := by decide
  size := by
    intro f hf h1 h2
    simp only [letter2, List.mem_cons, List.not_mem_nil, or_false] at hf
    rcases hf with rfl | rfl | rfl | rfl
    · exact ⟨_, rfl, by decide⟩
    · exact absurd h2 (by decide)
    · exact absurd h2 (by decide)
    · exact ⟨_, rfl, by decide⟩
  single := by decide
  weights := by intro i h; cases h

theorem letter2_parent {p d : String} (h : letter2.DecisionParent p d) : p = "File" ∧ d = "Act" := by
  obtain ⟨h1, h2, f, hf, rfl, h3⟩ := h
  have : ∀ f ∈ letter2.factors, letter2.isKind .decision f.forVar = true → ∀ p ∈ f.given,
      letter2.isKind .decision p = true → p = "File" ∧ f.forVar = "Act" := by decide
  exact this f hf h2 p h3 h1

theorem letter2_solvable : letter2.Solvable where
  utility := by decide
  used := by decide
  acyclic := by
    intro s h
    obtain ⟨a, h1, h2⟩ := Relation.TransGen.head'_iff.1 h
    obtain ⟨rfl, rfl⟩ := letter2_parent h1
    rcases Relation.ReflTransGen.cases_head h2 with h | ⟨b, h3, _⟩
    · exact absurd h (by decide)
    · exact absurd (letter2_parent h3).1 (by decide)

theorem letter2_matters {ds : List String} : ∀ d ∈ letter2.decisions, letter2.Matters ds d := by
  intro d hd
  refine .utility (f := ⟨"Gain", ["Letter", "File", "Act"], some [1, 0, 1, 0, 0, 1, 0, 1], [2, 2, 2], 1⟩) (by decide)
    (by decide) (by decide) ?_
  revert d
  decide

/-- Keeping the letter in mind does not make things worse. -/
example (sch sch₁ sch' sch₁' : NSched ℚ) : ∃ tables n' g n'' x tables₁ m' g₁ m'' y,
    letter.solvePolicies sch false = (.ok tables, n') ∧ n'.solveUtility sch' [] [] "" false = (.ok g, n'') ∧ g.data = [x] ∧
    letter2.solvePolicies sch₁ false = (.ok tables₁, m') ∧ m'.solveUtility sch₁' [] [] "" false = (.ok g₁, m'') ∧
    g₁.data = [y] ∧ x ≤ y :=
  C100_information sch sch₁ sch' sch₁' letter_valid letter2_valid ⟨by decide, rfl, by decide, by decide⟩ letter_solvable
    letter2_solvable (by decide) letter_inLine (by decide) (matters_order letter2_matters) false false

/-- In another unit, of which the letter's gain is 7 times as many. -/
example (sch sch₁ sch' sch₁' : NSched ℚ) : ∃ tables n' g n'' x tables₁ m' g₁ m'',
    letter.solvePolicies sch false = (.ok tables, n') ∧ n'.solveUtility sch' [] [] "" false = (.ok g, n'') ∧ g.data = [x] ∧
    (letter.rescaled 7).solvePolicies sch₁ false = (.ok tables₁, m') ∧
    m'.solveUtility sch₁' [] [] "" true = (.ok g₁, m'') ∧ g₁.data = [7 * x] :=
  C101_units sch sch₁ sch' sch₁' letter_valid letter_solvable (by decide) letter_inLine (by decide)
    (matters_order letter_matters) (by norm_num) false true

end Ex

end Bbn
