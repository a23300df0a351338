import Verif.Lemmas.NetPolicies
import Verif.Spec.NetOptimal

/-!
# From the solver's policies to those of the network
-/

set_option autoImplicit false

namespace Bbn

open Finset

variable {α : Type}

/-- The outcomes by name, brought into range. -/
def Net.worldOf (n : Net α) (σ : Assignment) : World := fun s => σ (n.varOf s).id % n.count s

theorem worldOf_fits {n : Net α} (hn : n.Valid) (σ : Assignment) : n.Allowed (n.worldOf σ) := by
  intro v hv
  obtain ⟨hv1, _⟩ := mem_stateVars.1 hv
  unfold Net.worldOf
  rw [count_eq hn hv1]
  exact Nat.mod_lt _ (hn.outcomes v hv1).1

theorem worldOf_ids {n : Net α} (hn : n.Valid) {w : World} (hw : n.Allowed w) {v : NVar} (hv : v ∈ n.stateVars) :
    n.worldOf (n.ids w) v.name = w v.name := by
  obtain ⟨hv1, hv2⟩ := mem_stateVars.1 hv
  unfold Net.worldOf
  rw [(isVar_state hn hv1 hv2).ids hn, count_eq hn hv1]
  exact Nat.mod_eq_of_lt (hw v hv)

theorem ids_worldOf {n : Net α} (hn : n.Valid) {σ : Assignment} {s : String} (hs : n.IsVar s)
    (hσ : σ (n.varOf s).id < (n.varOf s).outcomes) : n.ids (n.worldOf σ) (n.varOf s).id = σ (n.varOf s).id := by
  rw [hs.ids hn]
  unfold Net.worldOf
  rw [hs.outcomes hn] at hσ
  exact Nat.mod_eq_of_lt hσ

theorem val_agree [Zero α] {f : Factor α} {σ τ : Assignment} (h : ∀ v ∈ f.vars, σ v.id = τ v.id) : f.val σ = f.val τ := by
  unfold Factor.val
  congr 2
  unfold tupleOf
  exact List.map_congr_left h

/-- The names of a network without policies stand for decisions exactly if they are decisions. -/
theorem varOf_decision {n : Net α} (hn : n.Valid) (hp : n.policies = []) {s : String} (hs : n.isKind .decision s = true) :
    (n.varOf s).nodeType = .decision := by
  obtain ⟨v, hv, rfl, ht⟩ := isKind_mem.1 hs
  obtain ⟨i, hi⟩ := List.getElem?_of_mem hv
  rw [varOf_eq hn hi (fun e => by
    have := total_utility hn hv ((totalName_iff hn hi).2 e)
    rw [ht] at this; exact absurd this (by decide))]
  show n.solverType v = .decision
  unfold Net.solverType
  rw [if_neg (by simp [Net.hasPolicy, hp, mapGet]), ht]

section
variable [Field α] [LinearOrder α] [IsStrictOrderedRing α] {n : Net α} (hn : n.Valid) (hp : n.policies = []) {vs : Vs}
  {fs ps : List (Factor α)} {deps : List (Var × List Var)} (hS : Solver n [] vs fs ps deps)
include hn hp hS

omit [IsStrictOrderedRing α] in
theorem decision_vars {x : Var} : x ∈ decisionVars vs.variables ↔ ∃ s, n.isKind .decision s = true ∧ x = n.varOf s := by
  simp only [decisionVars, List.mem_filter, decide_eq_true_eq]
  constructor
  · rintro ⟨h1, h2⟩
    obtain ⟨v, a1, a2, a3⟩ := hS.vars.mem.1 h1
    have hv := List.mem_of_getElem? a1
    refine ⟨v.name, ?_, ?_⟩
    · rw [isKind_iff hn hv]
      rw [a3] at h2
      have h2 : n.solverType v = .decision := h2
      unfold Net.solverType at h2
      split_ifs at h2
      exact h2
    · rw [varOf_eq hn a1 (fun e => a2 e.symm)]; exact a3
  · rintro ⟨s, hs, rfl⟩
    exact ⟨(decision_isVar hn hs).varOf_mem hS.vars hn, varOf_decision hn hp hs⟩

omit hn [Field α] [LinearOrder α] [IsStrictOrderedRing α] hp hS in
theorem no_policies_open (hp : n.policies = []) {f : NFactor α} : n.isOpen f = n.isKind .decision f.forVar := by
  simp [Net.isOpen, Net.hasPolicy, hp, mapGet]

omit [IsStrictOrderedRing α] hp hS in
/-- What the solver knows. -/
theorem known_iff_open {pols : List (String × Factor α)} (hS : Solver n pols vs fs ps deps) {ds : List String}
    (hds : ∀ d ∈ ds, n.isKind .decision d = true) (ho : ∀ d ∈ ds, n.hasPolicy d = false) {s : String} (hs : n.IsVar s) :
    Known deps (ds.map n.varOf) (n.varOf s) ↔ n.Known ds s := by
  have hinj : ∀ {a b : String}, n.IsVar a → n.IsVar b → n.varOf a = n.varOf b → a = b :=
    fun ha hb e => Net.IsVar.inj hn ha hb (congrArg Var.id e)
  have hmem : ∀ {a : String}, n.IsVar a → (n.varOf a ∈ ds.map n.varOf ↔ a ∈ ds) := by
    intro a ha
    constructor
    · intro h
      obtain ⟨d, hd, e⟩ := List.mem_map.1 h
      rw [← hinj (decision_isVar hn (hds d hd)) ha e]; exact hd
    · exact fun h => List.mem_map_of_mem h
  unfold Known Net.Known
  rw [hmem hs, hS.deps_eq]
  apply or_congr Iff.rfl
  constructor
  · rintro ⟨e, he, h1, h2⟩
    obtain ⟨f, hf, rfl⟩ := List.mem_map.1 he
    obtain ⟨hf1, hf2⟩ := List.mem_filter.1 hf
    have hd := isOpen_dims hn hf1 hf2
    refine ⟨f, hf1, (hmem (hd _ (by simp [NFactor.dims]))).1 h1, ?_⟩
    obtain ⟨g, hg, e⟩ := List.mem_map.1 h2
    rw [← hinj (hd g (by simp [NFactor.dims, hg])) hs e]; exact hg
  · rintro ⟨f, hf, h1, h2⟩
    refine ⟨n.depEntry f, List.mem_map_of_mem (List.mem_filter.2 ⟨hf, ?_⟩), List.mem_map_of_mem h1, List.mem_map_of_mem h2⟩
    simp only [Net.isOpen, decide_eq_true_eq]
    exact ⟨hds _ h1, ho _ h1⟩

omit [IsStrictOrderedRing α] in
theorem known_iff {ds : List String} (hds : ∀ d ∈ ds, n.isKind .decision d = true) {s : String} (hs : n.IsVar s) :
    Known deps (ds.map n.varOf) (n.varOf s) ↔ n.Known ds s :=
  known_iff_open hn hS hds (fun _ _ => by simp [Net.hasPolicy, hp, mapGet]) hs

omit [Field α] [LinearOrder α] [IsStrictOrderedRing α] hS hp in
theorem known_isVar {ds : List String} (hds : ∀ d ∈ ds, n.isKind .decision d = true) {s : String} (h : n.Known ds s) :
    ∃ v ∈ n.stateVars, v.name = s := by
  rcases h with h | ⟨f, hf, h1, h2⟩
  · obtain ⟨v, hv, e, ht⟩ := isKind_mem.1 (hds s h)
    exact ⟨v, mem_stateVars.2 ⟨hv, by rw [ht]; decide⟩, e⟩
  · obtain ⟨v, hv, e, ht⟩ := isKind_mem.1 (hds _ h1)
    obtain ⟨u, hu, e2, ht2⟩ := hn.parents f hf (fun h => by
      have := total_utility hn hv (e.trans h)
      rw [ht] at this; exact absurd this (by decide)) s h2
    exact ⟨u, mem_stateVars.2 ⟨hu, ht2⟩, e2⟩

omit [IsStrictOrderedRing α] in
/-- A way to decide in the network gives one for the solver. -/
theorem strategy_policy {ds : List String} {d : String} (hds : ∀ e ∈ ds, n.isKind .decision e = true)
    (hd : n.isKind .decision d = true) {δ : World → α} (h : n.Strategy ds d δ) :
    PolicyFor vs.variables deps (ds.map n.varOf) (n.varOf d) (fun σ => δ (n.worldOf σ)) := by
  have hall : ∀ e ∈ ds ++ [d], n.isKind .decision e = true := by
    intro e he
    rcases List.mem_append.1 he with he | he
    · exact hds e he
    · rw [List.mem_singleton.1 he]; exact hd
  have hdv := decision_isVar hn hd
  refine ⟨fun σ _ => h.nonneg _ (worldOf_fits hn σ), ?_, ?_⟩
  · intro σ _
    rw [hdv.outcomes hn, ← h.one _ (worldOf_fits hn σ)]
    apply Finset.sum_congr rfl
    intro k hk
    refine h.known _ _ (worldOf_fits hn _) ?_ ?_
    · intro v hv
      unfold World.set
      split_ifs with e
      · rw [← count_eq hn (mem_stateVars.1 hv).1, e]
        exact Finset.mem_range.1 hk
      · exact worldOf_fits hn σ v hv
    · intro s hs
      obtain ⟨v, hv, rfl⟩ := known_isVar hn hall hs
      have hvar := isVar_state hn (mem_stateVars.1 hv).1 (mem_stateVars.1 hv).2
      unfold Net.worldOf World.set Assignment.upd
      by_cases e : v.name = d
      · rw [if_pos e, if_pos (by rw [e]), e]
        exact Nat.mod_eq_of_lt (Finset.mem_range.1 hk)
      · rw [if_neg e, if_neg (fun e2 => e (Net.IsVar.inj hn hvar hdv e2))]
  · intro σ τ hk
    refine h.known _ _ (worldOf_fits hn _) (worldOf_fits hn _) ?_
    intro s hs
    obtain ⟨v, hv, rfl⟩ := known_isVar hn hall hs
    have hvar := isVar_state hn (mem_stateVars.1 hv).1 (mem_stateVars.1 hv).2
    unfold Net.worldOf
    rw [hk (n.varOf v.name) (hvar.varOf_mem hS.vars hn)]
    have := (known_iff hn hp hS hall hvar).2 hs
    rw [List.map_append] at this
    exact this

omit [IsStrictOrderedRing α] in
/-- A policy of the solver is a way to decide in the network. -/
theorem policy_strategy {ds : List String} {d : String} (hds : ∀ e ∈ ds, n.isKind .decision e = true)
    (hd : n.isKind .decision d = true) {pol : Factor α}
    (hv : ∀ v ∈ pol.vars, v ∈ vs.variables ∧ Known deps ((ds ++ [d]).map n.varOf) v)
    (h : PolicyFor vs.variables deps (ds.map n.varOf) (n.varOf d) pol.val) :
    n.Strategy ds d (fun w => pol.val (n.ids w)) := by
  have hall : ∀ e ∈ ds ++ [d], n.isKind .decision e = true := by
    intro e he
    rcases List.mem_append.1 he with he | he
    · exact hds e he
    · rw [List.mem_singleton.1 he]; exact hd
  have hdv := decision_isVar hn hd
  -- the variables of the policy, by name
  have hname : ∀ v ∈ pol.vars, ∃ u ∈ n.stateVars, v = n.varOf u.name ∧ n.Known (ds ++ [d]) u.name := by
    intro v hvp
    obtain ⟨h1, h2⟩ := hv v hvp
    obtain ⟨u, a1, a2, a3⟩ := hS.vars.mem.1 h1
    have hu := List.mem_of_getElem? a1
    have e : v = n.varOf u.name := by rw [varOf_eq hn a1 (fun e => a2 e.symm)]; exact a3
    have hvar : n.IsVar u.name := ⟨v.id, u, a1, rfl, fun e => a2 e.symm⟩
    rw [e] at h2
    have hk := (known_iff hn hp hS hall hvar).1 h2
    obtain ⟨x, hx, hxe⟩ := known_isVar hn hall hk
    have := name_unique hn (mem_stateVars.1 hx).1 hu hxe
    exact ⟨u, this ▸ hx, e, hk⟩
  -- an assignment that fits and agrees with the world on the policy
  have hz : ∀ w, n.Allowed w → ∃ σ, Fits σ vs.variables ∧ ∀ u ∈ n.stateVars, σ (n.varOf u.name).id = w u.name := by
    intro w hw
    refine ⟨n.ids (fun s => w s % n.count s), ?_, ?_⟩
    · intro x hx
      obtain ⟨u, a1, a2, a3⟩ := hS.vars.mem.1 hx
      have hu := List.mem_of_getElem? a1
      have : x.outcomes = u.outcomes.length := by rw [a3]; rfl
      rw [this]
      simp only [Net.ids, a1]
      rw [count_eq hn hu]
      exact Nat.mod_lt _ (hn.outcomes u hu).1
    · intro u hu
      obtain ⟨hu1, hu2⟩ := mem_stateVars.1 hu
      rw [(isVar_state hn hu1 hu2).ids hn, count_eq hn hu1]
      exact Nat.mod_eq_of_lt (hw u hu)
  have hagree : ∀ w σ, (∀ u ∈ n.stateVars, σ (n.varOf u.name).id = w u.name) → pol.val (n.ids w) = pol.val σ := by
    intro w σ h
    apply val_agree
    intro v hv
    obtain ⟨u, hu, rfl, _⟩ := hname v hv
    rw [(isVar_state hn (mem_stateVars.1 hu).1 (mem_stateVars.1 hu).2).ids hn, h u hu]
  refine ⟨?_, ?_, ?_⟩
  · intro w hw
    obtain ⟨σ, h1, h2⟩ := hz w hw
    rw [hagree w σ h2]
    exact h.nonneg σ h1
  · intro w hw
    obtain ⟨σ, h1, h2⟩ := hz w hw
    rw [← h.one σ h1, hdv.outcomes hn]
    apply Finset.sum_congr rfl
    intro k _
    apply hagree
    intro u hu
    have hvar := isVar_state hn (mem_stateVars.1 hu).1 (mem_stateVars.1 hu).2
    unfold World.set Assignment.upd
    by_cases e : u.name = d
    · rw [if_pos e, if_pos (by rw [e])]
    · rw [if_neg e, if_neg (fun e2 => e (Net.IsVar.inj hn hvar hdv e2)), h2 u hu]
  · intro w w' _ _ hk
    apply val_agree
    intro v hv
    obtain ⟨u, hu, rfl, hku⟩ := hname v hv
    have hvar := isVar_state hn (mem_stateVars.1 hu).1 (mem_stateVars.1 hu).2
    rw [hvar.ids hn, hvar.ids hn]
    exact hk _ hku

omit [IsStrictOrderedRing α] hp in
/-- The solver's sums over all variables are sums over worlds. -/
theorem expected_world {δ : String → World → α} {G : Assignment → α}
    (hG : ∀ w, n.Allowed w → G (n.ids w) = (n.decisions.map (fun d => δ d w)).prod) (hpo : n.PoliciesOK) :
    sumOver (vs.variables.filter (fun v => v.nodeType ≠ .utility)) (fun τ =>
      joint ((fs ++ ps).filter (fun f => !f.isUtility)) τ * totalUtility vs.variables (fs ++ ps) n.solverWeights τ * G τ)
      (fun _ => 0) = n.expectedTotal δ := by
  have hperm : (vs.variables.filter (fun v => v.nodeType ≠ .utility)).Perm n.stateSolver := by
    rw [List.perm_ext_iff_of_nodup]
    · intro x
      rw [mem_stateSolver hn hS.vars]
      simp
    · exact (List.Nodup.of_map _ hS.vars.ids).filter _
    · exact List.Nodup.of_map _ (stateSolver_ids hn)
  rw [sumOver_perm hperm (hS.vars.ids.sublist (List.filter_sublist.map _))]
  have hzero : (fun _ => 0 : Assignment) = n.ids (fun _ => 0) := by
    funext i
    unfold Net.ids
    split <;> rfl
  rw [hzero]
  symm
  unfold Net.expectedTotal Net.stateSolver
  apply sumWorlds_eq hn
  · exact fun v hv => mem_stateVars.1 hv
  · exact stateVars_names hn
  · intro w h1 h2
    have hfit : n.FitsAll w := by
      intro v hv
      by_cases hu : v.nodeType = .utility
      · rw [h2 v.name (by
          intro hm
          obtain ⟨u, hu1, hu2⟩ := List.mem_map.1 hm
          obtain ⟨hu3, hu4⟩ := mem_stateVars.1 hu1
          rw [name_unique hn hu3 hv hu2] at hu4
          exact hu4 hu)]
        exact (hn.outcomes v hv).1
      · exact h1 v (mem_stateVars.2 ⟨hv, hu⟩)
    have hj := joint_world hn hpo (pols := []) (by simp) hS (w := w) h1
    unfold probTables Net.joint at hj
    rw [hj, totalUtility_world hn hpo (by simp) hS hfit, hG w h1]
    simp

omit hp hS in
/-- The probability tables are not negative. -/
theorem tables_nonneg {pols : List (String × Factor α)} (hS : Solver n pols vs fs ps deps) (hnn : ∀ f ∈ n.chanceTables, ∀ x ∈ f.tab, 0 ≤ x) {fac : Factor α} (hf : fac ∈ fs)
    (hu : fac.isUtility = false) : fac.NonNeg := by
  intro σ hσ
  obtain ⟨f, hf1, hf2⟩ := forall₂_mem_right hS.tables hf
  have hk := table_kind hn hf1 hf2
  rw [hu] at hk
  obtain ⟨hf3, hf4⟩ := List.mem_filter.1 hf1
  simp only [Net.isTable, decide_eq_true_eq] at hf4
  have hdims := dims_isVar hn hf3 hf4.1
  have e : fac.val σ = fac.val (n.ids (n.worldOf σ)) := by
    apply val_agree
    intro v hv
    rw [hf2.vars] at hv
    obtain ⟨s, hs, rfl⟩ := List.mem_map.1 hv
    exact (ids_worldOf hn (hdims s hs) (hσ _ (by rw [hf2.vars]; exact hv))).symm
  rw [e, hf2.val _ (by
    intro s hs
    have := hσ (n.varOf s) (by rw [hf2.vars]; exact List.mem_map_of_mem hs)
    rw [(hdims s hs).outcomes hn] at this
    unfold Net.worldOf
    exact Nat.mod_lt _ (by omega)), if_pos (by rw [hk]; rfl)]
  have hentry : ∀ w, 0 ≤ n.entry f w := by
    intro w
    unfold Net.entry
    rw [List.getD_eq_getElem?_getD]
    cases h : f.tab[rowMajor (f.dims.map (fun s => (n.count s, w s)))]? with
    | none => exact le_refl _
    | some x => exact hnn f (List.mem_filter.2 ⟨hf3, by rw [hk]; rfl⟩) x (List.mem_of_getElem? h)
  unfold Net.prob
  split_ifs
  · exact hentry _
  · exact div_nonneg (hentry _) (Finset.sum_nonneg (fun k _ => hentry _))

omit [IsStrictOrderedRing α] hp hS in
/-- What matters in the network is linked in the solver. -/
theorem linked_gen {pols : List (String × Factor α)} (hS : Solver n pols vs fs ps deps) {all : List String} {H : Nat → Prop}
    (hH : ∀ f ∈ n.chanceTables, ∀ u ∈ f.dims, n.IsVar u → n.isKind .chance u = true → ¬ n.Known all u → H (n.varOf u).id)
    {s : String} (h : n.Matters all s) : Linked (fs ++ ps) H (n.varOf s).id := by
  have htab : ∀ f ∈ n.factors, n.isTable f = true → ∃ fac ∈ fs ++ ps, TableFac n f fac := by
    intro f hf h
    obtain ⟨fac, h1, h2⟩ := forall₂_mem_left hS.tables (List.mem_filter.2 ⟨hf, h⟩)
    exact ⟨fac, List.mem_append.2 (.inl h1), h2⟩
  induction h with
  | @utility f s hf hu ht hs =>
    have htt : n.isTable f = true := by
      simp only [Net.isTable, decide_eq_true_eq]
      refine ⟨ht, ?_⟩
      obtain ⟨v, hv, e1, e2⟩ := isKind_mem.1 hu
      by_contra hc
      rw [Bool.not_eq_false, ← e1, isKind_iff hn hv, e2] at hc
      exact absurd hc (by decide)
    obtain ⟨fac, h1, h2⟩ := htab f hf htt
    have hk := table_kind hn (List.mem_filter.2 ⟨hf, htt⟩) h2
    refine Linked.util h1 ?_ (v := n.varOf s) (by rw [h2.vars]; exact List.mem_map_of_mem (by simp [NFactor.dims, hs]))
    obtain ⟨v, hv, e1, e2⟩ := isKind_mem.1 hu
    have : n.isKind .chance f.forVar = false := by
      by_contra hc
      rw [Bool.not_eq_false, ← e1, isKind_iff hn hv, e2] at hc
      exact absurd hc (by decide)
    rw [this] at hk
    simpa using hk.symm
  | @chance f u s hf hu hc hk hm hs ih =>
    obtain ⟨hf1, hf2⟩ := List.mem_filter.1 hf
    have hnt : f.forVar ≠ n.totalName := by
      intro e
      obtain ⟨v, hv, e1, e2⟩ := isKind_mem.1 hf2
      have := total_utility hn hv (e1.trans e)
      rw [e2] at this; exact absurd this (by decide)
    have htt : n.isTable f = true := by
      simp only [Net.isTable, decide_eq_true_eq]
      refine ⟨hnt, ?_⟩
      obtain ⟨v, hv, e1, e2⟩ := isKind_mem.1 hf2
      by_contra hc
      rw [Bool.not_eq_false, ← e1, isKind_iff hn hv, e2] at hc
      exact absurd hc (by decide)
    obtain ⟨fac, h1, h2⟩ := htab f hf1 htt
    refine Linked.step h1 (u := n.varOf u) (v := n.varOf s) (by rw [h2.vars]; exact List.mem_map_of_mem hu)
      (by rw [h2.vars]; exact List.mem_map_of_mem hs) (hH f hf u hu (dims_isVar hn hf1 hnt u hu) hc hk) ih

omit [IsStrictOrderedRing α] in
/-- What matters in the network is linked in the solver. -/
theorem linked_of {ds all : List String} (hds : ∀ d ∈ ds, n.isKind .decision d = true) (hsub : ∀ d ∈ ds, d ∈ all)
    {s : String} (h : n.Matters all s) :
    Linked (fs ++ ps) (Unknown vs.variables deps (ds.map n.varOf)) (n.varOf s).id := by
  refine linked_gen hn hS ?_ h
  intro f hf u hu huv _ hk v hv hid hkn
  have e : v = n.varOf u := by
    obtain ⟨x, a1, a2, a3⟩ := hS.vars.mem.1 hv
    have e2 : n.varOf x.name = v := by rw [varOf_eq hn a1 (fun e => a2 e.symm)]; exact a3.symm
    have : x.name = u := Net.IsVar.inj hn ⟨v.id, x, a1, rfl, fun e => a2 e.symm⟩ huv (by rw [e2]; exact hid)
    rw [← e2, this]
  rw [e, known_iff hn hp hS hds huv] at hkn
  apply hk
  rcases hkn with h | ⟨g, hg, h1, h2⟩
  · exact .inl (hsub _ h)
  · exact .inr ⟨g, hg, hsub _ h1, h2⟩

omit [IsStrictOrderedRing α] in
/-- The solver's unseen variables. -/
theorem unseen_vars {ds : List String} (hds : ∀ d ∈ ds, n.isKind .decision d = true) :
    (unseen vs.variables deps (ds.map n.varOf)).Perm ((n.unseen ds).map (fun v => n.varOf v.name)) := by
  have hst : ∀ v ∈ n.unseen ds, v ∈ n.stateVars := by
    intro v hv
    obtain ⟨h1, h2⟩ := List.mem_filter.1 hv
    simp only [decide_eq_true_eq] at h2
    exact mem_stateVars.2 ⟨h1, by rw [h2.1]; decide⟩
  rw [List.perm_ext_iff_of_nodup]
  · intro x
    unfold unseen
    rw [List.mem_filter, List.mem_map]
    simp only [decide_eq_true_eq]
    constructor
    · rintro ⟨h1, h2, h3⟩
      obtain ⟨v, a1, a2, a3⟩ := hS.vars.mem.1 h1
      have hv := List.mem_of_getElem? a1
      have e : n.varOf v.name = x := by rw [varOf_eq hn a1 (fun e => a2 e.symm)]; exact a3.symm
      refine ⟨v, List.mem_filter.2 ⟨hv, ?_⟩, e⟩
      simp only [decide_eq_true_eq]
      constructor
      · rw [a3] at h2
        have h2 : n.solverType v = .chance := h2
        unfold Net.solverType at h2
        rw [if_neg (by simp [Net.hasPolicy, hp, mapGet])] at h2
        exact h2
      · rw [← known_iff hn hp hS hds ⟨x.id, v, a1, rfl, fun e => a2 e.symm⟩, e]
        exact h3
    · rintro ⟨v, hv, rfl⟩
      have hv' := hv
      obtain ⟨h1, h2⟩ := List.mem_filter.1 hv
      simp only [decide_eq_true_eq] at h2
      have hvar := isVar_state hn h1 (mem_stateVars.1 (hst v hv')).2
      refine ⟨hvar.varOf_mem hS.vars hn, ?_, ?_⟩
      · obtain ⟨i, hi⟩ := List.getElem?_of_mem h1
        rw [varOf_eq hn hi (fun e => (mem_stateVars.1 (hst v hv')).2 (total_utility hn h1 ((totalName_iff hn hi).2 e)))]
        show n.solverType v = .chance
        unfold Net.solverType
        rw [if_neg (by simp [Net.hasPolicy, hp, mapGet]), h2.1]
      · rw [known_iff hn hp hS hds hvar]; exact h2.2
  · exact (List.Nodup.of_map _ hS.vars.ids).filter _
  · refine (List.nodup_map_iff_inj_on ?_).2 ?_
    · exact (List.Nodup.of_map _ hn.names).filter _
    · intro u hu v hv e
      have h1 := mem_stateVars.1 (hst u hu)
      have h2 := mem_stateVars.1 (hst v hv)
      exact name_unique hn h1.1 h2.1 (Net.IsVar.inj hn (isVar_state hn h1.1 h1.2) (isVar_state hn h2.1 h2.2)
        (congrArg Var.id e))

omit [IsStrictOrderedRing α] in
/-- The solver's sums over the unseen variables. -/
theorem worth_world {ds : List String} (hds : ∀ d ∈ ds, n.isKind .decision d = true) (hpo : n.PoliciesOK) {w : World}
    (hw : n.FitsAll w) :
    sumOver (unseen vs.variables deps (ds.map n.varOf)) (fun τ =>
      joint ((fs ++ ps).filter (fun f => !f.isUtility)) τ * totalUtility vs.variables (fs ++ ps) n.solverWeights τ)
      (n.ids w) = n.worth ds w := by
  rw [sumOver_perm (unseen_vars hn hp hS hds) (hS.vars.ids.sublist (List.filter_sublist.map _))]
  symm
  unfold Net.worth
  apply sumWorlds_eq hn
  · intro v hv
    obtain ⟨h1, h2⟩ := List.mem_filter.1 hv
    simp only [decide_eq_true_eq] at h2
    exact ⟨h1, by rw [h2.1]; decide⟩
  · exact hn.names.sublist (List.filter_sublist.map _)
  · intro w' h1 h2
    have hfit : n.FitsAll w' := by
      intro v hv
      by_cases hu : v.name ∈ (n.unseen ds).map NVar.name
      · obtain ⟨u, hu1, hu2⟩ := List.mem_map.1 hu
        have := name_unique hn (List.mem_filter.1 hu1).1 hv hu2
        exact this ▸ h1 u hu1
      · rw [h2 _ hu]; exact hw v hv
    have hj := joint_world hn hpo (pols := []) (by simp) hS (w := w') hfit.state
    unfold probTables Net.joint at hj
    rw [hj, totalUtility_world hn hpo (by simp) hS hfit]
    simp

end

/-- Solving all decisions in one step: the stored policies are those of the solver. -/
theorem solved_together [Field α] [LinearOrder α] [IsStrictOrderedRing α] (sch : NSched α) {n : Net α} (hn : n.Valid)
    (hs : n.Solvable) (hd : n.decisions ≠ []) {stepwise : Bool} (hone : stepwise = true → n.decisions.length = 1)
    {N m : Net α} (hN : N = { n with policies := [] })
    (hm : Net.policySteps sch stepwise (n.countDecisionSteps stepwise) 0 N = (.ok (), m)) :
    ∃ vs fs deps solved st', Solver N [] vs fs [] deps ∧ UtilityOK vs.variables (fs ++ []) N.solverWeights ∧
      DecisionOK vs.variables (fs ++ []) ∧ DecAcyclic deps ∧
      (VE.new vs (fs ++ []) deps N.solverWeights).solvePolicies (sch.ve 0) false = .ok (some solved, st') ∧
      ∀ p ∈ m.policies, ∃ q ∈ solved, q.1 = N.varOf p.1 ∧ q.2.2 = p.2 := by
  have hNv : N.Valid := by rw [hN]; exact hn.with n.vs n.names []
  have hNs : N.Solvable := by rw [hN]; exact hs.with n.vs n.names []
  have hNp : N.policies = [] := by rw [hN]
  have hpo : N.PoliciesOK := by rw [hN]; exact ⟨List.nodup_nil, by simp, by simp, by simp⟩
  obtain ⟨vs, fs, ps, deps, h1, hS⟩ := toVE_spec sch 0 hNv hpo []
  have hpols : (sch.pol 0 N.policies).filter (fun p => ∀ e ∈ ([] : List (String × String)), e.1 ≠ p.1) = [] := by
    have := sch.pol_perm 0 N.policies
    rw [hNp, List.perm_nil] at this
    rw [hNp, this]; rfl
  rw [hpols] at hS
  obtain rfl : ps = [] := List.forall₂_nil_left_iff.1 hS.policies
  have hu := utility_ok hNv hpo (by simp) hS hNs.utility
  have hdo := decisionOK_of hNv hNs.used hS
  have hac := decAcyclic_of hNv hS hNs.acyclic
  have hkind : ∀ s, s ∈ n.decisions ↔ N.isKind .decision s = true := by
    intro s
    rw [isKind_mem, hN]
    simp only [Net.decisions, List.mem_map, List.mem_filter, decide_eq_true_eq]
    constructor
    · rintro ⟨v, ⟨a, b⟩, c⟩; exact ⟨v, a, c, b⟩
    · rintro ⟨v, a, c, b⟩; exact ⟨v, ⟨a, b⟩, c⟩
  have hdne : decisionVars vs.variables ≠ [] := by
    obtain ⟨s, hs⟩ := List.exists_mem_of_ne_nil _ hd
    exact List.ne_nil_of_mem ((decision_vars hNv hNp hS).2 ⟨s, (hkind s).1 hs, rfl⟩)
  have hone' : stepwise = true → ∃ d, decisionVars vs.variables = [d] := by
    intro e
    obtain ⟨s, hs⟩ := List.length_eq_one_iff.1 (hone e)
    refine ⟨N.varOf s, ?_⟩
    rw [← List.perm_singleton, List.perm_ext_iff_of_nodup]
    · intro x
      rw [decision_vars hNv hNp hS, List.mem_singleton]
      constructor
      · rintro ⟨y, hy, rfl⟩
        rw [← hkind, hs, List.mem_singleton] at hy
        rw [hy]
      · rintro rfl
        exact ⟨s, (hkind s).1 (by rw [hs]; simp), rfl⟩
    · exact (List.Nodup.of_map _ hS.vars.ids).filter _
    · simp
  have hcount : n.countDecisionSteps stepwise = 1 := by
    unfold Net.countDecisionSteps
    cases stepwise with
    | false => rfl
    | true =>
      have := hone rfl
      simp only [Net.decisions, List.length_map] at this
      simp [this]
  obtain ⟨solved, st', b1, _⟩ := solver_policies (sch.ve 0) hS.problem (fun _ => hu) hdo hac hdne false
  have b2 : (VE.new vs (fs ++ []) deps N.solverWeights).solvePolicies (sch.ve 0) stepwise = .ok (some solved, st') := by
    cases stepwise with
    | false => exact b1
    | true =>
      obtain ⟨d, hd⟩ := hone' rfl
      rw [solvePolicies_single (sch.ve 0) hS.problem hu hdo hac hd]
      exact b1
  refine ⟨vs, fs, deps, solved, st', hS, hu, hdo, hac, b1, ?_⟩
  rw [hcount, Net.policySteps] at hm
  have hen : N.enter sch 0 [] = (.ok (VE.new vs (fs ++ []) deps N.solverWeights),
      { N with vs := some (VE.new vs (fs ++ []) deps N.solverWeights).vs, names := N.nameTable }) := by
    unfold Net.enter; rw [h1]
  rw [hen] at hm
  dsimp only at hm
  rw [b2] at hm
  dsimp only at hm
  rw [Net.policySteps] at hm
  obtain rfl := (Prod.mk.inj hm).2
  dsimp only
  intro p hp
  have hkeys : ((sch.names 0 N.nameTable).map Prod.fst).Nodup :=
    ((sch.names_perm 0 N.nameTable).map Prod.fst).nodup_iff.2 (hS.vars.keys hNv)
  rw [hNp, foldl_store solved _ _ hkeys (by simp), List.nil_append] at hp
  obtain ⟨e, he, hst⟩ := List.mem_filterMap.1 hp
  unfold storedPolicy at hst
  split_ifs at hst with hdd
  obtain ⟨q, hq, rfl⟩ := Option.map_eq_some_iff.1 hst
  refine ⟨_, mapGet_some hq, ?_, rfl⟩
  have : mapGet N.nameTable e.1 = some e.2 :=
    (mapGet_mem (hS.vars.keys hNv)).2 ((sch.names_perm 0 N.nameTable).subset he)
  unfold Net.varOf
  rw [this]; rfl

theorem sumWorlds_congr [AddCommMonoid α] {F G : World → α} :
    ∀ (l : List NVar) (w : World), (l.map NVar.name).Nodup →
    (∀ w' : World, (∀ v ∈ l, w' v.name < v.outcomes.length) → (∀ s, s ∉ l.map NVar.name → w' s = w s) → F w' = G w') →
    sumWorlds l F w = sumWorlds l G w := by
  intro l
  induction l with
  | nil => intro w _ h; exact h w (by simp) (by simp)
  | cons v l ih =>
    intro w hnd h
    rw [List.map_cons, List.nodup_cons] at hnd
    simp only [sumWorlds]
    apply Finset.sum_congr rfl
    intro k hk
    apply ih _ hnd.2
    intro w' h1 h2
    apply h w'
    · intro u hu
      rcases List.mem_cons.1 hu with rfl | hu
      · rw [h2 _ hnd.1]; simpa [World.set] using hk
      · exact h1 u hu
    · intro s hs
      simp only [List.map_cons, List.mem_cons, not_or] at hs
      rw [h2 s hs.2]
      simp [World.set, hs.1]

end Bbn
