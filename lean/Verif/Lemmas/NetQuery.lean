import Verif.Lemmas.NetSums
import Mathlib.Algebra.Field.Basic
import Mathlib.Algebra.CharZero.Defs

/-!
# The joint distribution of a network and the solver's tables
-/

set_option autoImplicit false

namespace Bbn

open Finset

variable {α : Type}

/-- All chance and decision variables have an outcome they have. -/
def Net.FitsWorld (n : Net α) (w : World) : Prop := ∀ v ∈ n.stateVars, w v.name < v.outcomes.length

theorem mem_stateVars {n : Net α} {v : NVar} : v ∈ n.stateVars ↔ v ∈ n.variables ∧ v.nodeType ≠ .utility := by
  simp [Net.stateVars]

theorem stateVars_names {n : Net α} (hn : n.Valid) : (n.stateVars.map NVar.name).Nodup :=
  hn.names.sublist (List.filter_sublist.map _)

/-- The solver variables of the chance and decision variables. -/
def Net.stateSolver (n : Net α) : List Var := n.stateVars.map (fun v => n.varOf v.name)

theorem stateSolver_ids {n : Net α} (hn : n.Valid) : (n.stateSolver.map Var.id).Nodup := by
  have := nodup_varOf hn (l := n.stateVars.map NVar.name) (by
    intro s hs
    obtain ⟨v, hv, rfl⟩ := List.mem_map.1 hs
    exact isVar_state hn (mem_stateVars.1 hv).1 (mem_stateVars.1 hv).2) (stateVars_names hn)
  rw [List.map_map] at this
  unfold Net.stateSolver
  rw [List.map_map]
  simpa [Function.comp_def] using this

theorem solverType_utility {n : Net α} {v : NVar} : n.solverType v = .utility ↔ v.nodeType = .utility := by
  unfold Net.solverType
  split_ifs with h
  · rw [h.1]; decide
  · rfl

theorem varOf_utility {n : Net α} (hn : n.Valid) {v : NVar} (hv : v ∈ n.variables) (ht : v.name ≠ n.totalName) :
    (n.varOf v.name).nodeType = .utility ↔ v.nodeType = .utility := by
  obtain ⟨i, hi⟩ := List.getElem?_of_mem hv
  rw [varOf_eq hn hi (fun e => ht ((totalName_iff hn hi).2 e))]
  exact solverType_utility

theorem mem_stateSolver {n : Net α} (hn : n.Valid) {names : List (String × NVar × Var)} {R : List Var}
    (hs : SolverVars n names R) {w : Var} : w ∈ n.stateSolver ↔ w ∈ R ∧ w.nodeType ≠ .utility := by
  unfold Net.stateSolver
  rw [List.mem_map]
  constructor
  · rintro ⟨v, hv, rfl⟩
    obtain ⟨h1, h2⟩ := mem_stateVars.1 hv
    refine ⟨(isVar_state hn h1 h2).varOf_mem hs hn, ?_⟩
    rw [ne_eq, varOf_utility hn h1 (fun e => h2 (total_utility hn h1 e))]
    exact h2
  · rintro ⟨h1, h2⟩
    obtain ⟨v, h3, h4, h5⟩ := hs.mem.1 h1
    have hv := List.mem_of_getElem? h3
    have e : n.varOf v.name = w := by rw [varOf_eq hn h3 (fun e => h4 e.symm)]; exact h5.symm
    refine ⟨v, mem_stateVars.2 ⟨hv, ?_⟩, e⟩
    intro hu
    apply h2
    rw [h5]
    exact solverType_utility.2 hu

/-- The probability tables of the solver. -/
def probTables (fs : List (Factor α)) : List (Factor α) := fs.filter (fun f => !f.isUtility)

theorem dims_fit {n : Net α} (hn : n.Valid) {f : NFactor α} (hf : f ∈ n.factors) (ht : f.forVar ≠ n.totalName)
    {w : World} (hw : n.FitsWorld w) (h0 : ∀ v ∈ n.variables, v.nodeType = .utility → w v.name = 0) :
    ∀ s ∈ f.dims, w s < n.count s := by
  intro s hs
  have : ∃ v ∈ n.variables, v.name = s := by
    simp only [NFactor.dims, List.mem_append, List.mem_singleton] at hs
    rcases hs with hs | rfl
    · obtain ⟨v, hv, h, _⟩ := hn.parents f hf ht s hs
      exact ⟨v, hv, h⟩
    · exact hn.known f hf
  obtain ⟨v, hv, rfl⟩ := this
  rw [count_eq hn hv]
  by_cases hu : v.nodeType = .utility
  · rw [h0 v hv hu]; exact (hn.outcomes v hv).1
  · exact hw v (mem_stateVars.2 ⟨hv, hu⟩)

theorem table_kind [Field α] [DecidableEq α] {n : Net α} (hn : n.Valid) {f : NFactor α}
    (hf : f ∈ n.factors.filter n.isTable) {fac : Factor α} (h : TableFac n f fac) :
    n.isKind .chance f.forVar = !fac.isUtility := by
  obtain ⟨hf1, hf2⟩ := List.mem_filter.1 hf
  simp only [Net.isTable, decide_eq_true_eq] at hf2
  obtain ⟨v, hv, hvn⟩ := hn.known f hf1
  have hnt : v.name ≠ n.totalName := by rw [hvn]; exact hf2.1
  have hd : v.nodeType ≠ .decision := by
    intro e
    have := (isKind_iff hn hv .decision).2 e
    rw [hvn, hf2.2] at this
    exact absurd this (by decide)
  rw [Bool.eq_iff_iff]
  simp only [Factor.isUtility, Bool.not_eq_true', List.any_eq_false, decide_eq_true_eq, h.vars, List.mem_map,
    forall_exists_index, and_imp, forall_apply_eq_imp_iff₂]
  rw [← hvn, isKind_iff hn hv]
  constructor
  · intro hc s hs
    simp only [NFactor.dims, List.mem_append, List.mem_singleton] at hs
    rcases hs with hs | rfl
    · obtain ⟨u, hu, rfl, hut⟩ := hn.parents f hf1 hf2.1 s hs
      rw [varOf_utility hn hu (fun e => hut (total_utility hn hu e))]
      exact hut
    · rw [← hvn, varOf_utility hn hv hnt, hc]; decide
  · intro hall
    have := hall f.forVar (by simp [NFactor.dims])
    rw [← hvn, varOf_utility hn hv hnt] at this
    cases hvt : v.nodeType
    · rfl
    · exact absurd hvt hd
    · exact absurd hvt this

theorem policy_vars_state {n : Net α} (hp : n.PoliciesOK) {p : String × Factor α} (hpm : p ∈ n.policies)
    {fac : Factor α} (h : PolicyFac n p fac) : fac.isUtility = false := by
  simp only [Factor.isUtility, List.any_eq_false, decide_eq_true_eq, h.vars, List.mem_map, forall_exists_index,
    and_imp, forall_apply_eq_imp_iff₂]
  intro w hw
  obtain ⟨v, h1, h2, _⟩ := hp.vars p hpm w hw
  rw [varAt_eq h1]
  exact fun e => h2 (solverType_utility.1 e)

section
variable [Field α] [DecidableEq α] {n : Net α} (hn : n.Valid) (hp : n.PoliciesOK) {pols : List (String × Factor α)}
  (hpols : ∀ p ∈ pols, p ∈ n.policies) {vs : Vs} {fs ps : List (Factor α)} {deps : List (Var × List Var)}
  (hS : Solver n pols vs fs ps deps)
include hn hp hpols hS

omit hp hpols in
theorem probTables_tables : List.Forall₂ (TableFac n) n.chanceTables (fs.filter (fun f => !f.isUtility)) := by
  have h := forall₂_filter (p := fun f => n.isKind .chance f.forVar) (q := fun f => !f.isUtility) hS.tables
    (fun f hf fac h => table_kind hn hf h)
  rw [List.filter_filter] at h
  have e : n.factors.filter (fun f => n.isKind .chance f.forVar && n.isTable f) = n.chanceTables := by
    unfold Net.chanceTables
    apply List.filter_congr
    intro f hf
    rw [Bool.eq_iff_iff, Bool.and_eq_true]
    refine ⟨fun h => h.1, fun h => ⟨h, ?_⟩⟩
    obtain ⟨v, hv, h1, h2⟩ := isKind_mem.1 h
    simp only [Net.isTable, decide_eq_true_eq]
    refine ⟨fun e => ?_, ?_⟩
    · have := total_utility hn hv (h1.trans e)
      rw [h2] at this; exact absurd this (by decide)
    · rw [← h1, ← Bool.not_eq_true, isKind_iff hn hv, h2]; decide
  rw [e] at h
  exact h

omit hn in
theorem probTables_policies : ps.filter (fun f => !f.isUtility) = ps := by
  rw [List.filter_eq_self]
  intro f hf
  obtain ⟨p, hp1, hp2⟩ := forall₂_mem_right hS.policies hf
  rw [policy_vars_state hp (hpols p hp1) hp2]; rfl

theorem joint_world {w : World} (hw : n.FitsWorld w) :
    joint (probTables (fs ++ ps)) (n.ids w) = n.joint pols w := by
  unfold probTables Net.joint
  rw [List.filter_append, joint_append, probTables_policies hp hpols hS]
  congr 1
  · have h := probTables_tables hn hS
    unfold joint
    have key : ∀ {as : List (NFactor α)} {bs : List (Factor α)}, List.Forall₂ (TableFac n) as bs →
        (∀ a ∈ as, a ∈ n.chanceTables) → (bs.map (fun f => f.val (n.ids w))).prod = (as.map (fun f => n.prob f w)).prod := by
      intro as bs h
      induction h with
      | nil => intro _; rfl
      | @cons a b as bs hab _ ih =>
        intro hsub
        rw [List.map_cons, List.prod_cons, List.map_cons, List.prod_cons, ih (fun a ha => hsub a (List.mem_cons_of_mem _ ha))]
        obtain ⟨ha1, ha2⟩ := List.mem_filter.1 (hsub a List.mem_cons_self)
        rw [hab.val w ?_, if_pos ha2]
        obtain ⟨v, hv, h1, h2⟩ := isKind_mem.1 ha2
        have hnt : a.forVar ≠ n.totalName := by
          intro e
          have := total_utility hn hv (h1.trans e)
          rw [h2] at this; exact absurd this (by decide)
        intro s hs
        have : ∃ v ∈ n.stateVars, v.name = s := by
          simp only [NFactor.dims, List.mem_append, List.mem_singleton] at hs
          rcases hs with hs | rfl
          · obtain ⟨v, hv, h, hu⟩ := hn.parents a ha1 hnt s hs
            exact ⟨v, mem_stateVars.2 ⟨hv, hu⟩, h⟩
          · exact ⟨v, mem_stateVars.2 ⟨hv, by rw [h2]; decide⟩, h1⟩
        obtain ⟨u, hu, rfl⟩ := this
        rw [count_eq hn (mem_stateVars.1 hu).1]
        exact hw u hu
    exact key h (fun _ h => h)
  · unfold joint
    have key : ∀ {as : List (String × Factor α)} {bs : List (Factor α)}, List.Forall₂ (PolicyFac n) as bs →
        (∀ a ∈ as, a ∈ n.policies) →
        (bs.map (fun f => f.val (n.ids w))).prod = (as.map (fun p => p.2.val (n.ids w))).prod := by
      intro as bs h
      induction h with
      | nil => intro _; rfl
      | @cons a b as bs hab _ ih =>
        intro hsub
        rw [List.map_cons, List.prod_cons, List.map_cons, List.prod_cons, ih (fun a ha => hsub a (List.mem_cons_of_mem _ ha)),
          hab.val hp (hsub a List.mem_cons_self)]
    exact key hS.policies hpols

/-- A variable is in a probability table of the solver exactly if it occurs in a chance table or a policy. -/
theorem occurs_iff {s : String} (hs : n.IsVar s) :
    (∃ f ∈ probTables (fs ++ ps), n.varOf s ∈ f.vars) ↔ n.Occurs pols s := by
  have hinj : ∀ t, n.IsVar t → (n.varOf s = n.varOf t ↔ s = t) := by
    intro t ht
    exact ⟨fun e => Net.IsVar.inj hn hs ht (by rw [e]), fun e => by rw [e]⟩
  have hct : ∀ f ∈ n.chanceTables, ∀ t ∈ f.dims, n.IsVar t := by
    intro f hf
    obtain ⟨h1, h2⟩ := List.mem_filter.1 hf
    apply dims_isVar hn h1
    intro e
    obtain ⟨v, hv, a1, a2⟩ := isKind_mem.1 h2
    have := total_utility hn hv (a1.trans e)
    rw [a2] at this; exact absurd this (by decide)
  have hpv : ∀ p ∈ pols, ∀ w ∈ p.2.vars, (n.varOf s = n.varAt w.id ↔ (n.variables[w.id]?).map NVar.name = some s) := by
    intro p hpm w hw
    obtain ⟨v, h1, h2, _⟩ := hp.vars p (hpols p hpm) w hw
    have hnt : n.totalUtility ≠ some w.id := fun e =>
      h2 (total_utility hn (List.mem_of_getElem? h1) ((totalName_iff hn h1).2 e))
    rw [varAt_eq h1, ← varOf_eq hn h1 hnt, hinj _ ⟨w.id, v, h1, rfl, hnt⟩, h1]
    simp only [Option.map_some, Option.some.injEq]
    exact eq_comm
  unfold probTables Net.Occurs
  rw [List.filter_append, probTables_policies hp hpols hS]
  have ht := probTables_tables hn hS
  constructor
  · rintro ⟨f, hf, hv⟩
    rcases List.mem_append.1 hf with hf | hf
    · obtain ⟨g, hg, h⟩ := forall₂_mem_right ht hf
      rw [h.vars] at hv
      obtain ⟨t, ht1, ht2⟩ := List.mem_map.1 hv
      exact .inl ⟨g, hg, ((hinj t (hct g hg t ht1)).1 ht2.symm) ▸ ht1⟩
    · obtain ⟨p, hp1, h⟩ := forall₂_mem_right hS.policies hf
      rw [h.vars] at hv
      obtain ⟨w, hw1, hw2⟩ := List.mem_map.1 hv
      exact .inr ⟨p, hp1, w, hw1, (hpv p hp1 w hw1).1 hw2.symm⟩
  · rintro (⟨g, hg, hsd⟩ | ⟨p, hp1, w, hw1, hw2⟩)
    · obtain ⟨f, hf, h⟩ := forall₂_mem_left ht hg
      exact ⟨f, List.mem_append_left _ hf, by rw [h.vars]; exact List.mem_map_of_mem hsd⟩
    · obtain ⟨f, hf, h⟩ := forall₂_mem_left hS.policies hp1
      exact ⟨f, List.mem_append_right _ hf, by rw [h.vars, (hpv p hp1 w hw1).2 hw2]; exact List.mem_map_of_mem (f := fun w => n.varAt w.id) hw1⟩

omit hp hpols in
/-- The variables of the probability tables are chance and decision variables. -/
theorem probTables_state {f : Factor α} (hf : f ∈ probTables (fs ++ ps)) {v : Var} (hv : v ∈ f.vars) :
    v ∈ n.stateSolver := by
  obtain ⟨h1, h2⟩ := List.mem_filter.1 hf
  refine (mem_stateSolver hn hS.vars).2 ⟨hS.problem.facVars f h1 v hv, ?_⟩
  simp only [Factor.isUtility, Bool.not_eq_true', List.any_eq_false, decide_eq_true_eq] at h2
  exact h2 v hv

/-- Sums over the worlds with given outcomes of some variables. -/
theorem total_evidence {es : List Evid} (hes : ∀ e ∈ es, e.var ∈ n.stateSolver ∧ e.value.toNat < e.var.outcomes)
    (hnd : ((es.map Evid.var).map Var.id).Nodup) {P : World → Prop} [DecidablePred P]
    (hP : ∀ w, P w ↔ ∀ e ∈ es, n.ids w e.var.id = e.value.toNat) {F : World → α} {G : Assignment → α}
    (hFG : ∀ w, n.FitsWorld w → (∀ s, s ∉ n.stateVars.map NVar.name → w s = 0) → F w = G (n.ids w))
    {p : Var → Bool} (hp1 : ∀ f ∈ probTables (fs ++ ps), ∀ v ∈ f.vars, p v = true)
    (hG : ∀ v ∈ n.stateSolver, p v = false → ∀ τ k, G (Assignment.upd τ v.id k) = G τ) :
    n.total pols (fun w => if P w then F w else 0) =
      (size (n.stateSolver.filter (fun v => !p v && decide (∀ e ∈ es, e.var.id ≠ v.id))) : α) *
        sumOver (n.stateSolver.filter (fun v => p v && decide (∀ e ∈ es, e.var.id ≠ v.id)))
          (fun τ => joint (probTables (fs ++ ps)) (plug es τ) * G (plug es τ)) (fun _ => 0) := by
  have hids : n.ids (fun _ => 0) = fun _ => 0 := by
    funext i
    unfold Net.ids
    split <;> rfl
  have hst := stateSolver_ids hn
  rw [← sumOver_evidence hst hes hnd (F := fun τ => joint (probTables (fs ++ ps)) τ * G τ) (p := p)]
  · unfold Net.total
    rw [sumWorlds_eq hn (G := fun τ => if ∀ e ∈ es, τ e.var.id = e.value.toNat then
      joint (probTables (fs ++ ps)) τ * G τ else 0) n.stateVars (fun _ => 0) (fun v hv => mem_stateVars.1 hv)
      (stateVars_names hn), hids]
    · rfl
    · intro w hw h0
      dsimp only
      by_cases h : P w
      · rw [if_pos h, if_pos ((hP w).1 h), joint_world hn hp hpols hS hw, hFG w hw h0]
      · rw [if_neg h, if_neg (fun h' => h ((hP w).2 h')), mul_zero]
  · intro v hv hpv τ k
    rw [hG v hv hpv]
    congr 1
    apply joint_congr
    intro f hf w hw
    have : w.id ≠ v.id := by
      intro e
      have := coherent_of_nodup hst w (probTables_state hn hS hf hw) v hv e
      rw [← this, hp1 f hf w hw] at hpv
      exact absurd hpv (by decide)
    simp [Assignment.upd, this]

end

end Bbn
