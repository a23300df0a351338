import Verif.Props.NetQuery
import Mathlib.Logic.Relation

/-!
# C36-C38, C41, C42, C45: what network calls return and leave behind
-/

set_option autoImplicit false

namespace Bbn

open Finset

variable {α : Type}

/-- No variable of this name takes part in solving: there is none, or it is the total-utility node. -/
def Net.Missing (n : Net α) (s : String) : Prop := (∀ v ∈ n.variables, v.name ≠ s) ∨ s = n.totalName

/-- An evidence entry that cannot be used: unknown variable or unknown outcome. -/
def Net.BadEvidence (n : Net α) (e : String × String) : Prop :=
  n.Missing e.1 ∨ ∃ v ∈ n.variables, v.name = e.1 ∧ e.2 ∉ v.outcomes

theorem mapM_errors {β γ : Type} {f : β → Except Fault γ} {l : List β} (h : ∀ x ∈ l, (∃ y, f x = .ok y) ∨ Errors (f x)) :
    ((∃ x ∈ l, Errors (f x)) → Errors (l.mapM f)) ∧ ((∃ ys, l.mapM f = .ok ys) ∨ Errors (l.mapM f)) := by
  induction l with
  | nil => exact ⟨by simp, .inl ⟨[], rfl⟩⟩
  | cons x l ih =>
    obtain ⟨ih1, ih2⟩ := ih (fun y hy => h y (List.mem_cons_of_mem _ hy))
    rw [List.mapM_cons]
    rcases h x List.mem_cons_self with ⟨y, hy⟩ | ⟨m, hm⟩
    · rw [hy, ok_bind]
      rcases ih2 with ⟨ys, hys⟩ | ⟨m, hm⟩
      · rw [hys, ok_bind]
        refine ⟨?_, .inl ⟨_, rfl⟩⟩
        rintro ⟨z, hz, m, hm⟩
        rcases List.mem_cons.1 hz with rfl | hz
        · rw [hy] at hm; cases hm
        · obtain ⟨m, hm⟩ := ih1 ⟨z, hz, m, hm⟩
          rw [hys] at hm; cases hm
      · rw [hm, err_bind]
        exact ⟨fun _ => ⟨m, rfl⟩, .inr ⟨m, rfl⟩⟩
    · rw [hm, err_bind]
      exact ⟨fun _ => ⟨m, rfl⟩, .inr ⟨m, rfl⟩⟩

theorem evidenceOf_cases {n : Net α} (hn : n.Valid) (e : String × String) :
    ((∃ y, evidenceOf n.nameTable e = .ok y) ∨ Errors (evidenceOf n.nameTable e)) ∧
      (n.BadEvidence e → Errors (evidenceOf n.nameTable e)) := by
  unfold evidenceOf
  cases hg : mapGet n.nameTable e.1 with
  | none => exact ⟨.inr ⟨_, rfl⟩, fun _ => ⟨_, rfl⟩⟩
  | some vv =>
    dsimp only
    cases hs : slicesIndex e.2 vv.1.outcomes with
    | none => exact ⟨.inr ⟨_, rfl⟩, fun _ => ⟨_, rfl⟩⟩
    | some i =>
      refine ⟨.inl ⟨_, rfl⟩, fun hb => ?_⟩
      exfalso
      obtain ⟨j, j1, j2, j3, _⟩ := ((selfVars n).get hn).1 hg
      rcases hb with hb | ⟨v, hv, h1, h2⟩
      · rw [((selfVars n).get_none hn).2 hb] at hg
        cases hg
      · have : v = vv.1 := List.inj_on_of_nodup_map hn.names hv (List.mem_of_getElem? j1) (h1.trans j2.symm)
        subst this
        exact h2 (List.mem_of_getElem? (slicesIndex_some hs))

theorem queryOf_cases {n : Net α} (hn : n.Valid) (q : String) :
    ((∃ y, queryOf n.nameTable q = .ok y) ∨ Errors (queryOf n.nameTable q)) ∧
      (n.Missing q → Errors (queryOf n.nameTable q)) := by
  unfold queryOf
  cases hg : mapGet n.nameTable q with
  | none => exact ⟨.inr ⟨_, rfl⟩, fun _ => ⟨_, rfl⟩⟩
  | some vv =>
    refine ⟨.inl ⟨_, rfl⟩, fun hb => ?_⟩
    rw [((selfVars n).get_none hn).2 hb] at hg
    cases hg

theorem solve_errors [Field α] [DecidableEq α] (sch : NSched α) {n : Net α} (hn : n.Valid) (hp : n.PoliciesOK)
    {evidence : List (String × String)} {query : List String} (utility : Bool) (u : String) (ign : Bool)
    (h : (∃ e ∈ evidence, n.BadEvidence e) ∨ (∃ q ∈ query, n.Missing q) ∨ (utility = true ∧ u ≠ "" ∧ n.Missing u)) :
    ∃ m n', n.solve sch evidence query utility u ign = (.error (.error m), n') := by
  obtain ⟨vs, fs, ps, deps, h1, _⟩ := toVE_spec sch 0 hn hp (if ign then evidence else [])
  have key : ∀ ve : VE α, Errors (solveNamed sch ve n.nameTable evidence query utility u) := by
    intro ve
    unfold solveNamed
    obtain ⟨e1, e2⟩ := mapM_errors (l := sch.ev evidence) (fun e _ => (evidenceOf_cases hn e).1)
    obtain ⟨q1, q2⟩ := mapM_errors (l := query) (fun e _ => (queryOf_cases hn e).1)
    have hE : ∀ {β : Type} {r : Except Fault β}, Errors r → ∀ {γ : Type} (k : β → Except Fault γ), Errors (r >>= k) := by
      rintro β r ⟨m, rfl⟩ γ k
      exact ⟨m, rfl⟩
    rcases h with ⟨e, he, hb⟩ | ⟨q, hq, hb⟩ | ⟨hu, hne, hb⟩
    · exact hE (e1 ⟨e, (sch.ev_perm evidence).symm.subset he, (evidenceOf_cases hn e).2 hb⟩) _
    · rcases e2 with ⟨ys, hys⟩ | hr
      · rw [hys, ok_bind]
        exact hE (q1 ⟨q, hq, (queryOf_cases hn q).2 hb⟩) _
      · exact hE hr _
    · rcases e2 with ⟨ys, hys⟩ | hr
      · rw [hys, ok_bind]
        rcases q2 with ⟨zs, hzs⟩ | hr
        · rw [hzs, ok_bind, if_pos hu]
          have : utilityOf n.nameTable u = .error (.error "utility query variable not found") := by
            unfold utilityOf
            rw [if_neg hne, ((selfVars n).get_none hn).2 hb]
          rw [this, err_bind]
          exact ⟨_, rfl⟩
        · exact hE hr _
      · exact hE hr _
  obtain ⟨m, hm⟩ := key (VE.new vs (fs ++ ps) deps n.solverWeights)
  refine ⟨m, { n with vs := some (VE.new vs (fs ++ ps) deps n.solverWeights).vs, names := n.nameTable }, ?_⟩
  unfold Net.solve Net.enter
  rw [h1]
  dsimp only
  rw [hm]

/-- **C36.** `SolveQuery` and `SolveUtility` report unknown evidence variables, unknown outcomes, unknown query
variables and an unknown utility variable as errors, not as panics, whatever else is asked. -/
theorem C36_unknown_names [Field α] [DecidableEq α] (sch : NSched α) {n : Net α} (hn : n.Valid) (hp : n.PoliciesOK)
    (evidence : List (String × String)) (query : List String) (u : String) (ign : Bool) :
    ((∃ e ∈ evidence, n.BadEvidence e) ∨ (∃ q ∈ query, n.Missing q) →
      Errors (n.solveQuery sch evidence query ign).1) ∧
    ((∃ e ∈ evidence, n.BadEvidence e) ∨ (∃ q ∈ query, n.Missing q) ∨ (u ≠ "" ∧ n.Missing u) →
      Errors (n.solveUtility sch evidence query u ign).1) := by
  constructor
  · intro h
    obtain ⟨m, n', hm⟩ := solve_errors sch hn hp false "" ign (h.imp_right .inl)
    refine ⟨m, ?_⟩
    unfold Net.solveQuery
    rw [hm]
  · intro h
    obtain ⟨m, n', hm⟩ := solve_errors sch hn hp (query := query) true u ign
      (by rcases h with h | h | h
          · exact .inl h
          · exact .inr (.inl h)
          · exact .inr (.inr ⟨rfl, h⟩))
    refine ⟨m, ?_⟩
    unfold Net.solveUtility
    rw [hm]

example : Errors (Ex.spr.solveQuery Ex.back [("Grass", "damp")] ["Rain"] false).1 ∧
    Errors (Ex.umb.solveUtility Ex.back [] [] "Total" false).1 :=
  ⟨(C36_unknown_names Ex.back Ex.spr_valid (Ex.noPolicies rfl) _ _ "" _).1
      (.inl ⟨_, List.mem_singleton_self _, .inr ⟨⟨"Grass", .chance, ["wet", "dry"], (0, 0), "", some 2⟩, by decide⟩⟩),
    (C36_unknown_names Ex.back Ex.umb_valid (Ex.noPolicies rfl) _ _ _ _).2 (.inr (.inr ⟨by decide, .inr rfl⟩))⟩

theorem queryLoop_panics [Field α] {n : Net α} (hn : n.Valid) {g : Factor α} (hg : g.WF) : ∀ (qs : List String)
    (result : List (String × List α)) (m : Net α) (vs : Vs), m.names = n.nameTable → m.vs = some vs →
    (∀ q ∈ qs, (∃ v ∈ n.stateVars, v.name = q) ∧ (n.varOf q ∈ g.vars ∨ (n.varOf q).id ∉ g.vars.map Var.id)) →
    (∃ q ∈ qs, (n.varOf q).id ∉ g.vars.map Var.id) → Panics (Net.queryLoop g qs result m).1 := by
  intro qs
  induction qs with
  | nil => intro _ _ _ _ _ _ h; simp at h
  | cons q qs ih =>
    intro result m vs h1 h2 h3 h4
    obtain ⟨⟨v, hv, rfl⟩, hqg⟩ := h3 q List.mem_cons_self
    obtain ⟨hv1, hv2⟩ := mem_stateVars.1 hv
    unfold Net.queryLoop
    rcases hqg with hqg | hqg
    · obtain ⟨mm, vs1, a1, a2⟩ := marginal_data vs hg hqg
      obtain ⟨m', vs2, a2, a3⟩ := a2 vs1
      have e1 : m.marginal g v.name = (.ok mm, { m with vs := some vs1 }) := by
        unfold Net.marginal Net.withVs
        rw [h1, get_state hn hv1 (state_notTotal hn hv1 hv2)]
        dsimp only
        rw [h2]
        dsimp only
        rw [a1]
      have e2 : ({ m with vs := some vs1 } : Net α).normalize mm = (.ok m', { m with vs := some vs2 }) := by
        unfold Net.normalize Net.withVs
        dsimp only
        rw [a2]
      rw [e1]
      dsimp only
      rw [e2]
      dsimp only
      refine ih _ _ vs2 h1 rfl (fun q hq => h3 q (List.mem_cons_of_mem _ hq)) ?_
      obtain ⟨q, hq, hq2⟩ := h4
      rcases List.mem_cons.1 hq with rfl | hq
      · exact absurd (List.mem_map_of_mem hqg) hq2
      · exact ⟨q, hq, hq2⟩
    · have e1 : m.marginal g v.name = (.error (.panic "variable not in this factor"), m) := by
        unfold Net.marginal Net.withVs
        rw [h1, get_state hn hv1 (state_notTotal hn hv1 hv2)]
        dsimp only
        rw [h2]
        dsimp only
        unfold Vs.marginal
        rw [firstIdx_none.2 hqg]
      rw [e1]
      exact ⟨_, rfl⟩

/-- **C37, refuted.** `SolveQuery` panics whenever a query variable is also in the evidence. -/
theorem C37_query_in_evidence_refuted [Field α] [DecidableEq α] (sch : NSched α) {n : Net α} (hn : n.Valid)
    (hp : n.PoliciesOK) {evidence : List (String × String)} (hev : n.EvidenceOK evidence) {query : List String}
    (hq : ∀ q ∈ query, ∃ v ∈ n.stateVars, v.name = q) (ign : Bool) (hboth : ∃ q ∈ query, ∃ e ∈ evidence, e.1 = q) :
    Panics (n.solveQuery sch evidence query ign).1 := by
  obtain ⟨vs, fs, ps, deps, g, vs1, h1, hS, hg, hgv, _⟩ := solve_query sch hn hp hev hq ign
  have hvars : ∀ v ∈ g.vars, v ∈ vs.variables := by
    intro v hv
    obtain ⟨⟨f, hf, hvf⟩, _⟩ := (hgv v).1 hv
    exact hS.problem.facVars f (List.mem_of_mem_filter hf) v hvf
  obtain ⟨q, hqm, e, he, rfl⟩ := hboth
  have := queryLoop_panics hn hg query [] { n with vs := some vs1, names := n.nameTable } vs1 rfl rfl (by
    intro q hqm
    obtain ⟨v, hv, rfl⟩ := hq q hqm
    refine ⟨⟨v, hv, rfl⟩, ?_⟩
    by_cases hid : (n.varOf v.name).id ∈ g.vars.map Var.id
    · obtain ⟨w, hw, hwi⟩ := List.mem_map.1 hid
      obtain ⟨hv1, hv2⟩ := mem_stateVars.1 hv
      have := coherent_of_nodup hS.problem.ids w (hvars w hw) (n.varOf v.name)
        ((isVar_state hn hv1 hv2).varOf_mem hS.vars hn) hwi
      exact .inl (this ▸ hw)
    · exact .inr hid) ⟨e.1, hqm, by
      intro hid
      obtain ⟨w, hw, hwi⟩ := List.mem_map.1 hid
      exact ((hgv w).1 hw).2.1 (n.solverEv e) (List.mem_map_of_mem ((sch.ev_perm evidence).symm.subset he)) hwi.symm⟩
  obtain ⟨m, hm⟩ := this
  refine ⟨m, ?_⟩
  unfold Net.solveQuery
  rw [h1]
  dsimp only
  generalize Net.queryLoop g query [] { n with vs := some vs1, names := n.nameTable } = r at hm ⊢
  obtain ⟨r1, r2⟩ := r
  dsimp only at hm
  subst hm
  rfl

example : Panics (Ex.spr.solveQuery Ex.back Ex.wet ["Rain", "Grass"] false).1 :=
  C37_query_in_evidence_refuted Ex.back Ex.spr_valid (Ex.noPolicies rfl) Ex.wet_ok (by decide) false (by decide)

/-- **C37, what holds.** Without overlap of query and evidence (and for variables that occur in a table) there is a
result, also for impossible evidence. -/
theorem C37_disjoint_partial [Field α] [CharZero α] [DecidableEq α] (sch : NSched α) {n : Net α} (hn : n.Valid)
    (hp : n.PoliciesOK) {evidence : List (String × String)} (hev : n.EvidenceOK evidence) {query : List String}
    (ign : Bool) (hq : n.QueryOK evidence ign query) :
    ∃ r f n', n.solveQuery sch evidence query ign = (.ok (r, f), n') ∧ ∀ s, s ∈ r.map Prod.fst ↔ s ∈ query := by
  obtain ⟨r, f, vs', h1, _, h3, _⟩ := solveQuery_data sch hn hp hev ign hq
  exact ⟨r, f, _, h1, h3⟩

/-- One call that should only read the network: `n'` is the network after the call. (`ToEvidence` cannot change the
network, by its type.) -/
inductive ReadStep [Zero α] [One α] [Add α] [Mul α] [Div α] [DecidableEq α] : Net α → Net α → Prop
  | query (n : Net α) (sch : NSched α) (evidence : List (String × String)) (query : List String) (ign : Bool) :
      ReadStep n (n.solveQuery sch evidence query ign).2
  | utility (n : Net α) (sch : NSched α) (evidence : List (String × String)) (query : List String) (u : String)
      (ign : Bool) : ReadStep n (n.solveUtility sch evidence query u ign).2
  | marginal (n : Net α) (f : Factor α) (v : String) : ReadStep n (n.marginal f v).2
  | normalize (n : Net α) (f : Factor α) : ReadStep n (n.normalize f).2
  | normalizeUtility (n : Net α) (f g : Factor α) : ReadStep n (n.normalizeUtility f g).2
  | rearrange (n : Net α) (f : Factor α) (vars : List String) : ReadStep n (n.rearrange f vars).2

/-- The networks differ at most in the solver kept from the last call. -/
def Net.SameCore (n m : Net α) : Prop := ∃ vs names, m = { n with vs := vs, names := names }

theorem Net.SameCore.rfl {n : Net α} : n.SameCore n := ⟨n.vs, n.names, by cases n; exact Eq.refl _⟩

theorem Net.SameCore.trans {n m l : Net α} : n.SameCore m → m.SameCore l → n.SameCore l := by
  rintro ⟨a, b, rfl⟩ ⟨c, d, rfl⟩
  exact ⟨c, d, Eq.refl _⟩

theorem withVs_core {β : Type} (n : Net α) (op : Vs → Except Fault (β × Vs)) : n.SameCore (n.withVs op).2 := by
  unfold Net.withVs
  split
  · exact .rfl
  · split
    · exact .rfl
    · exact ⟨_, n.names, Eq.refl _⟩

theorem enter_core [Zero α] [Add α] [Div α] [DecidableEq α] (sch : NSched α) (k : Nat) (n : Net α)
    (evidence : List (String × String)) : n.SameCore (n.enter sch k evidence).2 := by
  unfold Net.enter
  split
  · exact ⟨_, _, Eq.refl _⟩
  · exact ⟨_, _, Eq.refl _⟩
  · exact .rfl

theorem solve_core [Zero α] [One α] [Add α] [Mul α] [Div α] [DecidableEq α] (sch : NSched α) (n : Net α)
    (evidence : List (String × String)) (query : List String) (utility : Bool) (u : String) (ign : Bool) :
    n.SameCore (n.solve sch evidence query utility u ign).2 := by
  unfold Net.solve
  have h := enter_core sch 0 n (if ign then evidence else [])
  generalize n.enter sch 0 (if ign then evidence else []) = r at h ⊢
  obtain ⟨r1, m⟩ := r
  cases r1 with
  | error e => exact h
  | ok ve =>
    dsimp only
    split
    · exact h
    · exact h.trans ⟨_, m.names, Eq.refl _⟩

theorem marginal_core [Zero α] [Add α] (n : Net α) (f : Factor α) (v : String) : n.SameCore (n.marginal f v).2 := by
  unfold Net.marginal
  split
  · exact .rfl
  · exact withVs_core _ _

theorem queryLoop_core [Zero α] [Add α] [Div α] (f : Factor α) : ∀ (qs : List String) (result : List (String × List α))
    (n : Net α), n.SameCore (Net.queryLoop f qs result n).2 := by
  intro qs
  induction qs with
  | nil => intro _ n; exact .rfl
  | cons q qs ih =>
    intro result n
    unfold Net.queryLoop
    have h1 := marginal_core n f q
    generalize n.marginal f q = r at h1 ⊢
    obtain ⟨r1, m⟩ := r
    cases r1 with
    | error e => exact h1
    | ok g =>
      dsimp only
      have h2 := withVs_core m (fun vs => vs.normalize g)
      change m.SameCore (m.normalize g).2 at h2
      generalize m.normalize g = r at h2 ⊢
      obtain ⟨r1, l⟩ := r
      cases r1 with
      | error e => exact h1.trans h2
      | ok g' => exact (h1.trans h2).trans (ih _ _)

theorem readStep_core [Zero α] [One α] [Add α] [Mul α] [Div α] [DecidableEq α] {n m : Net α} (h : ReadStep n m) :
    n.SameCore m := by
  cases h with
  | query sch evidence query ign =>
    unfold Net.solveQuery
    have h := solve_core sch n evidence query false "" ign
    generalize n.solve sch evidence query false "" ign = r at h ⊢
    obtain ⟨r1, m⟩ := r
    cases r1 with
    | error e => exact h
    | ok f =>
      dsimp only
      have h2 := queryLoop_core f query [] m
      generalize Net.queryLoop f query [] m = r at h2 ⊢
      obtain ⟨r1, l⟩ := r
      cases r1 with
      | error e => exact h.trans h2
      | ok g => exact h.trans h2
  | utility sch evidence query u ign => exact solve_core sch n evidence query true u ign
  | marginal f v => exact marginal_core n f v
  | normalize f => exact withVs_core _ _
  | normalizeUtility f g => exact withVs_core _ _
  | rearrange f vars =>
    unfold Net.rearrange
    split
    · exact .rfl
    · exact withVs_core _ _

/-- The network with another solver kept from the last call. -/
abbrev Net.reset (n : Net α) (vs : Option Vs) (names : List (String × NVar × Var)) : Net α :=
  { n with vs := vs, names := names }

section

variable (n : Net α) (a : Option Vs) (b : List (String × NVar × Var))

theorem addVariables_core : ∀ (l : List NVar) (i : Nat) (vs : Vs),
    (n.reset a b).addVariables i l vs = n.addVariables i l vs := by
  intro l
  induction l with
  | nil => intro i vs; rfl
  | cons v l ih =>
    intro i vs
    unfold Net.addVariables
    simp only [ih]
    rfl

theorem nameMap_core : ∀ (l : List (NVar × Var)) (i : Nat) (m : List (String × NVar × Var)),
    (n.reset a b).nameMap i l m = n.nameMap i l m := by
  intro l
  induction l with
  | nil => intro i m; rfl
  | cons v l ih =>
    intro i m
    unfold Net.nameMap
    simp only [ih]

theorem policyFactors_core [Zero α] (varIDs : List (NVar × Var)) (evidence : List (String × String)) :
    ∀ (l : List (String × Factor α)) (vs : Vs),
    (n.reset a b).policyFactors varIDs evidence l vs = n.policyFactors varIDs evidence l vs := by
  intro l
  induction l with
  | nil => intro vs; rfl
  | cons p l ih =>
    intro vs
    unfold Net.policyFactors
    simp only [ih]
    rfl

theorem toVE_core [Zero α] [Add α] [Div α] [DecidableEq α] (sch : NSched α) (k : Nat)
    (evidence : List (String × String)) : (n.reset a b).toVE sch k evidence = n.toVE sch k evidence := by
  unfold Net.toVE
  simp only [addVariables_core, nameMap_core, policyFactors_core]
  rfl

theorem enter_reset [Zero α] [Add α] [Div α] [DecidableEq α] (sch : NSched α) (k : Nat)
    (evidence : List (String × String)) : ((n.reset a b).enter sch k evidence).1 = (n.enter sch k evidence).1 ∧
      ((∃ m, n.toVE sch k evidence = .error (.panic m)) ∨ (n.reset a b).enter sch k evidence = n.enter sch k evidence) := by
  unfold Net.enter
  rw [toVE_core]
  cases h : n.toVE sch k evidence with
  | ok r => exact ⟨rfl, .inr rfl⟩
  | error e =>
    cases e with
    | error m => exact ⟨rfl, .inr rfl⟩
    | panic m => exact ⟨rfl, .inl ⟨m, rfl⟩⟩

theorem solve_reset [Zero α] [One α] [Add α] [Mul α] [Div α] [DecidableEq α] (sch : NSched α)
    (evidence : List (String × String)) (query : List String) (utility : Bool) (u : String) (ign : Bool) :
    ((n.reset a b).solve sch evidence query utility u ign).1 = (n.solve sch evidence query utility u ign).1 ∧
      ((∃ m, (n.solve sch evidence query utility u ign).1 = .error m) ∨
        (n.reset a b).solve sch evidence query utility u ign = n.solve sch evidence query utility u ign) := by
  unfold Net.solve
  obtain ⟨h1, h2⟩ := enter_reset n a b sch 0 (if ign then evidence else [])
  rcases h2 with ⟨m, hm⟩ | h2
  · have e1 : (n.enter sch 0 (if ign then evidence else [])) = (.error (.panic m), n) := by unfold Net.enter; rw [hm]
    have e2 : ((n.reset a b).enter sch 0 (if ign then evidence else [])) = (.error (.panic m), n.reset a b) := by
      unfold Net.enter; rw [toVE_core, hm]
    rw [e1, e2]
    exact ⟨rfl, .inl ⟨_, rfl⟩⟩
  · rw [h2]
    exact ⟨rfl, .inr rfl⟩

end

/-- **C38.** No sequence of read calls, also failing ones, changes what a later `SolveQuery` or `SolveUtility`
returns. -/
theorem C38_queries_only_read [Zero α] [One α] [Add α] [Mul α] [Div α] [DecidableEq α] {n m : Net α}
    (h : Relation.ReflTransGen ReadStep n m) (sch : NSched α) (evidence : List (String × String))
    (query : List String) (u : String) (ign : Bool) :
    (m.solveQuery sch evidence query ign).1 = (n.solveQuery sch evidence query ign).1 ∧
      (m.solveUtility sch evidence query u ign).1 = (n.solveUtility sch evidence query u ign).1 := by
  have hc : n.SameCore m := by
    induction h with
    | refl => exact .rfl
    | tail _ h ih => exact ih.trans (readStep_core h)
  obtain ⟨a, b, rfl⟩ := hc
  refine ⟨?_, (solve_reset n a b sch evidence query true u ign).1⟩
  obtain ⟨h1, h2⟩ := solve_reset n a b sch evidence query false "" ign
  unfold Net.solveQuery
  rcases h2 with ⟨e, he⟩ | h2
  · generalize n.solve sch evidence query false "" ign = r at h1 he ⊢
    change (Net.solve sch { n with vs := a, names := b } evidence query false "" ign).1 = _ at h1
    generalize Net.solve sch { n with vs := a, names := b } evidence query false "" ign = r' at h1 ⊢
    obtain ⟨r1, r2⟩ := r
    obtain ⟨r1', r2'⟩ := r'
    dsimp only at h1 he
    subst h1 he
    rfl
  · change Net.solve sch { n with vs := a, names := b } evidence query false "" ign = _ at h2
    rw [h2]

/-- After a query and a failed normalisation the sprinkler network still gives the posterior of C31. -/
example (f g : Factor ℚ) : ((((Ex.spr.normalizeUtility f g).2.solveQuery Ex.back Ex.wet ["Rain"] false).2).solveQuery
    Ex.back [] ["Grass"] true).1 = (Ex.spr.solveQuery Ex.back [] ["Grass"] true).1 :=
  (C38_queries_only_read (.tail (.single (.normalizeUtility _ f g)) (.query _ Ex.back Ex.wet ["Rain"] false))
    Ex.back [] ["Grass"] "" true).1

/-- **C41, refuted.** On a network that was never solved, `ToEvidence` fails for every variable and outcome. -/
theorem C41_fresh_refuted [Zero α] [One α] {name info : String} {vars : List NVar} {fs : List (NFactor α)} {n : Net α}
    (h : newNet name info vars fs = .ok n) (v o : String) : Errors (n.toEvidence v o) := by
  unfold newNet at h
  obtain ⟨_, _, h⟩ := bind_ok h
  obtain ⟨⟨_, _⟩, _, h⟩ := bind_ok h
  obtain ⟨_, _, h⟩ := bind_ok h
  cases h
  exact ⟨_, rfl⟩

example : Errors (Ex.spr.toEvidence "Rain" "no") := C41_fresh_refuted Ex.spr_new _ _

/-- **C41, what holds.** After a query, `ToEvidence` is one-hot for every known variable and outcome (of a repeated
outcome name, the first), and an error otherwise. -/
theorem C41_after_query_partial [Field α] [CharZero α] [DecidableEq α] (sch : NSched α) {n : Net α} (hn : n.Valid)
    (hp : n.PoliciesOK) {evidence : List (String × String)} (hev : n.EvidenceOK evidence) {query : List String}
    (ign : Bool) (hq : n.QueryOK evidence ign query) :
    (∀ v ∈ n.variables, v.name ≠ n.totalName → ∀ o ∈ v.outcomes,
      ∃ d : List α, (n.solveQuery sch evidence query ign).2.toEvidence v.name o = .ok d ∧
        d.length = v.outcomes.length ∧
        ∀ k < v.outcomes.length, d[k]? = some (if k = v.outcomes.idxOf o then 1 else 0)) ∧
    (∀ v o, n.BadEvidence (v, o) → Errors ((n.solveQuery sch evidence query ign).2.toEvidence (α := α) v o)) := by
  obtain ⟨r, f, vs', h1, _⟩ := solveQuery_data sch hn hp hev ign hq
  rw [h1]
  constructor
  · intro v hv ht o ho
    have hlt : v.outcomes.idxOf o < v.outcomes.length := List.idxOf_lt_length_iff.2 ho
    refine ⟨(List.replicate v.outcomes.length 0).set (v.outcomes.idxOf o) 1, ?_, by simp, ?_⟩
    · unfold Net.toEvidence
      dsimp only
      rw [get_state hn hv ht]
      dsimp only
      rw [slicesIndex_idxOf ho]
      simp [goSet, hlt]
    · intro k hk
      rw [List.getElem?_set]
      by_cases he : v.outcomes.idxOf o = k
      · subst he; simp [hlt]
      · rw [if_neg he, if_neg (fun e => he e.symm)]
        simp [hk]
  · intro v o hb
    unfold Net.toEvidence
    dsimp only
    cases hg : mapGet n.nameTable v with
    | none => exact ⟨_, rfl⟩
    | some vv =>
      dsimp only
      cases hs : slicesIndex o vv.1.outcomes with
      | none => exact ⟨_, rfl⟩
      | some i =>
        exfalso
        have h := (evidenceOf_cases hn (v, o)).2 hb
        obtain ⟨m, hm⟩ := h
        unfold evidenceOf at hm
        rw [hg] at hm
        dsimp only at hm
        rw [hs] at hm
        cases hm

example : ∃ d, (Ex.spr.solveQuery Ex.back Ex.wet [] false).2.toEvidence "Rain" "no" = .ok d ∧ d[1]? = some (1 : ℚ) := by
  obtain ⟨d, h1, _, h3⟩ := (C41_after_query_partial Ex.back Ex.spr_valid (Ex.noPolicies rfl) Ex.wet_ok (query := []) false
    ⟨by simp, by simp, by simp⟩).1 ⟨"Rain", .chance, ["yes", "no"], (0, 0), "", some 0⟩ (by decide) (by decide) "no"
    (by decide)
  exact ⟨d, h1, h3 1 (by decide)⟩

theorem rowMajor_snoc (l : List (Nat × Nat)) (d : Nat × Nat) : rowMajor (l ++ [d]) = rowMajor l * d.1 + d.2 := by
  induction l with
  | nil => simp [rowMajor]
  | cons e l ih =>
    simp only [List.cons_append, rowMajor, ih, List.map_append, List.map_cons, List.map_nil, List.prod_append,
      List.prod_cons, List.prod_nil, mul_one]
    ring

theorem rowIndexLoop_spec : ∀ (l : List (Int × Nat)) (idx stride : Int), (∀ p ∈ l, 0 ≤ p.1) →
    rowIndexLoop l idx stride = some (idx + stride * rowMajor (l.reverse.map (fun p => (p.2, p.1.toNat)))) := by
  intro l
  induction l with
  | nil => intro idx stride _; simp [rowIndexLoop, rowMajor]
  | cons p l ih =>
    intro idx stride h
    have hp := h p List.mem_cons_self
    obtain ⟨i, n⟩ := p
    dsimp only at hp
    unfold rowIndexLoop
    rw [if_neg (by omega), ih _ _ (fun q hq => h q (List.mem_cons_of_mem _ hq))]
    rw [List.reverse_cons, List.map_append, List.map_cons, List.map_nil, rowMajor_snoc]
    push_cast
    rw [Int.toNat_of_nonneg hp]
    congr 1
    ring

theorem rowIndexLoop_missing : ∀ (l : List (Int × Nat)) (idx stride : Int), (∃ p ∈ l, p.1 < 0) →
    rowIndexLoop l idx stride = none := by
  intro l
  induction l with
  | nil => intro _ _ h; simp at h
  | cons p l ih =>
    intro idx stride h
    obtain ⟨i, n⟩ := p
    unfold rowIndexLoop
    by_cases hi : i < 0
    · rw [if_pos hi]
    · rw [if_neg hi]
      refine ih _ _ ?_
      obtain ⟨q, hq, hq2⟩ := h
      rcases List.mem_cons.1 hq with rfl | hq
      · exact absurd hq2 hi
      · exact ⟨q, hq, hq2⟩

/-- The row of a table for the given parent outcomes. -/
def NFactor.specRow (f : NFactor α) (outcomes : List Nat) : List α :=
  (f.tab.drop (rowMajor (f.outcomes.zip outcomes) * f.columns)).take f.columns

/-- **C42, refuted.** For the grass with rain and the sprinkler off, `Row` returns `[1, 8]` instead of `[8, 2]`: the
row number is taken as the position in the table. -/
theorem C42_row_refuted : ∃ f ∈ Ex.spr.factors, ∃ row, f.row [0, 1] = .ok (some row) ∧ row ≠ f.specRow [0, 1] :=
  ⟨⟨"Grass", ["Rain", "Sprinkler"], some [99, 1, 8, 2, 9, 1, 0, 10], [2, 2], 2⟩, by decide, [1, 8], rfl, by decide⟩

theorem rowMajor_zero : ∀ (l : List Nat) (is : List Nat), (∀ i ∈ is, i = 0) → rowMajor (l.zip is) = 0 := by
  intro l
  induction l with
  | nil => intro is _; simp [rowMajor]
  | cons n l ih =>
    intro is h
    cases is with
    | nil => simp [rowMajor]
    | cons i is =>
      have := h i List.mem_cons_self
      subst this
      simp [rowMajor, ih is (fun j hj => h j (List.mem_cons_of_mem _ hj))]

theorem rowIndex_ints (f : NFactor α) {is : List Nat} (hlen : is.length = f.outcomes.length) :
    f.rowIndex (ints is) = .ok (some (rowMajor (f.outcomes.zip is) : Nat)) := by
  unfold NFactor.rowIndex
  rw [if_neg (by simpa [ints] using hlen), rowIndexLoop_spec]
  · have : ((ints is).zip f.outcomes).map (fun p => (p.2, p.1.toNat)) = f.outcomes.zip is := by
      apply List.ext_getElem
      · simp [ints, hlen]
      · intro k h1 h2; simp [ints]
    rw [List.reverse_reverse, this]
    simp
  · intro p hp
    rw [List.mem_reverse] at hp
    obtain ⟨i, _, e⟩ := List.mem_map.1 (List.of_mem_zip hp).1
    rw [← e]; exact Int.natCast_nonneg _

/-- **C42, what holds.** For in-range parent outcomes, `Row` returns the row if the table has a single column or the
first row is asked for; it reports missing data as such, and panics for a wrong number of outcomes. -/
theorem C42_row_partial (f : NFactor α) :
    (∀ is : List Nat, is.length = f.outcomes.length →
      (rowMajor (f.outcomes.zip is) + 1) * f.columns ≤ f.tab.length → f.columns = 1 ∨ (∀ i ∈ is, i = 0) →
      f.row (ints is) = .ok (some (f.specRow is))) ∧
    (∀ is : List Int, is.length = f.outcomes.length → (∃ i ∈ is, i < 0) → f.row is = .ok none) ∧
    (∀ is : List Int, is.length ≠ f.outcomes.length → Panics (f.row is)) := by
  refine ⟨?_, ?_, ?_⟩
  · intro is hlen hsz hor
    have hidx := rowIndex_ints f hlen
    have hrow : rowMajor (f.outcomes.zip is) * f.columns = rowMajor (f.outcomes.zip is) := by
      rcases hor with h | h
      · rw [h, mul_one]
      · rw [rowMajor_zero _ _ h, zero_mul]
    unfold NFactor.row
    rw [hidx, ok_bind]
    dsimp only
    rw [add_mul, one_mul, hrow] at hsz
    unfold goSlice NFactor.specRow
    rw [if_pos ⟨by omega, by omega, by exact_mod_cast hsz⟩, ok_bind, hrow]
    congr 3
    omega
  · rintro is hlen ⟨i, hi, hi2⟩
    unfold NFactor.row NFactor.rowIndex
    rw [if_neg (by simpa using hlen), rowIndexLoop_missing]
    · rfl
    · obtain ⟨k, hk, rfl⟩ := List.getElem_of_mem hi
      refine ⟨(is[k], f.outcomes[k]'(hlen ▸ hk)), ?_, hi2⟩
      rw [List.mem_reverse, List.mem_iff_getElem]
      exact ⟨k, by simp [hk, hlen ▸ hk], by simp⟩
  · intro is hlen
    unfold NFactor.row NFactor.rowIndex
    rw [if_pos hlen]
    exact ⟨_, rfl⟩

/-- **C42, what is returned.** For all parent outcomes `Row` returns as many entries as the table has columns, from the
position whose number is that of the row; it panics if the table ends before. (The row itself begins at this number
times the number of columns.) -/
theorem C42_window_partial (f : NFactor α) {is : List Nat} (hlen : is.length = f.outcomes.length) :
    (rowMajor (f.outcomes.zip is) + f.columns ≤ f.tab.length →
      f.row (ints is) = .ok (some ((f.tab.drop (rowMajor (f.outcomes.zip is))).take f.columns))) ∧
    (f.tab.length < rowMajor (f.outcomes.zip is) + f.columns → Panics (f.row (ints is))) := by
  unfold NFactor.row
  rw [rowIndex_ints f hlen, ok_bind]
  dsimp only
  unfold goSlice
  constructor
  · intro h
    rw [if_pos ⟨by omega, by omega, by exact_mod_cast h⟩, ok_bind]
    congr 3
    omega
  · intro h
    rw [if_neg (by rintro ⟨_, _, h'⟩; exact absurd (by exact_mod_cast h') (Nat.not_le.2 h))]
    exact ⟨_, rfl⟩

/-- The table of the wet grass: rain with the sprinkler off is row 1, and `Row` begins at entry 1. -/
example : (⟨"Grass", ["Rain", "Sprinkler"], some [99, 1, 8, 2, 9, 1, 0, 10], [2, 2], 2⟩ : NFactor ℚ).row [0, 1] =
    .ok (some [1, 8]) :=
  (C42_window_partial _ (is := [0, 1]) rfl).1 (by decide)

/-- The utility of a dry walk without umbrella, in a one-column table. -/
example : (⟨"Comfort", ["Weather", "Umbrella"], some [100, 20, 0, 70], [2, 2], 1⟩ : NFactor ℚ).row [1, 1] =
    .ok (some [70]) :=
  (C42_row_partial _).1 [1, 1] rfl (by decide) (.inl rfl)

/-- A network with a single variable and a table of the right size. -/
def oneVariable (outcomes : List String) (table : List α) : Except Fault (Net α) :=
  newNet "one" "" [⟨"X", .chance, outcomes, (0, 0), "", none⟩] [⟨"X", [], some table, [], 0⟩]

/-- **C45, refuted.** A variable with 65536 outcomes is accepted by `New`, but the solver sees none: `SolveQuery`
panics. -/
theorem C45_outcomes_refuted [Field α] [DecidableEq α] (sch : NSched α) {outcomes : List String}
    (ho : outcomes.length = 65536) {table : List α} (ht : table.length = 65536) (query : List String) :
    ∃ n, oneVariable outcomes table = .ok n ∧ Panics (n.solveQuery sch [] query false).1 := by
  refine ⟨⟨"one", "", [⟨"X", .chance, outcomes, (0, 0), "", some 0⟩],
    [⟨"X", [], some table, [], outcomes.length⟩], [], none, [], none⟩, rfl, ?_⟩
  have hve : ∀ k e, (⟨"one", "", [⟨"X", .chance, outcomes, (0, 0), "", some 0⟩],
    [⟨"X", [], some table, [], outcomes.length⟩], [], none, [], none⟩ : Net α).toVE sch k e =
      .error (.panic "wrong data length for factor") := by
    intro k e
    simp [Net.toVE, Net.addVariables, Vs.addVariable, Vs.new, Net.nameMap, mapSet, Net.addTable, Net.totalName, mapGet,
      givenVars, Vs.createFactor, size, ho, ht, Net.solverType, ok_bind, err_bind]
  unfold Net.solveQuery Net.solve Net.enter
  rw [hve]
  exact ⟨_, rfl⟩

/-- **C45, what holds.** Up to 65535 outcomes, each variable of a solved factor has the declared number of outcomes. -/
theorem C45_outcomes_partial [Field α] [DecidableEq α] (sch : NSched α) {n : Net α} (hn : n.Valid)
    (hp : n.PoliciesOK) {evidence : List (String × String)} (hev : n.EvidenceOK evidence) {query : List String}
    (hq : ∀ q ∈ query, ∃ v ∈ n.stateVars, v.name = q) (ign : Bool) :
    ∃ g n', n.solve sch evidence query false "" ign = (.ok g, n') ∧
      ∀ w ∈ g.vars, ∃ v, n.variables[w.id]? = some v ∧ w.outcomes = v.outcomes.length := by
  obtain ⟨vs, fs, ps, deps, g, vs1, h1, hS, hg, hgv, _⟩ := solve_query sch hn hp hev hq ign
  refine ⟨g, _, h1, fun w hw => ?_⟩
  obtain ⟨⟨f, hf, hvf⟩, _⟩ := (hgv w).1 hw
  obtain ⟨v, h1, _, h3⟩ := hS.vars.mem.1 (hS.problem.facVars f (List.mem_of_mem_filter hf) w hvf)
  exact ⟨v, h1, by rw [h3]; rfl⟩

/-- The sprinkler network satisfies the hypotheses. -/
example : ∃ g n', Ex.spr.solve Ex.back Ex.wet ["Rain"] false "" false = (.ok g, n') ∧
    ∀ w ∈ g.vars, ∃ v, Ex.spr.variables[w.id]? = some v ∧ w.outcomes = v.outcomes.length :=
  C45_outcomes_partial Ex.back Ex.spr_valid (Ex.noPolicies rfl) Ex.wet_ok
    (by intro q hq; simp at hq; subst hq; decide) false

/-- Tables as asked for in the refutation exist. -/
example (sch : NSched ℚ) : ∃ n, oneVariable (List.replicate 65536 "x") (List.replicate 65536 (1 : ℚ)) = .ok n ∧
    Panics (n.solveQuery sch [] ["X"] false).1 :=
  C45_outcomes_refuted sch List.length_replicate List.length_replicate ["X"]

end Bbn
