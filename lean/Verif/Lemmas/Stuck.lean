import Verif.Lemmas.Unused

/-!
# Decisions that cannot be solved: unused ones, and those that inform each other in a cycle
-/

set_option autoImplicit false

namespace Bbn

variable {α : Type}

/-! ## The topological sort fails unless all decisions among the parents are open -/

section

variable {dec : List Var} {deps : List (Var × List Var)}

/-- Decisions among the parents of the decision at the position are in the list. -/
def ParentsIn (dec : List Var) (deps : List (Var × List Var)) (i : Nat) : Prop :=
  ∀ v, dec[i]? = some v → ∀ e ∈ deps, e.1.id = v.id → ∀ p ∈ e.2, p.nodeType = .decision → p ∈ dec

/-- What a successful run of the search does. -/
structure TRun (dec : List Var) (deps : List (Var × List Var)) (st st' : TopoState) : Prop where
  mono : ∀ j : Nat, st.1[j]? = some true → st'.1[j]? = some true
  new : ∀ j : Nat, st'.1[j]? = some true → st.1[j]? = some true ∨ ParentsIn dec deps j

theorem TRun.refl (st : TopoState) : TRun dec deps st st := ⟨fun _ h => h, fun _ h => .inl h⟩

theorem TRun.trans {a b c : TopoState} (h : TRun dec deps a b) (k : TRun dec deps b c) : TRun dec deps a c := by
  refine ⟨fun j hj => k.mono j (h.mono j hj), fun j hj => ?_⟩
  rcases k.new j hj with hj | hj
  · exact h.new j hj
  · exact .inr hj

theorem topoParents_inv {call : Nat → TopoState → Except Fault TopoState}
    (hc : ∀ i st st', call i st = .ok st' → TRun dec deps st st') : ∀ (ps : List Var) (st st' : TopoState),
    topoParents dec call ps st = .ok st' → TRun dec deps st st' ∧ ∀ p ∈ ps, p.nodeType = .decision → p ∈ dec := by
  intro ps
  induction ps with
  | nil => intro st st' h; cases h; exact ⟨.refl _, fun p hp => by cases hp⟩
  | cons p ps ih =>
    intro st st' h
    rw [topoParents] at h
    split_ifs at h with hp
    · obtain ⟨a, b⟩ := ih st st' h
      refine ⟨a, fun q hq hd => ?_⟩
      rcases List.mem_cons.1 hq with rfl | hq
      · exact absurd hd hp
      · exact b q hq hd
    · cases hx : slicesIndex p dec with
      | none => rw [hx] at h; cases h
      | some idx =>
        rw [hx] at h
        obtain ⟨st1, h1, h⟩ := bind_inv h
        obtain ⟨a, b⟩ := ih st1 st' h
        refine ⟨(hc _ _ _ h1).trans a, fun q hq hd => ?_⟩
        rcases List.mem_cons.1 hq with rfl | hq
        · exact List.mem_of_getElem? (slicesIndex_some hx)
        · exact b q hq hd

theorem topoEntries_inv {call : Nat → TopoState → Except Fault TopoState} {v : Var}
    (hc : ∀ i st st', call i st = .ok st' → TRun dec deps st st') : ∀ (es : List (Var × List Var)) (st st' : TopoState),
    topoEntries dec call v es st = .ok st' → TRun dec deps st st' ∧
      ∀ e ∈ es, e.1.id = v.id → ∀ p ∈ e.2, p.nodeType = .decision → p ∈ dec := by
  intro es
  induction es with
  | nil => intro st st' h; cases h; exact ⟨.refl _, fun p hp => by cases hp⟩
  | cons e es ih =>
    intro st st' h
    rw [topoEntries] at h
    split_ifs at h with he
    · obtain ⟨st1, h1, h⟩ := bind_inv h
      obtain ⟨a1, b1⟩ := topoParents_inv hc _ _ _ h1
      obtain ⟨a, b⟩ := ih st1 st' h
      refine ⟨a1.trans a, fun x hx => ?_⟩
      rcases List.mem_cons.1 hx with rfl | hx
      · exact fun _ => b1
      · exact b x hx
    · obtain ⟨a, b⟩ := ih st st' h
      refine ⟨a, fun x hx => ?_⟩
      rcases List.mem_cons.1 hx with rfl | hx
      · exact fun h => absurd h he
      · exact b x hx

theorem topoRec_inv (sch : Sched α) : ∀ (fuel i : Nat) (st st' : TopoState), topoRec sch dec deps fuel i st = .ok st' →
    TRun dec deps st st' ∧ st'.1[i]? = some true := by
  intro fuel
  induction fuel with
  | zero => intro i st st' h; cases h
  | succ fuel ih =>
    rintro i ⟨vis, res, t⟩ st' h
    rw [topoRec] at h
    obtain ⟨seen, h1, h⟩ := bind_inv h
    rw [goGet_eq] at h1
    cases seen with
    | true =>
      cases h
      exact ⟨.refl _, h1⟩
    | false =>
      simp only [Bool.false_eq_true, if_false] at h
      obtain ⟨vis1, h2, h⟩ := bind_inv h
      obtain ⟨v, h3, h⟩ := bind_inv h
      obtain ⟨⟨vis2, res2, t2⟩, h4, h⟩ := bind_inv h
      cases h
      rw [goGet_eq] at h3
      unfold goSet at h2
      split_ifs at h2 with hlt
      cases h2
      obtain ⟨a, b⟩ := topoEntries_inv (fun i st st' h => (ih i st st' h).1) _ _ _ h4
      have hi : (vis.set i true)[i]? = some true := List.getElem?_set_self hlt
      have hP : ParentsIn dec deps i := by
        intro w hw e he
        rw [h3] at hw
        cases hw
        exact b e ((sch.dep_perm _ _).symm.subset he)
      refine ⟨⟨fun j hj => a.mono j ?_, fun j hj => ?_⟩, a.mono i hi⟩
      · dsimp only at hj ⊢
        by_cases e : i = j
        · rw [← e]; exact hi
        · rw [List.getElem?_set_ne e]; exact hj
      · by_cases e : i = j
        · rw [← e]; exact .inr hP
        · rcases a.new j hj with h | h
          · dsimp only at h
            rw [List.getElem?_set_ne e] at h
            exact .inl h
          · exact .inr h

/-- The sort succeeds only if all decisions among the parents are in the list. -/
theorem sortTopological_inv (sch : Sched α) {tick : Nat} {r : List Var × Nat} (h : sortTopological sch dec deps tick = .ok r) :
    ∀ v ∈ dec, ∀ e ∈ deps, e.1.id = v.id → ∀ p ∈ e.2, p.nodeType = .decision → p ∈ dec := by
  unfold sortTopological at h
  obtain ⟨⟨vis, res, t⟩, h1, _⟩ := bind_inv h
  have key : ∀ (is : List Nat) (st st' : TopoState),
      is.foldlM (fun (st : TopoState) i => topoRec sch dec deps (dec.length + 1) i st) st = .ok st' →
      TRun dec deps st st' ∧ ∀ i ∈ is, st'.1[i]? = some true := by
    intro is
    induction is with
    | nil => intro st st' h; cases h; exact ⟨.refl _, fun p hp => by cases hp⟩
    | cons i is ih =>
      intro st st' h
      rw [List.foldlM_cons] at h
      obtain ⟨st1, h1, h⟩ := bind_inv h
      obtain ⟨a1, b1⟩ := topoRec_inv sch _ _ _ _ h1
      obtain ⟨a, b⟩ := ih st1 st' h
      refine ⟨a1.trans a, fun x hx => ?_⟩
      rcases List.mem_cons.1 hx with rfl | hx
      · exact a.mono _ b1
      · exact b x hx
  obtain ⟨a, b⟩ := key _ _ _ h1
  intro v hv
  obtain ⟨i, hi, rfl⟩ := List.getElem_of_mem hv
  rcases a.new i (b i (List.mem_range.2 hi)) with h | h
  · dsimp only at h
    rw [List.getElem?_replicate, if_pos hi] at h
    cases h
  · exact h _ (List.getElem?_eq_getElem hi)

end

/-! ## What the steps of the solver leave unchanged -/

section

variable [Zero α] [One α] [Add α] [Mul α]

omit [Add α] in
theorem product_keep {s s' : Vs} {fs : List (Factor α)} {f : Factor α} (h : s.product fs = .ok (f, s')) :
    s'.variables = s.variables := by
  unfold Vs.product at h
  split at h
  · exact (createFactor_inv h).2
  · dsimp only at h
    obtain ⟨⟨g, s1⟩, h1, h⟩ := bind_inv h
    obtain ⟨x, _, h⟩ := bind_inv h
    cases h
    exact (createFactor_inv h1).2

omit [One α] [Mul α] in
theorem sum_keep {s s' : Vs} {fs : List (Factor α)} {f : Factor α} (h : s.sum fs = .ok (f, s')) :
    s'.variables = s.variables := by
  unfold Vs.sum at h
  split at h
  · exact (createFactor_inv h).2
  · dsimp only at h
    obtain ⟨⟨g, s1⟩, h1, h⟩ := bind_inv h
    obtain ⟨x, _, h⟩ := bind_inv h
    cases h
    exact (createFactor_inv h1).2

omit [One α] [Mul α] in
theorem sumOut_keep {s s' : Vs} {f g : Factor α} {v : Var} (h : s.sumOut f v = .ok (g, s')) :
    s'.variables = s.variables := by
  unfold Vs.sumOut at h
  split at h
  · cases h
  · dsimp only at h
    obtain ⟨⟨g, s1⟩, h1, h⟩ := bind_inv h
    obtain ⟨x, _, h⟩ := bind_inv h
    cases h
    exact (createFactor_inv h1).2

/-- Variables and dependencies are the same. -/
def VE.Same (st st' : VE α) : Prop := st'.vs.variables = st.vs.variables ∧ st'.deps = st.deps

theorem removeHidden_keep {sch : Sched α} {st st' : VE α} {v : Var} (h : st.removeHidden sch v = .ok st') : st.Same st' := by
  unfold VE.removeHidden at h
  dsimp only at h
  obtain ⟨⟨f, s1⟩, h1, h⟩ := bind_inv h
  obtain ⟨⟨g, s2⟩, h2, h⟩ := bind_inv h
  obtain ⟨e, _, h⟩ := bind_inv h
  cases h
  exact ⟨(sumOut_keep h2).trans (product_keep h1), rfl⟩

theorem removeHidden_fold_keep {sch : Sched α} : ∀ (l : List (Var × Nat)) (st st' : VE α),
    l.foldlM (fun st p => st.removeHidden sch p.1) st = .ok st' → st.Same st' := by
  intro l
  induction l with
  | nil => intro st st' h; cases h; exact ⟨rfl, rfl⟩
  | cons p l ih =>
    intro st st' h
    rw [List.foldlM_cons] at h
    obtain ⟨st1, h1, h⟩ := bind_inv h
    obtain ⟨a, b⟩ := removeHidden_keep h1
    obtain ⟨c, d⟩ := ih st1 st' h
    exact ⟨c.trans a, d.trans b⟩

/-- Eliminating hidden variables sorts the decisions first. -/
theorem eliminateHidden_keep {sch : Sched α} {st st' : VE α} {evidence : List Evid} {query : List Var}
    {single : Bool} (h : st.eliminateHidden sch evidence query single = .ok st') :
    st.Same st' ∧ ∃ r, st.getDecisions sch = .ok r := by
  unfold VE.eliminateHidden at h
  obtain ⟨⟨par, tick⟩, h1, h⟩ := bind_inv h
  dsimp only at h
  obtain ⟨hid, _, h⟩ := bind_inv h
  have hk := removeHidden_fold_keep _ _ _ h
  refine ⟨⟨hk.1, hk.2⟩, ?_⟩
  unfold VE.getDecisionParents at h1
  obtain ⟨r, h1, _⟩ := bind_inv h1
  exact ⟨r, h1⟩

omit [Add α] in
theorem collectUtils_keep {utils : List Var} {weights : Option (List α)} : ∀ (l : List (Factor α)) (vs vs' : Vs)
    (ids : List Nat) (fs : List (Factor α)), collectUtils utils weights l vs = .ok (ids, fs, vs') →
    vs'.variables = vs.variables := by
  intro l
  induction l with
  | nil => intro vs vs' ids fs h; cases h; rfl
  | cons g l ih =>
    intro vs vs' ids fs h
    rw [collectUtils] at h
    split at h
    · exact ih _ _ _ _ h
    · obtain ⟨⟨sc, s1⟩, h1, h⟩ := bind_inv h
      obtain ⟨⟨i2, f2, s2⟩, h2, h⟩ := bind_inv h
      cases h
      refine (ih _ _ _ _ h2).trans ?_
      unfold scaleUtil at h1
      split at h1
      · cases h1; rfl
      · obtain ⟨w, _, h1⟩ := bind_inv h1
        exact product_keep h1

omit [One α] [Mul α] in
theorem sumOutUtils_keep : ∀ (us : List Var) (f f' : Factor α) (vs vs' : Vs) (el el' : List Bool),
    sumOutUtils us f vs el = .ok (f', vs', el') → vs'.variables = vs.variables := by
  intro us
  induction us with
  | nil => intro f f' vs vs' el el' h; cases h; rfl
  | cons u us ih =>
    intro f f' vs vs' el el' h
    rw [sumOutUtils] at h
    obtain ⟨⟨g, s1⟩, h1, h⟩ := bind_inv h
    obtain ⟨e, _, h⟩ := bind_inv h
    exact (ih _ _ _ _ _ _ h).trans (sumOut_keep h1)

theorem sumUtilities_keep {sch : Sched α} {st st' : VE α} (h : st.sumUtilities sch = .ok st') : st.Same st' := by
  unfold VE.sumUtilities at h
  dsimp only at h
  split_ifs at h
  · cases h; exact ⟨rfl, rfl⟩
  · obtain ⟨⟨ids, fs, s1⟩, h1, h⟩ := bind_inv h
    obtain ⟨⟨f, s2⟩, h2, h⟩ := bind_inv h
    obtain ⟨⟨g, s3, e⟩, h3, h⟩ := bind_inv h
    cases h
    exact ⟨(sumOutUtils_keep _ _ _ _ _ _ _ h3).trans ((sum_keep h2).trans (collectUtils_keep _ _ _ _ _ h1)), rfl⟩

/-! ## Sets of decisions of which none can be solved -/

/-- Each of the variables is an open decision that no factor has, or that is a parent of another of them. -/
structure VE.Stuck (st : VE α) (D : Var → Prop) : Prop where
  vars : VarsOK st.vs.variables
  mem : ∀ d, D d → d ∈ st.vs.variables ∧ d.nodeType = .decision
  why : ∀ d, D d → st.Free d.id ∨ ∃ d', D d' ∧ d' ≠ d ∧ ∃ e ∈ st.deps, e.1.id = d'.id ∧ d ∈ e.2

omit [Zero α] [One α] [Add α] [Mul α] in
theorem VE.Stuck.same {st st' : VE α} {D : Var → Prop} (h : st.Stuck D) (hs : st.Same st')
    (hf : ∀ d, st.Free d → st'.Free d) : st'.Stuck D := by
  obtain ⟨e1, e2⟩ := hs
  refine ⟨by rw [e1]; exact h.vars, by rw [e1]; exact h.mem, fun d hd => ?_⟩
  rw [e2]
  rcases h.why d hd with k | k
  · exact .inl (hf _ k)
  · exact .inr k

variable [Div α] [NatCast α] [LE α] [DecidableLE α] [LT α] [DecidableLT α] [DecidableEq α]

omit [Add α] [Mul α] in
theorem policy_keep {s s' : Vs} {f g : Factor α} {v : Var} (h : s.policy f v = .ok (g, s')) :
    s'.variables = s.variables := by
  unfold Vs.policy at h
  split at h
  · cases h
  · obtain ⟨w, hw, h⟩ := bind_inv h
    obtain ⟨⟨g, s1⟩, h1, h⟩ := bind_inv h
    dsimp only at h
    split_ifs at h
    obtain ⟨x, _, h⟩ := bind_inv h
    cases h
    exact (createFactor_inv h1).2

theorem solvePolicy_stuck {sch : Sched α} {st st' : VE α} {single : Bool} {dec : Var} {p : Var × Factor α × Factor α}
    {D : Var → Prop} (h : st.solvePolicy sch single dec = .ok (p, st')) (hs : st.Stuck D)
    (hidx : ∀ d, D d → d.index = dec.index → d = dec) : ¬ D dec ∧ p.1 = dec ∧ st'.Stuck D := by
  have hfree : ∀ d, st.Free d → dec.id ≠ d ∧ st'.Free d := fun d hd => ⟨(solvePolicy_free h hd).1, (solvePolicy_free h hd).2.2.2⟩
  unfold VE.solvePolicy at h
  obtain ⟨⟨fac, s1⟩, h1, h⟩ := bind_inv h
  obtain ⟨⟨pol, s2⟩, h2, h⟩ := bind_inv h
  obtain ⟨vars, h3, h⟩ := bind_inv h
  obtain ⟨st1, h4, h⟩ := bind_inv h
  cases h
  obtain ⟨⟨k1, k2⟩, r, k3⟩ := eliminateHidden_keep h4
  dsimp only at k1 k2 h3
  have hv1 : s1.variables = st.vs.variables := by
    unfold decisionProduct at h1
    split at h1
    · cases h1
    · cases h1; rfl
    · exact product_keep h1
  have hv2 : s2.variables = st.vs.variables := (policy_keep h2).trans hv1
  rw [hv2] at h3
  unfold setChance at h3
  obtain ⟨w, hw, h3⟩ := bind_inv h3
  rw [goGet_eq] at hw
  unfold goSet at h3
  split_ifs at h3 with hlt
  cases h3
  have hcore : (st.vs.variables.set dec.index (w.withNodeType .chance)).map core = st.vs.variables.map core := by
    rw [List.map_set]
    have e : core (w.withNodeType .chance) = core w := rfl
    rw [e]
    apply List.ext_getElem?
    intro i
    by_cases hi : dec.index = i
    · subst hi
      rw [List.getElem?_set_self (by simpa using hlt), List.getElem?_map, hw]; rfl
    · rw [List.getElem?_set_ne hi]
  have hV : VarsOK (st.vs.variables.set dec.index (w.withNodeType .chance)) := hs.vars.of_core hcore
  have hmem : ∀ d, D d → d ≠ dec → d ∈ st.vs.variables.set dec.index (w.withNodeType .chance) := by
    intro d hd hne
    obtain ⟨a, _⟩ := hs.mem d hd
    have := hs.vars.get_index a
    refine List.mem_of_getElem? (i := d.index) ?_
    rw [List.getElem?_set_ne (fun e => hne (hidx d hd e.symm))]
    exact this
  have hnot : ¬ D dec := by
    intro hd
    rcases hs.why dec hd with k | ⟨d', hd', hne, e, he, he1, he2⟩
    · exact (hfree _ k).1 rfl
    · have hin := sortTopological_inv sch k3 d' (List.mem_filter.2 ⟨hmem d' hd' hne, by simpa using (hs.mem d' hd').2⟩)
        e he he1 dec he2 (hs.mem dec hd).2
      have hin := (List.mem_filter.1 hin).1
      have hget := hV.get_index hin
      rw [List.getElem?_set_self hlt] at hget
      have := (hs.mem dec hd).2
      rw [← Option.some.inj hget] at this
      exact absurd this (by simp [Var.withNodeType])
  refine ⟨hnot, rfl, ?_, ?_, ?_⟩
  · rw [k1]; exact hV
  · intro d hd
    rw [k1]
    exact ⟨hmem d hd (fun e => hnot (e ▸ hd)), (hs.mem d hd).2⟩
  · intro d hd
    rw [k2]
    rcases hs.why d hd with k | k
    · exact .inl (hfree _ k).2
    · exact .inr k

theorem solvePolicyList_stuck {sch : Sched α} {single : Bool} {D : Var → Prop} : ∀ (decs : List Var) (st st' : VE α)
    (ps : List (Var × Factor α × Factor α)), VE.solvePolicyList sch single decs st = .ok (ps, st') → st.Stuck D →
    (∀ dec ∈ decs, ∀ d, D d → d.index = dec.index → d = dec) →
    ps.map Prod.fst = (if single then decs.take 1 else decs) ∧ ∀ p ∈ ps, ¬ D p.1 := by
  intro decs
  induction decs with
  | nil =>
    intro st st' ps h _ _
    cases h
    exact ⟨by split_ifs <;> rfl, fun p hp => by cases hp⟩
  | cons dec decs ih =>
    intro st st' ps h hs hidx
    rw [VE.solvePolicyList] at h
    obtain ⟨⟨p, st1⟩, h1, h⟩ := bind_inv h
    obtain ⟨a1, a2, a3⟩ := solvePolicy_stuck h1 hs (hidx dec (by simp))
    dsimp only at h a2 a3
    cases single with
    | true =>
      cases h
      refine ⟨by simp [a2], fun q hq => ?_⟩
      rw [List.mem_singleton.1 hq, a2]
      exact a1
    | false =>
      simp only [Bool.false_eq_true, if_false] at h
      obtain ⟨⟨qs, st2⟩, h2, h⟩ := bind_inv h
      cases h
      obtain ⟨b1, b2⟩ := ih _ _ _ h2 a3 (fun x hx => hidx x (by simp [hx]))
      simp only [Bool.false_eq_true, if_false] at b1 ⊢
      refine ⟨by rw [List.map_cons, a2, b1], fun q hq => ?_⟩
      rcases List.mem_cons.1 hq with rfl | hq
      · rw [a2]; exact a1
      · exact b2 q hq

end

/-! ## The network -/

section

variable [Field α] [LinearOrder α] [IsStrictOrderedRing α]

theorem policyFactors_keep {n : Net α} {varIDs : List (NVar × Var)} {evidence : List (String × String)} :
    ∀ (ps : List (String × Factor α)) (vs vs' : Vs) (fs : List (Factor α)),
    n.policyFactors varIDs evidence ps vs = .ok (fs, vs') → vs'.variables = vs.variables := by
  intro ps
  induction ps with
  | nil => intro vs vs' fs h; cases h; rfl
  | cons p ps ih =>
    intro vs vs' fs h
    rw [Net.policyFactors] at h
    split_ifs at h
    · exact ih _ _ _ h
    · obtain ⟨l, h1, h⟩ := bind_inv h
      obtain ⟨⟨f, s1⟩, h2, h⟩ := bind_inv h
      obtain ⟨⟨gs, s2⟩, h3, h⟩ := bind_inv h
      cases h
      exact (ih _ _ _ h3).trans (createFactor_inv h2).2

/-- The solver for a network, whatever its policies. -/
theorem toVE_inv (sch : NSched α) (k : Nat) {n : Net α} (hn : n.Valid) {ve : VE α}
    {names : List (String × NVar × Var)} (h : n.toVE sch k [] = .ok (ve, names)) :
    SolverVars n names ve.vs.variables ∧ ve.deps = (n.factors.filter n.isOpen).map n.depEntry ∧
      (∃ decs t, ve.getDecisions (sch.ve k) = .ok (decs, t) ∧ decs.Perm (decisionVars ve.vs.variables)) ∧
      ∀ (i : Nat) (v : NVar), n.variables[i]? = some v → v.nodeType = .decision → n.Unused v.name →
        (∀ p ∈ n.policies, p.2.Free i) → ve.Free i := by
  obtain ⟨R, h1, h2⟩ := start_vars n hn
  have hnames := h2.names_eq
  have h2' := h2
  rw [hnames] at h2
  obtain ⟨fs, c, a1, a2, a3, a4, a5⟩ := addTables_spec hn h2 n.factors [] [] { Vs.new with «variables» := R }
    (fun _ h => h) hn.tables (by simp)
  unfold Net.toVE at h
  rw [h1, ok_bind] at h
  dsimp only at h
  rw [hnames, a1, ok_bind] at h
  dsimp only at h
  obtain ⟨⟨ps, s1⟩, b1, h⟩ := bind_inv h
  obtain ⟨ws, _, h⟩ := bind_inv h
  cases h
  have hvs : s1.variables = R := policyFactors_keep _ _ _ _ b1
  have hR : VarsOK R := ⟨h2.ids, h2.index⟩
  refine ⟨?_, List.nil_append _, ?_, ?_⟩
  · show SolverVars n _ s1.variables
    rw [hvs]
    exact h2
  · have hdv : ∀ e ∈ (n.factors.filter n.isOpen).map n.depEntry, ∀ p ∈ e.2, p ∈ R := by
      intro e he p hp
      obtain ⟨f, hf, rfl⟩ := List.mem_map.1 he
      obtain ⟨hf1, hf2⟩ := List.mem_filter.1 hf
      have hd := isOpen_dims hn hf1 hf2
      obtain ⟨s, hs, rfl⟩ := List.mem_map.1 hp
      exact (hd s (by simp [NFactor.dims, hs])).varOf_mem h2 hn
    obtain ⟨decs, t, g1, g2, _⟩ := getDecisions_spec (sch.ve k)
      (VE.new s1 ([] ++ fs ++ ps) ([] ++ (n.factors.filter n.isOpen).map n.depEntry) ws)
      (by show VarsOK s1.variables; rw [hvs]; exact hR)
      (by
        show DepsOK s1.variables _
        rw [hvs]
        refine ⟨?_, fun e he p hpe => hR.index_lt (hdv e (by simpa [VE.new] using he) p hpe)⟩
        rintro v hv p ⟨e, he, k1, k2, k3⟩
        simp [hdv e (by simpa [VE.new] using he) p k2, k3])
    exact ⟨decs, t, g1, g2⟩
  · intro i v hi hd hun hpol
    obtain ⟨b2, b3⟩ := policyFactors_free _ _ _ _ b1 (fun p hp => hpol p ((sch.pol_perm k n.policies).subset hp))
    refine new_free ?_
    intro f hf
    rw [List.nil_append] at hf
    rcases List.mem_append.1 hf with hf | hf
    · obtain ⟨g, hg, ht⟩ := forall₂_mem_right a5 hf
      obtain ⟨hg1, hg2⟩ := List.mem_filter.1 hg
      simp only [Net.isTable, decide_eq_true_eq] at hg2
      intro w hw e
      rw [ht.vars] at hw
      obtain ⟨s, hs, rfl⟩ := List.mem_map.1 hw
      obtain ⟨j, u, c1, c2, c3⟩ := dims_isVar hn hg1 hg2.1 s hs
      subst c2
      rw [varOf_eq hn c1 c3] at e
      have e : j = i := e
      subst e
      rw [hi] at c1
      cases c1
      rcases List.mem_append.1 hs with hs | hs
      · exact hun g hg1 hg2.1 hg2.2 hs
      · rw [← List.mem_singleton.1 hs, Bool.eq_false_iff] at hg2
        exact hg2.2 ((isKind_iff hn (List.mem_of_getElem? hi) _).2 hd)
    · exact b2 f hf

/-- Each of the names is that of a decision without policy which is unused, also in policies, or is a parent of another of
them. -/
structure Net.Stuck (n : Net α) (S : String → Prop) : Prop where
  kind : ∀ s, S s → n.isKind .decision s = true ∧ n.hasPolicy s = false
  why : ∀ s, S s → (n.Unused s ∧ ∀ (i : Nat) v, n.variables[i]? = some v → v.name = s → ∀ p ∈ n.policies, p.2.Free i) ∨
    ∃ t, S t ∧ t ≠ s ∧ ∃ f ∈ n.factors, f.forVar = t ∧ s ∈ f.given

omit [Field α] [LinearOrder α] [IsStrictOrderedRing α] in
/-- The position of a decision without policy, and its solver variable. -/
theorem open_var {n : Net α} (hn : n.Valid) {s : String} (hk : n.isKind .decision s = true) (ho : n.hasPolicy s = false) :
    ∃ i v, n.variables[i]? = some v ∧ v.name = s ∧ v.nodeType = .decision ∧ n.totalUtility ≠ some i ∧
      n.varOf s = n.solverVar i v ∧ (n.varOf s).nodeType = .decision := by
  obtain ⟨v, hv, rfl, hd⟩ := isKind_mem.1 hk
  obtain ⟨i, hi⟩ := List.getElem?_of_mem hv
  have hnt : n.totalUtility ≠ some i := by
    intro e
    have := total_utility hn hv ((totalName_iff hn hi).2 e)
    rw [hd] at this
    exact absurd this (by decide)
  have hof := varOf_eq hn hi hnt
  refine ⟨i, v, hi, rfl, hd, hnt, hof, ?_⟩
  rw [hof]
  show n.solverType v = .decision
  unfold Net.solverType
  rw [if_neg (by simp [ho]), hd]

theorem toVE_stuck (sch : NSched α) (k : Nat) {n : Net α} (hn : n.Valid) {S : String → Prop} (hS : n.Stuck S) {ve : VE α}
    {names : List (String × NVar × Var)} (h : n.toVE sch k [] = .ok (ve, names)) :
    ve.Stuck (fun w => ∃ s, S s ∧ w = n.varOf s) := by
  obtain ⟨h1, h2, _, h4⟩ := toVE_inv sch k hn h
  refine ⟨⟨h1.ids, h1.index⟩, ?_, ?_⟩
  · rintro d ⟨s, hs, rfl⟩
    obtain ⟨hk, ho⟩ := hS.kind s hs
    obtain ⟨i, v, a1, a2, a3, a4, a5, a6⟩ := open_var hn hk ho
    exact ⟨by rw [a5]; exact h1.mem_of a1 a4, a6⟩
  · rintro d ⟨s, hs, rfl⟩
    obtain ⟨hk, ho⟩ := hS.kind s hs
    obtain ⟨i, v, a1, a2, a3, a4, a5, a6⟩ := open_var hn hk ho
    rcases hS.why s hs with ⟨hu, hp⟩ | ⟨t, ht, hne, f, hf, rfl, hg⟩
    · left
      rw [a5]
      exact h4 i v a1 a3 (a2 ▸ hu) (hp i v a1 a2)
    · right
      obtain ⟨hk', ho'⟩ := hS.kind _ ht
      obtain ⟨j, u, c1, c2, c3, c4, c5, c6⟩ := open_var hn hk' ho'
      refine ⟨_, ⟨_, ht, rfl⟩, ?_, n.depEntry f, ?_, rfl, List.mem_map_of_mem hg⟩
      · rw [a5, c5]
        intro e
        have e : j = i := congrArg Var.id e
        subst e
        rw [a1] at c1
        cases c1
        exact hne (c2.symm.trans a2)
      · rw [h2]
        refine List.mem_map_of_mem (List.mem_filter.2 ⟨hf, ?_⟩)
        simp [Net.isOpen, hk', ho']

/-- The loop of `SolvePolicies` does not end well. -/
theorem policySteps_stuck (sch : NSched α) (single : Bool) {S : String → Prop} (hne : ∃ s, S s) :
    ∀ (left k : Nat) (n n' : Net α), n.Valid → n.Stuck S → 0 < left →
    (single = true → n.openDecisions.length ≤ left) → Net.policySteps sch single left k n ≠ (.ok (), n') := by
  intro left
  induction left with
  | zero => intro k n n' _ _ h; omega
  | succ left ih =>
    intro k n n' hn hS _ hlen h
    rw [Net.policySteps] at h
    unfold Net.enter at h
    cases hve : n.toVE sch k [] with
    | error e =>
      rw [hve] at h
      cases e <;> cases h
    | ok r =>
    obtain ⟨ve, names⟩ := r
    rw [hve] at h
    dsimp only at h
    obtain ⟨h2, _, ⟨decs, t, h3, h4⟩, hfree⟩ := toVE_inv sch k hn hve
    have hst := toVE_stuck sch k hn hS hve
    have hme : ∀ s, S s → n.varOf s ∈ decs := by
      intro s hs
      obtain ⟨a, b⟩ := hst.mem _ ⟨s, hs, rfl⟩
      exact h4.symm.subset (List.mem_filter.2 ⟨a, by simpa using b⟩)
    obtain ⟨s0, hs0⟩ := hne
    cases hs : ve.solvePolicies (sch.ve k) single with
    | error e => rw [hs] at h; cases h
    | ok r =>
    rw [hs] at h
    obtain ⟨_ | solved, ve'⟩ := r
    · unfold VE.solvePolicies at hs
      rw [h3, ok_bind] at hs
      dsimp only at hs
      rw [if_neg (by intro e; have := hme s0 hs0; rw [List.length_eq_zero_iff.1 e] at this; cases this)] at hs
      obtain ⟨_, _, hs⟩ := bind_inv hs
      obtain ⟨_, _, hs⟩ := bind_inv hs
      obtain ⟨_, _, hs⟩ := bind_inv hs
      cases hs
    · obtain ⟨decs', t', st1, st2, i1, i2, i3, i4, i5⟩ := solvePolicies_inv (sch.ve k) hs
      rw [h3] at i1
      cases i1
      have hst2 : st2.Stuck (fun w => ∃ s, S s ∧ w = n.varOf s) := by
        have h0 : VE.Stuck { ve with tick := t } (fun w => ∃ s, S s ∧ w = n.varOf s) := ⟨hst.vars, hst.mem, hst.why⟩
        exact (h0.same (sumUtilities_keep i3) (fun d => sumUtilities_free i3)).same (eliminateHidden_keep i4).1
          (fun d => eliminateHidden_free i4)
      obtain ⟨l1, l2⟩ := solvePolicyList_stuck _ _ _ _ i5 hst2 (by
        intro dec hdec d hd e
        refine hst.vars.ext_index (hst.mem d hd).1 ?_ e
        exact (List.mem_filter.1 (h4.subset (List.mem_reverse.1 hdec))).1)
      cases single with
      | false =>
        rw [if_neg (by simp)] at l1
        have hm : n.varOf s0 ∈ solved.map Prod.fst := by rw [l1]; exact List.mem_reverse.2 (hme s0 hs0)
        obtain ⟨p, hp, e⟩ := List.mem_map.1 hm
        exact l2 p hp ⟨s0, hs0, e⟩
      | true =>
        rw [if_pos rfl] at l1
        obtain ⟨dec, rest, hrev⟩ : ∃ dec rest, decs.reverse = dec :: rest := by
          cases hr : decs.reverse with
          | nil => exact absurd (List.reverse_eq_nil_iff.1 hr) i2
          | cons a l => exact ⟨a, l, rfl⟩
        rw [hrev, List.take_succ_cons, List.take_zero] at l1
        obtain ⟨fac, pol, rfl⟩ : ∃ fac pol, solved = [(dec, fac, pol)] := by
          match solved, l1 with
          | [(d', fac, pol)], l1 =>
            simp only [List.map_cons, List.map_nil, List.cons.injEq, and_true] at l1
            exact ⟨fac, pol, by rw [l1]⟩
        have l3 := l2 _ (List.mem_singleton.2 rfl)
        have hdm : dec ∈ decisionVars ve.vs.variables :=
          h4.subset (List.mem_reverse.1 (by rw [hrev]; simp))
        obtain ⟨hdm1, hdm2⟩ := List.mem_filter.1 hdm
        have hdd : dec.nodeType = .decision := by simpa using hdm2
        obtain ⟨u, u1, u2, u3⟩ := h2.mem.1 hdm1
        obtain ⟨s1, s2⟩ := store_one hdd fac pol (sch.names k names) n.policies
        dsimp only at h l3
        have hmemn : ∀ e, e ∈ sch.names k names ↔ ∃ j, n.variables[j]? = some e.2.1 ∧ e.2.1.name = e.1 ∧
            n.totalUtility ≠ some j ∧ e.2.2 = n.solverVar j e.2.1 := by
          intro e
          rw [(sch.names_perm k names).mem_iff, ← h2.get hn, mapGet_mem (h2.keys hn)]
        set pols := (sch.names k names).foldl (storePolicy [(dec, fac, pol)]) n.policies with hpols
        have hu : u.nodeType = .decision ∧ n.hasPolicy u.name = false := by
          rw [u3] at hdd
          have hdd : n.solverType u = .decision := hdd
          unfold Net.solverType at hdd
          split_ifs at hdd with hc
          exact ⟨hdd, by simpa [hdd] using hc⟩
        have hun' : n.totalUtility ≠ some dec.id := fun e => u2 e.symm
        have hvp : ∀ s, S s → (mapGet pols s).isSome = false := by
          intro s hs
          rw [Bool.eq_false_iff]
          intro e
          rcases (s2 s).1 e with h | ⟨x, hx, x1, x2⟩
          · have hno : (mapGet n.policies s).isSome = false := (hS.kind s hs).2
            rw [hno] at h; cases h
          · obtain ⟨j, y1, y2, y3, y4⟩ := (hmemn x).1 hx
            refine l3 ⟨s, hs, ?_⟩
            rw [← x2, y4, ← x1, ← y2, varOf_eq hn y1 y3]
        have hup : (mapGet pols u.name).isSome = true :=
          (s2 u.name).2 (.inr ⟨(u.name, u, dec), (hmemn _).2 ⟨dec.id, u1, rfl, hun', u3⟩, rfl, rfl⟩)
        have hlt : (Net.openDecisions { n with vs := some ve'.vs, names := names, policies := pols }).length < n.openDecisions.length := by
          have hsub : (Net.openDecisions { n with vs := some ve'.vs, names := names, policies := pols }).Sublist n.openDecisions := by
            unfold Net.openDecisions
            refine List.monotone_filter_right _ ?_
            intro x hx
            simp only [decide_eq_true_eq] at hx ⊢
            refine ⟨hx.1, ?_⟩
            have hx2 : (mapGet pols x.name).isSome = false := hx.2
            show (mapGet n.policies x.name).isSome = false
            rw [Bool.eq_false_iff] at hx2 ⊢
            exact fun e => hx2 ((s2 x.name).2 (.inl e))
          by_contra hc
          have heq := hsub.eq_of_length_le (by omega)
          have hm : u ∈ n.openDecisions := by simp [Net.openDecisions, List.mem_of_getElem? u1, hu]
          rw [← heq] at hm
          simp only [Net.openDecisions, List.mem_filter, decide_eq_true_eq] at hm
          have h9 : (mapGet pols u.name).isSome = false := hm.2.2
          rw [hup] at h9
          cases h9
        have hin : 0 < (Net.openDecisions { n with vs := some ve'.vs, names := names, policies := pols }).length := by
          obtain ⟨i, v, a1, a2, a3, _⟩ := open_var hn (hS.kind s0 hs0).1 (hS.kind s0 hs0).2
          refine List.length_pos_of_mem (a := v) ?_
          simp only [Net.openDecisions, List.mem_filter, decide_eq_true_eq]
          refine ⟨List.mem_of_getElem? a1, a3, ?_⟩
          rw [a2]
          exact hvp s0 hs0
        have hl := hlen rfl
        have hpos : 0 < left := by omega
        refine ih (k + 1) _ n' (hn.with (some ve'.vs) names pols) ⟨fun s hs => ⟨(hS.kind s hs).1, hvp s hs⟩, ?_⟩ hpos ?_ h
        · intro s hs
          rcases hS.why s hs with ⟨w1, w2⟩ | w
          · refine .inl ⟨w1, fun i v hi hv p hp => ?_⟩
            rcases s1 p hp with h | h
            · exact w2 i v hi hv p h
            · rw [h]
              obtain ⟨_, v', _, c2, c3, _⟩ := open_var hn (hS.kind s hs).1 (hS.kind s hs).2
              have hd : v.nodeType = .decision := by
                rw [← isKind_iff hn (List.mem_of_getElem? hi), hv]
                exact (hS.kind s hs).1
              have hf : ve.Free i := hfree i v hi hd (hv ▸ w1) (w2 i v hi hv)
              have hf2 : st2.Free i := eliminateHidden_free i4 (sumUtilities_free i3 hf)
              exact ((solvePolicyList_free _ _ _ _ i5 hf2).2 _ (List.mem_singleton.2 rfl)).2
          · exact .inr w
        · intro _
          omega

end

end Bbn
