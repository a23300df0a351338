import Verif.Lemmas.MachineSmall
import Verif.Lemmas.NetSolver

/-!
# Networks with few combinations of outcomes
-/

set_option autoImplicit false

namespace Bbn

/-- The number of combinations of outcomes of all variables of a network. -/
def Net.combinations {α : Type} (n : Net α) : Nat := (n.variables.map (fun v => v.outcomes.length)).prod

theorem size_pos_of {l : List Var} (h : ∀ v ∈ l, 0 < v.outcomes) : 0 < size l := by
  induction l with
  | nil => simp [size]
  | cons v l ih =>
    simp only [size]
    exact Nat.mul_pos (h v List.mem_cons_self) (ih (fun w hw => h w (List.mem_cons_of_mem _ hw)))

theorem size_le_of_subperm {l U : List Var} (h : l.Subperm U) (hU : ∀ v ∈ U, 0 < v.outcomes) : size l ≤ size U := by
  obtain ⟨l', hp, hs⟩ := h
  have h1 : size l = size l' := by
    have e : ∀ m : List Var, size m = (m.map Var.outcomes).prod := by
      intro m
      induction m with
      | nil => rfl
      | cons v m ih => simp [size, ih]
    rw [e, e]
    exact (hp.map _).prod_eq.symm
  rw [h1]
  clear h1 hp
  induction hs with
  | slnil => exact le_rfl
  | cons v _ ih =>
    have := ih (fun w hw => hU w (List.mem_cons_of_mem _ hw))
    simp only [size]
    exact this.trans (Nat.le_mul_of_pos_left _ (hU v List.mem_cons_self))
  | cons_cons v _ ih =>
    simp only [size]
    exact Nat.mul_le_mul_left _ (ih (fun w hw => hU w (List.mem_cons_of_mem _ hw)))

theorem roomy_mem {U : List Var} (hU : ∀ v ∈ U, 0 < v.outcomes) (h : size U < 2 ^ 63) : Roomy (· ∈ U) :=
  fun _ hl hs => lt_of_le_of_lt (size_le_of_subperm (List.subperm_of_subset hl hs) hU) h

section
variable {α : Type}

/-- The solver's variables of a network. -/
def Net.solverList (n : Net α) : List Var := (n.solverVars 0 n.variables).map Prod.snd

theorem mem_solverList {n : Net α} {w : Var} :
    w ∈ n.solverList ↔ ∃ i v, n.variables[i]? = some v ∧ some i ≠ n.totalUtility ∧ w = n.solverVar i v := by
  unfold Net.solverList
  constructor
  · intro h
    obtain ⟨e, he, rfl⟩ := List.mem_map.1 h
    obtain ⟨j, h1, h2, h3⟩ := (mem_solverVars n).1 he
    rw [Nat.zero_add] at h2 h3
    exact ⟨j, e.1, h1, h2, h3⟩
  · rintro ⟨i, v, h1, h2, rfl⟩
    exact List.mem_map.2 ⟨(v, n.solverVar i v), (mem_solverVars n).2 ⟨i, h1, by simpa using h2, by simp⟩, rfl⟩

theorem solverList_pos {n : Net α} (hn : n.Valid) : ∀ v ∈ n.solverList, 0 < v.outcomes := by
  intro w hw
  obtain ⟨i, v, h1, _, rfl⟩ := mem_solverList.1 hw
  exact (hn.outcomes v (List.mem_of_getElem? h1)).1

theorem solverList_size {n : Net α} (hn : n.Valid) : size n.solverList ≤ n.combinations := by
  have key : ∀ (l : List NVar) (i : Nat), (∀ v ∈ l, 0 < v.outcomes.length) →
      size ((n.solverVars i l).map Prod.snd) ≤ (l.map (fun v => v.outcomes.length)).prod := by
    intro l
    induction l with
    | nil => intro i _; simp [Net.solverVars, size]
    | cons v l ih =>
      intro i h
      have h1 := ih (i + 1) (fun w hw => h w (List.mem_cons_of_mem _ hw))
      unfold Net.solverVars
      rw [List.map_cons, List.prod_cons]
      split
      · exact h1.trans (Nat.le_mul_of_pos_left _ (h v List.mem_cons_self))
      · simp only [List.map_cons, size]
        exact Nat.mul_le_mul_left _ h1
  exact key _ 0 (fun v hv => (hn.outcomes v hv).1)

theorem solverList_roomy {n : Net α} (hn : n.Valid) (h : n.combinations < 2 ^ 63) : Roomy (· ∈ n.solverList) :=
  roomy_mem (solverList_pos hn) (lt_of_le_of_lt (solverList_size hn) h)

/-- A policy that `toVE` can hand to a solver. -/
structure Net.Kept (n : Net α) (f : Factor α) : Prop where
  len : f.data.length = size f.vars
  nodup : (f.vars.map Var.id).Nodup
  vars : ∀ w ∈ f.vars, ∃ v, n.variables[w.id]? = some v ∧ some w.id ≠ n.totalUtility ∧
    w.index = n.solverIndex w.id ∧ w.outcomes = v.outcomes.length ∧
    (w.nodeType = v.nodeType ∨ w.nodeType = .chance ∧ v.nodeType = .decision ∧ n.hasPolicy v.name)

theorem kept_of_ok {n : Net α} (hn : n.Valid) (hp : n.PoliciesOK) : ∀ p ∈ n.policies, n.Kept p.2 := by
  intro p hpm
  refine ⟨(hp.wf p hpm).len, (hp.wf p hpm).nodup, fun w hw => ?_⟩
  obtain ⟨v, h1, h2, h3, h4, h5⟩ := hp.vars p hpm w hw
  refine ⟨v, h1, fun e => h2 (total_utility hn (List.mem_of_getElem? h1) ((totalName_iff hn h1).2 e.symm)), h3, h4, ?_⟩
  rcases h5 with h5 | h5
  · exact .inl h5
  · cases hv : v.nodeType with
    | chance => exact .inl h5.1
    | decision => exact .inr ⟨h5.1, rfl, h5.2⟩
    | utility => exact absurd hv h2

theorem policyVar_kept {n : Net α} {f : Factor α} (hf : n.Kept f) {w : Var} (hw : w ∈ f.vars) :
    n.policyVar (n.varIDs 0 n.variables) w = .ok (n.varAt w.id) ∧ n.varAt w.id ∈ n.solverList := by
  obtain ⟨v, h1, ht, h3, h4, h5⟩ := hf.vars w hw
  refine ⟨?_, by rw [varAt_eq h1]; exact mem_solverList.2 ⟨_, v, h1, ht, rfl⟩⟩
  rw [varAt_eq h1]
  have hget : (n.varIDs 0 n.variables)[w.id]? = some (v, n.solverVar w.id v) := by
    rw [varIDs_get, h1]; simp [ht]
  unfold Net.policyVar
  by_cases hd : w.nodeType = .decision
  · rw [if_pos hd, goGet_eq.2 hget, ok_bind]
    dsimp only
    have hv : v.nodeType = .decision := by
      rcases h5 with h5 | h5
      · rw [← h5]; exact hd
      · exact h5.2.1
    by_cases hs : n.hasPolicy v.name = true
    · rw [if_pos hs]
      congr 1
      simp [Var.withNodeType, Net.solverVar, h3, h4, Net.solverType, hv, hs]
    · rw [if_neg hs]
      congr 1
      cases w
      simp_all [Net.solverVar, Net.solverType]
  · rw [if_neg hd]
    congr 1
    rcases h5 with h5 | h5
    · have hvd : v.nodeType ≠ .decision := by rw [← h5]; exact hd
      cases w
      simp_all [Net.solverVar, Net.solverType]
    · have : n.solverType v = .chance := by
        unfold Net.solverType
        rw [if_pos h5.2]
      cases w
      simp_all [Net.solverVar]

theorem kept_of_small {n : Net α} {f : Factor α} (hf : f.Small (· ∈ n.solverList)) {m : Net α}
    (hv : m.variables = n.variables) (ht : m.totalUtility = n.totalUtility)
    (hp : ∀ s, n.hasPolicy s = true → m.hasPolicy s = true) : m.Kept f := by
  refine ⟨hf.len, ?_, ?_⟩
  · refine List.Nodup.map_on ?_ hf.nodup
    intro a ha b hb e
    obtain ⟨i, v, h1, _, rfl⟩ := mem_solverList.1 (hf.vars a ha)
    obtain ⟨j, u, k1, _, rfl⟩ := mem_solverList.1 (hf.vars b hb)
    simp only [Net.solverVar] at e
    subst e
    rw [h1] at k1
    injection k1 with k1
    rw [k1]
  · intro w hw
    obtain ⟨i, v, h1, h2, rfl⟩ := mem_solverList.1 (hf.vars w hw)
    refine ⟨v, by rw [hv]; exact h1, by rw [ht]; exact h2, ?_, rfl, ?_⟩
    · unfold Net.solverVar Net.solverIndex
      rw [ht]
    · simp only [Net.solverVar, Net.solverType]
      split
      · rename_i h
        exact .inr ⟨rfl, h.1, hp _ h.2⟩
      · exact .inl rfl

theorem kept_with {n : Net α} {f : Factor α} (hf : n.Kept f) {m : Net α}
    (hv : m.variables = n.variables) (ht : m.totalUtility = n.totalUtility)
    (hp : ∀ s, n.hasPolicy s = true → m.hasPolicy s = true) : m.Kept f := by
  refine ⟨hf.len, hf.nodup, fun w hw => ?_⟩
  obtain ⟨v, d1, d2, d3, d4, d5⟩ := hf.vars w hw
  refine ⟨v, by rw [hv]; exact d1, by rw [ht]; exact d2, ?_, d4, d5.imp id (fun t => ⟨t.1, t.2.1, hp _ t.2.2⟩)⟩
  rw [d3]
  unfold Net.solverIndex
  rw [ht]

theorem mapM_policyVar {n : Net α} {f : Factor α} (hf : n.Kept f) :
    f.vars.mapM (n.policyVar (n.varIDs 0 n.variables)) = .ok (f.vars.map (fun w => n.varAt w.id)) := by
  have : ∀ l : List Var, (∀ w ∈ l, w ∈ f.vars) →
      l.mapM (n.policyVar (n.varIDs 0 n.variables)) = .ok (l.map (fun w => n.varAt w.id)) := by
    intro l
    induction l with
    | nil => intro _; rfl
    | cons w l ih =>
      intro h
      rw [List.mapM_cons, (policyVar_kept hf (h w List.mem_cons_self)).1,
        ih (fun u hu => h u (List.mem_cons_of_mem _ hu))]
      rfl
  exact this _ (fun _ h => h)

theorem policyFactorsM_small [Zero α] {n : Net α} (hP : Roomy (· ∈ n.solverList)) (ev : List (String × String))
    (ps : List (String × Factor α)) (hk : ∀ p ∈ ps, n.Kept p.2) (vs : Vs) :
    Leq (fun r => ∀ f ∈ r.1, f.Small (· ∈ n.solverList)) (n.policyFactorsM .exact (n.varIDs 0 n.variables) ev ps vs)
      (n.policyFactorsM .careful (n.varIDs 0 n.variables) ev ps vs) := by
  induction ps generalizing vs with
  | nil => exact Leq.ok (by simp)
  | cons p ps ih =>
    have ih := ih (fun q hq => hk q (List.mem_cons_of_mem _ hq))
    have hp := hk p List.mem_cons_self
    unfold Net.policyFactorsM
    split
    · exact ih vs
    · rw [mapM_policyVar hp]
      have n1 : (p.2.vars.map (fun w => n.varAt w.id)).Nodup := by
        refine List.Nodup.of_map Var.id ?_
        rw [List.map_map]
        have e : (Var.id ∘ fun w => n.varAt w.id) = Var.id := by funext w; simp [varAt_id]
        rw [e]
        exact hp.nodup
      have n2 : ∀ v ∈ p.2.vars.map (fun w => n.varAt w.id), v ∈ n.solverList := by
        intro v hv
        obtain ⟨w, hw, rfl⟩ := List.mem_map.1 hv
        exact (policyVar_kept hp hw).2
      rw [ok_bind, ok_bind]
      refine Leq.bind (createFactorM_leq vs _ (hP _ n1 n2)) (fun a ha => Leq.bind (ih _) (fun b hb => Leq.ok ?_))
      intro f hf
      rcases List.mem_cons.1 hf with rfl | hf
      · exact ⟨by rw [ha.1]; exact n1, by rw [ha.1]; exact n2, by rw [ha.1]; exact ha.2⟩
      · exact hb f hf

section
variable [Zero α] [Add α] [Div α] [DecidableEq α]

theorem addTableM_small {n : Net α} (hn : n.Valid) (hP : Roomy (· ∈ n.solverList))
    {names : List (String × NVar × Var)} (hs : SolverVars n names n.solverList)
    (st : List (Factor α) × List (Var × List Var) × Vs) (hst : ∀ f ∈ st.1, f.Small (· ∈ n.solverList))
    {f : NFactor α} (hf : f ∈ n.factors) :
    Leq (fun r => ∀ f ∈ r.1, f.Small (· ∈ n.solverList)) (n.addTableM .exact names st f)
      (n.addTableM .careful names st f) := by
  unfold Net.addTableM
  split
  · exact Leq.ok hst
  · rename_i ht
    have hd := dims_isVar hn hf ht
    obtain ⟨i, v, h1, h2, h3⟩ := hd f.forVar (by simp [NFactor.dims])
    have he := hs.get_of hn h1 h3
    have hv := varOf_eq hn h1 h3
    rw [h2] at he hv
    rw [he]
    dsimp only
    rw [givenVars_spec hn hs (fun s hs => hd s (by simp [NFactor.dims, hs]))]
    rw [ok_bind, ok_bind]
    split
    · exact Leq.ok hst
    · split
      · exact Leq.ok hst
      · rw [← hv]
        have e : f.given.map n.varOf ++ [n.varOf f.forVar] = f.dims.map n.varOf := by simp [NFactor.dims]
        rw [e]
        have n1 : (f.dims.map n.varOf).Nodup := List.Nodup.of_map Var.id (nodup_varOf hn hd (hn.dims f hf))
        have n2 : ∀ v ∈ f.dims.map n.varOf, v ∈ n.solverList := by
          intro v hv
          obtain ⟨s, hs', rfl⟩ := List.mem_map.1 hv
          exact (hd s hs').varOf_mem hs hn
        refine Leq.bind (createFactorM_leq st.2.2 _ (hP _ n1 n2)) (fun a ha => ?_)
        have hsm : a.1.Small (· ∈ n.solverList) :=
          ⟨by rw [ha.1]; exact n1, by rw [ha.1]; exact n2, by rw [ha.1]; exact ha.2⟩
        have add : ∀ g : Factor α, g.Small (· ∈ n.solverList) → ∀ f ∈ st.1 ++ [g], f.Small (· ∈ n.solverList) := by
          intro g hg f hf
          rcases List.mem_append.1 hf with hf | hf
          · exact hst f hf
          · rw [List.mem_singleton] at hf
            exact hf ▸ hg
        split
        · exact Leq.bind (normalizeForM_small hP _ _ hsm _) (fun b hb => Leq.ok (add _ hb))
        · exact Leq.ok (add _ hsm)

omit [Zero α] [Add α] [Div α] [DecidableEq α] in
theorem new_small {P : Var → Prop} {fs : List (Factor α)} (h : ∀ f ∈ fs, f.Small P) (acc : List (Factor α))
    (ha : ∀ f ∈ acc, f.Small P) : ∀ f ∈ fs.foldl insertFactor acc, f.Small P := by
  induction fs generalizing acc with
  | nil => exact ha
  | cons f fs ih =>
    exact ih (fun g hg => h g (List.mem_cons_of_mem _ hg)) _ (insert_small ha (h f List.mem_cons_self))

/-- What `toVE` promises. -/
def Entered (n : Net α) (r : VE α × List (String × NVar × Var)) : Prop :=
  r.1.Small (· ∈ n.solverList) ∧ SolverVars n r.2 n.solverList

theorem toVEM_small {n : Net α} (hn : n.Valid) (hP : Roomy (· ∈ n.solverList)) (hk : ∀ p ∈ n.policies, n.Kept p.2)
    (sch : NSched α) (k : Nat) (ev : List (String × String)) :
    Leq (Entered n) (n.toVEM .exact sch k ev) (n.toVEM .careful sch k ev) := by
  obtain ⟨R, h1, h2⟩ := start_vars n hn
  have hR : R = n.solverList := h2.vars_eq
  subst hR
  unfold Net.toVEM
  rw [h1, ok_bind, ok_bind]
  dsimp only
  refine Leq.bind (Leq.foldlM (Q := fun r => ∀ f ∈ r.1, f.Small (· ∈ n.solverList)) _
    (fun st f hf hb => addTableM_small hn hP h2 st hb hf) _ (by simp)) (fun a ha => ?_)
  refine Leq.bind (policyFactorsM_small hP ev _ (fun p hp => hk p ((sch.pol_perm k n.policies).subset hp)) _)
    (fun b hb => Leq.same (fun w _ => Leq.ok ⟨?_, h2⟩))
  refine new_small (fun f hf => ?_) [] (by simp)
  rcases List.mem_append.1 hf with hf | hf
  · exact ha f hf
  · exact hb f hf

end

/-- The second outcome is the first one, unless that is a fault. -/
def LeqN {β : Type} (Q : β × Net α → Prop) (r r' : Except Fault β × Net α) : Prop :=
  ∀ x, r.1 = .ok x → r' = r ∧ Q (x, r.2)

theorem withVs_leq {β : Type} {Q : β → Prop} (n : Net α) {op op' : Vs → Except Fault (β × Vs)}
    (h : ∀ s, Leq (fun a => Q a.1) (op s) (op' s)) :
    LeqN (fun a => Q a.1 ∧ a.2.names = n.names) (n.withVs op) (n.withVs op') := by
  intro x hx
  unfold Net.withVs at hx ⊢
  cases hvs : n.vs with
  | none => rw [hvs] at hx; cases hx
  | some vs =>
    rw [hvs] at hx
    dsimp only at hx ⊢
    cases hr : op vs with
    | error e => rw [hr] at hx; cases hx
    | ok p =>
      obtain ⟨h1, h2⟩ := h vs p hr
      rw [hr] at hx
      cases hx
      rw [h1]
      exact ⟨rfl, h2, rfl⟩

section
variable [Zero α] [Add α] [Div α] [DecidableEq α]

theorem enterM_small {n : Net α} (hn : n.Valid) (hP : Roomy (· ∈ n.solverList)) (hk : ∀ p ∈ n.policies, n.Kept p.2)
    (sch : NSched α) (k : Nat) (ev : List (String × String)) :
    LeqN (fun a => a.1.Small (· ∈ n.solverList) ∧ SolverVars n a.2.names n.solverList ∧
        ∃ vs names, a.2 = { n with vs := vs, names := names })
      (n.enterM .exact sch k ev) (n.enterM .careful sch k ev) := by
  intro x hx
  unfold Net.enterM at hx ⊢
  rcases hm : n.toVEM .exact sch k ev with e | p
  · rw [hm] at hx
    rcases e with m | m <;> cases hx
  · obtain ⟨h1, h2⟩ := toVEM_small hn hP hk sch k ev p hm
    rw [hm] at hx
    cases hx
    rw [h1]
    exact ⟨rfl, h2.1, h2.2, _, _, rfl⟩

omit [DecidableEq α] in
theorem queryLoopM_small {U : List Var} (hP : Roomy (· ∈ U)) (f : Factor α) (qs : List String)
    (r : List (String × List α)) (n : Net α) (hU : ∀ e ∈ n.names, e.2.2 ∈ U) :
    LeqN (fun _ => True) (Net.queryLoopM .exact f qs r n) (Net.queryLoopM .careful f qs r n) := by
  induction qs generalizing r n with
  | nil => exact fun x hx => ⟨rfl, trivial⟩
  | cons q qs ih =>
    intro x hx
    have hm : LeqN (fun a => a.1.Small (· ∈ U) ∧ a.2.names = n.names) (n.marginalM .exact f q)
        (n.marginalM .careful f q) := by
      unfold Net.marginalM
      split
      · intro x hx; cases hx
      · rename_i vv hvv
        exact withVs_leq n (fun s => marginalM_small hP s f _ (hU _ (mapGet_some hvv)))
    unfold Net.queryLoopM at hx ⊢
    rcases h1 : n.marginalM .exact f q with ⟨e | m, n1⟩
    · rw [h1] at hx; cases hx
    · rw [h1] at hx hm
      obtain ⟨k1, k2, k3⟩ := hm m rfl
      rw [k1]
      dsimp only at hx k2 k3 ⊢
      have hz : LeqN (fun a => a.1.Small (· ∈ U) ∧ a.2.names = n1.names) (n1.normalizeM .exact m)
          (n1.normalizeM .careful m) := withVs_leq n1 (fun s => normalizeM_small hP s m k2)
      rcases h2 : n1.normalizeM .exact m with ⟨e | g, n2⟩
      · rw [h2] at hx; cases hx
      · rw [h2] at hx hz
        obtain ⟨l1, l2, l3⟩ := hz g rfl
        rw [l1]
        dsimp only at hx l3 ⊢
        exact ih _ n2 (by rw [l3, k3]; exact hU) x hx

end

section
variable [Zero α] [One α] [Add α] [Mul α] [Div α] [DecidableEq α]

theorem netSolveM_small {n : Net α} (hn : n.Valid) (hP : Roomy (· ∈ n.solverList)) (hk : ∀ p ∈ n.policies, n.Kept p.2)
    (sch : NSched α) (ev : List (String × String)) (q : List String) (utility : Bool) (u : String) (ign : Bool) :
    LeqN (fun a => ∀ e ∈ a.2.names, e.2.2 ∈ n.solverList) (n.solveM .exact sch ev q utility u ign)
      (n.solveM .careful sch ev q utility u ign) := by
  intro x hx
  have he := enterM_small hn hP hk sch 0 (if ign then ev else [])
  unfold Net.solveM at hx ⊢
  rcases h1 : n.enterM .exact sch 0 (if ign then ev else []) with ⟨e | ve, n1⟩
  · rw [h1] at hx; cases hx
  · rw [h1] at hx he
    obtain ⟨k1, k2, k3, k4⟩ := he ve rfl
    rw [k1]
    dsimp only at hx k2 k3 k4 ⊢
    have hs := solveNamedM_small hP sch ve n1.names ev q utility u k2
    rcases h2 : solveNamedM .exact sch ve n1.names ev q utility u with e | p
    · rw [h2] at hx; cases hx
    · rw [h2] at hx
      obtain ⟨l1, l2⟩ := hs p h2
      rw [l1]
      cases hx
      refine ⟨rfl, ?_⟩
      intro e hem
      rw [k3.names_eq] at hem
      obtain ⟨a, ha, rfl⟩ := List.mem_map.1 hem
      exact List.mem_map_of_mem ha

theorem netSolveQueryM_small {n : Net α} (hn : n.Valid) (hP : Roomy (· ∈ n.solverList))
    (hk : ∀ p ∈ n.policies, n.Kept p.2) (sch : NSched α) (ev : List (String × String)) (q : List String) (ign : Bool) :
    LeqN (fun _ => True) (n.solveQueryM .exact sch ev q ign) (n.solveQueryM .careful sch ev q ign) := by
  intro x hx
  have hs := netSolveM_small hn hP hk sch ev q false "" ign
  unfold Net.solveQueryM at hx ⊢
  rcases h1 : n.solveM .exact sch ev q false "" ign with ⟨e | f, n1⟩
  · rw [h1] at hx; cases hx
  · rw [h1] at hx hs
    obtain ⟨k1, k2⟩ := hs f rfl
    rw [k1]
    dsimp only at hx k2 ⊢
    have hq := queryLoopM_small hP f q [] n1 k2
    rcases h2 : Net.queryLoopM .exact f q [] n1 with ⟨e | r, n2⟩
    · rw [h2] at hx; cases hx
    · rw [h2] at hx hq
      rw [(hq r rfl).1]
      exact ⟨rfl, trivial⟩

end

theorem storePolicies_mem (solved : List (Var × Factor α × Factor α)) (names : List (String × NVar × Var))
    (pols : List (String × Factor α)) :
    (∀ p ∈ names.foldl (storePolicy solved) pols, p ∈ pols ∨ ∃ s ∈ solved, p.2 = s.2.2) ∧
      ∀ s, (mapGet pols s).isSome = true → (mapGet (names.foldl (storePolicy solved) pols) s).isSome = true := by
  induction names generalizing pols with
  | nil => exact ⟨fun p hp => .inl hp, fun s h => h⟩
  | cons e names ih =>
    obtain ⟨i1, i2⟩ := ih (storePolicy solved pols e)
    rw [List.foldl_cons]
    have step : (∀ p ∈ storePolicy solved pols e, p ∈ pols ∨ ∃ s ∈ solved, p.2 = s.2.2) ∧
        ∀ s, (mapGet pols s).isSome = true → (mapGet (storePolicy solved pols e) s).isSome = true := by
      unfold storePolicy
      split
      · exact ⟨fun p hp => .inl hp, fun s h => h⟩
      · split
        · exact ⟨fun p hp => .inl hp, fun s h => h⟩
        · rename_i p hp
          refine ⟨fun q hq => ?_, fun s hs => ?_⟩
          · rcases mem_mapSet.1 hq with hq | rfl
            · exact .inl hq.1
            · exact .inr ⟨_, mapGet_some hp, rfl⟩
          · rw [mapGet_mapSet]
            split
            · rfl
            · exact hs
    refine ⟨fun p hp => ?_, fun s hs => i2 s (step.2 s hs)⟩
    rcases i1 p hp with h | h
    · exact step.1 p h
    · exact .inr h

theorem valid_with {n : Net α} (hn : n.Valid) (vs : Option Vs) (names : List (String × NVar × Var))
    (pols : List (String × Factor α)) : Net.Valid { n with vs := vs, names := names, policies := pols } :=
  ⟨hn.names, hn.named, hn.few, hn.outcomes, hn.tables, hn.hasTable, hn.known, hn.dims, hn.parents, hn.size, hn.single,
    hn.weights⟩

theorem policyTableM_small [Zero α] {n : Net α} (hn : n.Valid) (hc : n.combinations < 2 ^ 63) (vs : Vs) (name : String)
    {f : Factor α} (hf : n.Kept f) :
    Leq (fun _ => True) (n.policyTableM .exact vs name f) (n.policyTableM .careful vs name f) := by
  have hpos : ∀ v ∈ f.vars, 0 < v.outcomes := by
    intro w hw
    obtain ⟨v, h1, _, _, h4, _⟩ := hf.vars w hw
    rw [h4]
    exact (hn.outcomes v (List.mem_of_getElem? h1)).1
  have hsz : size f.vars < 2 ^ 63 := by
    refine lt_of_le_of_lt ?_ hc
    have e1 : size f.vars = ((f.vars.map Var.id).map (fun i => ((n.variables.map (fun v => v.outcomes.length))[i]?).getD 1)).prod := by
      have : ∀ l : List Var, (∀ w ∈ l, w ∈ f.vars) → size l =
          ((l.map Var.id).map (fun i => ((n.variables.map (fun v => v.outcomes.length))[i]?).getD 1)).prod := by
        intro l
        induction l with
        | nil => intro _; rfl
        | cons w l ih =>
          intro h
          obtain ⟨v, h1, _, _, h4, _⟩ := hf.vars w (h w List.mem_cons_self)
          simp only [size, List.map_cons, List.prod_cons]
          rw [ih (fun u hu => h u (List.mem_cons_of_mem _ hu)), List.getElem?_map, h1, h4]
          rfl
      exact this _ (fun _ h => h)
    rw [e1]
    have hsub : (f.vars.map Var.id).Subperm (List.range n.variables.length) := by
      refine List.subperm_of_subset hf.nodup (fun i hi => ?_)
      obtain ⟨w, hw, rfl⟩ := List.mem_map.1 hi
      obtain ⟨v, h1, _⟩ := hf.vars w hw
      rw [List.mem_range]
      exact (List.getElem?_eq_some_iff.1 h1).1
    have hall : ((List.range n.variables.length).map
        (fun i => ((n.variables.map (fun v => v.outcomes.length))[i]?).getD 1)) =
        n.variables.map (fun v => v.outcomes.length) := by
      apply List.ext_getElem
      · simp
      · intro i h1 h2
        simp at h1
        simp [h1]
    unfold Net.combinations
    refine le_of_le_of_eq ?_ (congrArg List.prod hall)
    obtain ⟨l', hp, hs⟩ := hsub
    rw [← (hp.map _).prod_eq]
    have hge : ∀ i ∈ List.range n.variables.length,
        1 ≤ ((n.variables.map (fun v => v.outcomes.length))[i]?).getD 1 := by
      intro i hi
      rw [List.mem_range] at hi
      simp only [List.getElem?_map, List.getElem?_eq_getElem hi, Option.map_some, Option.getD_some]
      exact (hn.outcomes _ (List.getElem_mem hi)).1
    exact (hs.map _).prod_le_prod' (by
      intro x hx
      obtain ⟨i, hi, rfl⟩ := List.mem_map.1 hx
      exact hge i hi)
  have hP := roomy_mem hpos hsz
  have hsm : f.Small (· ∈ f.vars) := ⟨List.Nodup.of_map Var.id hf.nodup, fun _ h => h, hf.len⟩
  unfold Net.policyTableM
  split
  · exact Leq.err
  · split
    · exact Leq.err
    · rename_i idx _
      refine Leq.same (fun w hw => ?_)
      have hp : (f.vars.eraseIdx idx ++ [w]).Perm f.vars := by
        have h1 := goGet_eq.1 hw
        obtain ⟨hi, rfl⟩ := List.getElem?_eq_some_iff.1 h1
        have := List.getElem_cons_eraseIdx_perm hi
        exact (List.perm_append_comm.trans (by simpa using this))
      exact Leq.bind (rearrangeM_small hP vs f hsm _ hp) (fun a _ => Leq.self (fun _ _ => trivial))

section
variable [Zero α] [One α] [Add α] [Mul α] [Div α] [NatCast α] [LE α] [DecidableLE α] [LT α] [DecidableLT α]
  [DecidableEq α]

theorem policyStepsM_small (sch : NSched α) (stepwise : Bool) (left k : Nat) (n : Net α) (hn : n.Valid)
    (hc : n.combinations < 2 ^ 63) (hk : ∀ p ∈ n.policies, n.Kept p.2) :
    LeqN (fun a => a.2.Valid ∧ a.2.combinations < 2 ^ 63 ∧ ∀ p ∈ a.2.policies, a.2.Kept p.2)
      (Net.policyStepsM .exact sch stepwise left k n) (Net.policyStepsM .careful sch stepwise left k n) := by
  induction left generalizing k n with
  | zero => exact fun x hx => ⟨rfl, hn, hc, hk⟩
  | succ left ih =>
    intro x hx
    have hP := solverList_roomy hn hc
    have he := enterM_small hn hP hk sch k []
    unfold Net.policyStepsM at hx ⊢
    rcases h1 : n.enterM .exact sch k [] with ⟨e | ve, n1⟩
    · rw [h1] at hx; cases hx
    · rw [h1] at hx he
      obtain ⟨k1, k2, k3, vs, names, k4⟩ := he ve rfl
      rw [k1]
      dsimp only at hx k2 k3 k4 ⊢
      have hs := veSolvePoliciesM_small hP (sch.ve k) ve stepwise k2
      rcases h2 : ve.solvePoliciesM .exact (sch.ve k) stepwise with e | ⟨_ | solved, ve'⟩
      · rw [h2] at hx; cases hx
      · rw [h2] at hx
        rw [(hs _ h2).1]
        subst k4
        exact ⟨rfl, valid_with hn (some ve'.vs) names n.policies, hc, fun p hp =>
          kept_with (hk p hp) rfl rfl (fun _ h => h)⟩
      · rw [h2] at hx
        obtain ⟨l1, l2⟩ := hs _ h2
        rw [l1]
        subst k4
        dsimp only at hx l2 ⊢
        obtain ⟨m1, m2⟩ := storePolicies_mem solved (sch.names k names) n.policies
        refine ih (k + 1) _ (valid_with hn (some ve'.vs) names ((sch.names k names).foldl (storePolicy solved) n.policies))
          hc (fun p hp => ?_) x hx
        rcases m1 p hp with h | ⟨s, hs', h⟩
        · exact kept_with (hk p h) rfl rfl m2
        · rw [h]
          exact kept_of_small (l2 solved rfl s hs') rfl rfl m2

theorem netSolvePoliciesM_small (sch : NSched α) (stepwise : Bool) (n : Net α) (hn : n.Valid)
    (hc : n.combinations < 2 ^ 63) :
    LeqN (fun _ => True) (n.solvePoliciesM .exact sch stepwise) (n.solvePoliciesM .careful sch stepwise) := by
  intro x hx
  have hs := policyStepsM_small sch stepwise (n.countDecisionSteps stepwise) 0 { n with policies := [] }
    (valid_with hn _ _ _) hc (by simp)
  unfold Net.solvePoliciesM at hx ⊢
  dsimp only at hx ⊢
  rcases h1 : Net.policyStepsM .exact sch stepwise (n.countDecisionSteps stepwise) 0 { n with policies := [] }
    with ⟨e | u, n1⟩
  · rw [h1] at hx; cases hx
  · rw [h1] at hx hs
    obtain ⟨k1, k2, k3, k4⟩ := hs u rfl
    rw [k1]
    dsimp only at hx k2 k3 k4 ⊢
    have key : ∀ (ps : List (String × Factor α)), (∀ p ∈ ps, n1.Kept p.2) → ∀ vs acc,
        Leq (fun _ => True) (n1.policyTablesM .exact ps vs acc) (n1.policyTablesM .careful ps vs acc) := by
      intro ps
      induction ps with
      | nil => exact fun _ _ _ => Leq.ok trivial
      | cons p ps ih =>
        intro h vs acc
        exact Leq.bind (policyTableM_small k2 k3 vs p.1 (h p List.mem_cons_self)) (fun a _ =>
          ih (fun q hq => h q (List.mem_cons_of_mem _ hq)) _ _)
    have := withVs_leq (Q := fun _ => True) n1 (fun s => key (sch.pol (n.countDecisionSteps stepwise) n1.policies)
      (fun p hp => k4 p ((sch.pol_perm _ _).subset hp)) s [])
    exact ⟨(this x hx).1, trivial⟩

end
end

end Bbn
