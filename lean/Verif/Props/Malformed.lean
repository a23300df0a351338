import Verif.Spec.Malformed
import Verif.Props.NetCalls
import Verif.Props.NetExamples
import Verif.Lemmas.Training

/-!
# C144: tables that do not fit never give numbers
-/

set_option autoImplicit false

namespace Bbn

variable {α : Type}

/-- The solver's variable for a known name. -/
def Net.Stands (n : Net α) (s : String) (w : Var) : Prop :=
  ∃ i v, n.variables[i]? = some v ∧ v.name = s ∧ n.totalUtility ≠ some i ∧ w = n.solverVar i v

theorem plain_total {n : Net α} (hn : n.Plain) {i : Nat} {v : NVar} (hv : n.variables[i]? = some v) :
    v.name = n.totalName ↔ n.totalUtility = some i := by
  constructor
  · intro h
    cases ht : n.totalUtility with
    | none =>
      have : n.totalName = "" := by simp [Net.totalName, ht]
      exact absurd (h.trans this) (hn.named v (List.mem_of_getElem? hv))
    | some j =>
      cases hu : n.variables[j]? with
      | none =>
        have : n.totalName = "" := by simp [Net.totalName, ht, hu]
        exact absurd (h.trans this) (hn.named v (List.mem_of_getElem? hv))
      | some u =>
        rw [Net.totalName_eq ht hu] at h
        have hlt : i < (n.variables.map NVar.name).length := by
          rw [List.length_map]; exact (List.getElem?_eq_some_iff.1 hv).1
        have := (List.getElem?_inj hlt hn.names).1 (by
          rw [List.getElem?_map, List.getElem?_map, hv, hu]; simp [h] :
          (n.variables.map NVar.name)[i]? = (n.variables.map NVar.name)[j]?)
        rw [this]
  · intro h
    rw [Net.totalName_eq h hv]

theorem plain_get {n : Net α} (hn : n.Plain) {s : String} {e : NVar × Var} :
    mapGet ((n.solverVars 0 n.variables).map (fun e => (e.1.name, e))) s = some e ↔
      ∃ i, n.variables[i]? = some e.1 ∧ e.1.name = s ∧ n.totalUtility ≠ some i ∧ e.2 = n.solverVar i e.1 := by
  have hk : (((n.solverVars 0 n.variables).map (fun e => (e.1.name, e))).map Prod.fst).Nodup := by
    rw [List.map_map]
    have := hn.names.sublist ((solverVars_sublist n n.variables 0).map NVar.name)
    rw [List.map_map] at this
    exact this
  rw [mapGet_mem hk, List.mem_map]
  constructor
  · rintro ⟨e', he, heq⟩
    simp only [Prod.mk.injEq] at heq
    obtain ⟨rfl, rfl⟩ := heq
    obtain ⟨j, h1, h2, h3⟩ := (mem_solverVars n).1 he
    rw [Nat.zero_add] at h2 h3
    exact ⟨j, h1, rfl, fun e => h2 e.symm, h3⟩
  · rintro ⟨i, h1, rfl, h2, h3⟩
    exact ⟨e, (mem_solverVars n).2 ⟨i, h1, by simpa using fun e => h2 e.symm, by simpa using h3⟩, rfl⟩

theorem plain_knows {n : Net α} (hn : n.Plain) {s : String} (h : n.Knows s) :
    ∃ i v, n.variables[i]? = some v ∧ v.name = s ∧ n.totalUtility ≠ some i ∧
      mapGet ((n.solverVars 0 n.variables).map (fun e => (e.1.name, e))) s = some (v, n.solverVar i v) := by
  obtain ⟨v, hv, rfl, ht⟩ := h
  obtain ⟨i, hi⟩ := List.getElem?_of_mem hv
  have hti : n.totalUtility ≠ some i := fun e => ht ((plain_total hn hi).2 e)
  exact ⟨i, v, hi, rfl, hti, (plain_get hn).2 ⟨i, hi, rfl, hti, rfl⟩⟩

theorem plain_unknown {n : Net α} (hn : n.Plain) {s : String} (h : ¬ n.Knows s) :
    mapGet ((n.solverVars 0 n.variables).map (fun e => (e.1.name, e))) s = none := by
  by_contra hc
  obtain ⟨e, he⟩ := Option.ne_none_iff_exists'.1 hc
  obtain ⟨i, h1, h2, h3, _⟩ := (plain_get hn).1 he
  exact h ⟨e.1, List.mem_of_getElem? h1, h2, fun e => h3 ((plain_total hn h1).1 (h2.trans e))⟩

theorem plain_find {n : Net α} (hn : n.Plain) {v : NVar} (hv : v ∈ n.variables) :
    n.variables.find? (fun u => u.name = v.name) = some v := by
  cases hf : n.variables.find? (fun u => u.name = v.name) with
  | none =>
    rw [List.find?_eq_none] at hf
    simpa using hf v hv
  | some u =>
    have e : u.name = v.name := by simpa using List.find?_some hf
    rw [List.inj_on_of_nodup_map hn.names (List.mem_of_find?_eq_some hf) hv e]

theorem stands_outcomes {n : Net α} (hn : n.Plain) {s : String} {w : Var} (h : n.Stands s w) : w.outcomes = n.count s := by
  obtain ⟨i, v, h1, rfl, _, rfl⟩ := h
  unfold Net.count outcomeCount
  rw [plain_find hn (List.mem_of_getElem? h1)]
  rfl

theorem stands_size {n : Net α} (hn : n.Plain) {l : List String} {ws : List Var} (h : List.Forall₂ n.Stands l ws) :
    size ws = (l.map n.count).prod := by
  induction h with
  | nil => rfl
  | cons h1 _ ih => simp [size, ih, stands_outcomes hn h1]

theorem stands_ids {n : Net α} {s s' : String} {w w' : Var} (h : n.Stands s w) (h' : n.Stands s' w') (e : w.id = w'.id) :
    s = s' := by
  obtain ⟨i, v, h1, rfl, _, rfl⟩ := h
  obtain ⟨i', v', h1', rfl, _, rfl⟩ := h'
  have : i = i' := e
  subst this
  rw [h1] at h1'
  simp at h1'
  rw [h1']

theorem stands_nodup {n : Net α} {l : List String} {ws : List Var} (h : List.Forall₂ n.Stands l ws) (hl : l.Nodup) :
    (ws.map Var.id).Nodup := by
  induction h with
  | nil => simp
  | @cons s w l ws h1 h2 ih =>
    rw [List.nodup_cons] at hl
    rw [List.map_cons, List.nodup_cons]
    refine ⟨fun hc => ?_, ih hl.2⟩
    obtain ⟨w', hw', e⟩ := List.mem_map.1 hc
    obtain ⟨s', hs', h'⟩ := forall₂_mem_right h2 hw'
    rw [stands_ids h1 h' e.symm] at hl
    exact hl.1 hs'

theorem plain_given {n : Net α} (hn : n.Plain) : ∀ {l : List String}, (∀ s ∈ l, n.Knows s) →
    ∃ ws, givenVars ((n.solverVars 0 n.variables).map (fun e => (e.1.name, e))) l = .ok ws ∧ List.Forall₂ n.Stands l ws := by
  intro l
  induction l with
  | nil => intro _; exact ⟨[], rfl, .nil⟩
  | cons s l ih =>
    intro h
    obtain ⟨ws, h1, h2⟩ := ih (fun t ht => h t (List.mem_cons_of_mem _ ht))
    obtain ⟨i, v, a1, a2, a3, a4⟩ := plain_knows hn (h s List.mem_cons_self)
    unfold givenVars at h1 ⊢
    rw [List.mapM_cons, a4]
    dsimp only
    rw [ok_bind, h1, ok_bind]
    exact ⟨_, rfl, .cons ⟨i, v, a1, a2, a3, rfl⟩ h2⟩

theorem plain_kind {n : Net α} (hn : n.Plain) {v : NVar} (hv : v ∈ n.variables) {t : NodeType} :
    n.isKind t v.name = true ↔ v.nodeType = t := by
  rw [isKind_mem]
  constructor
  · rintro ⟨u, hu, e, ht⟩
    rwa [← List.inj_on_of_nodup_map hn.names hu hv e]
  · exact fun h => ⟨v, hv, rfl, h⟩

/-! ## One table -/

section Table

variable [Field α] [DecidableEq α]

theorem addTable_unknown {n : Net α} (hn : n.Plain) {f : NFactor α} (hf : n.Unknown f)
    (st : List (Factor α) × List (Var × List Var) × Vs) :
    Errors (n.addTable ((n.solverVars 0 n.variables).map (fun e => (e.1.name, e))) st f) := by
  obtain ⟨ht, s, hs, hk⟩ := hf
  unfold Net.addTable
  rw [if_neg ht]
  by_cases hv : n.Knows f.forVar
  · obtain ⟨i, v, a1, a2, a3, a4⟩ := plain_knows hn hv
    rw [a4]
    dsimp only
    have hg : s ∈ f.given := by
      unfold NFactor.dims at hs
      rw [List.mem_append, List.mem_singleton] at hs
      rcases hs with h | rfl
      · exact h
      · exact absurd hv hk
    obtain ⟨m, hm⟩ : Errors (givenVars ((n.solverVars 0 n.variables).map (fun e => (e.1.name, e))) f.given) := by
      unfold givenVars
      refine (mapM_errors (f := fun g => match mapGet ((n.solverVars 0 n.variables).map (fun e => (e.1.name, e))) g with
        | some e => Except.ok e.2
        | none => Except.error (Fault.error "variable in factor not found")) ?_).1 ⟨s, hg, ?_⟩
      · intro x _
        cases mapGet ((n.solverVars 0 n.variables).map (fun e => (e.1.name, e))) x with
        | none => exact .inr ⟨_, rfl⟩
        | some e => exact .inl ⟨_, rfl⟩
      · rw [plain_unknown hn hk]
        exact ⟨_, rfl⟩
    rw [hm, err_bind]
    exact ⟨m, rfl⟩
  · rw [plain_unknown hn hv]
    exact ⟨_, rfl⟩

theorem addTable_wrongSize {n : Net α} (hn : n.Plain) {f : NFactor α} (hf : n.WrongSize f)
    (st : List (Factor α) × List (Var × List Var) × Vs) :
    Panics (n.addTable ((n.solverVars 0 n.variables).map (fun e => (e.1.name, e))) st f) := by
  obtain ⟨ht, hd, hk, t, ht1, ht2⟩ := hf
  obtain ⟨i, v, a1, a2, a3, a4⟩ := plain_knows hn (hd f.forVar (by simp [NFactor.dims]))
  obtain ⟨ws, g1, g2⟩ := plain_given hn (l := f.given) (fun s hs => hd s (by simp [NFactor.dims, hs]))
  have hvt : v.nodeType ≠ .decision := by
    intro e
    rw [← a2, (plain_kind hn (List.mem_of_getElem? a1)).2 e] at hk
    exact absurd hk (by decide)
  have hty : (n.solverVar i v).nodeType = v.nodeType := by simp [Net.solverVar, Net.solverType, hvt]
  have hsz : size (ws ++ [n.solverVar i v]) = (f.dims.map n.count).prod :=
    stands_size hn (List.rel_append g2 (.cons ⟨i, v, a1, a2, a3, rfl⟩ .nil))
  unfold Net.addTable
  rw [if_neg ht, a4]
  dsimp only
  rw [g1, ok_bind, if_neg (by rw [hty]; exact hvt), if_neg hvt]
  unfold Vs.createFactor
  rw [ht1]
  dsimp only
  rw [if_pos (by rw [hsz]; exact ht2), err_bind]
  exact ⟨_, rfl⟩

theorem addTable_usable {n : Net α} (hn : n.Plain) {f : NFactor α} (hf : n.Usable f)
    (st : List (Factor α) × List (Var × List Var) × Vs) :
    ∃ st', n.addTable ((n.solverVars 0 n.variables).map (fun e => (e.1.name, e))) st f = .ok st' := by
  by_cases ht : f.forVar = n.totalName
  · exact ⟨st, addTable_total st ht⟩
  obtain ⟨hd, hnd, hsize⟩ := hf.resolve_left ht
  obtain ⟨i, v, a1, a2, a3, a4⟩ := plain_knows hn (hd f.forVar (by simp [NFactor.dims]))
  obtain ⟨ws, g1, g2⟩ := plain_given hn (l := f.given) (fun s hs => hd s (by simp [NFactor.dims, hs]))
  have hall : List.Forall₂ n.Stands f.dims (ws ++ [n.solverVar i v]) :=
    List.rel_append g2 (.cons ⟨i, v, a1, a2, a3, rfl⟩ .nil)
  unfold Net.addTable
  rw [if_neg ht, a4]
  dsimp only
  rw [g1, ok_bind]
  by_cases hdec : (n.solverVar i v).nodeType = .decision
  · rw [if_pos hdec]; exact ⟨_, rfl⟩
  rw [if_neg hdec]
  by_cases hvt : v.nodeType = .decision
  · rw [if_pos hvt]; exact ⟨_, rfl⟩
  rw [if_neg hvt]
  have hkind : n.isKind .decision f.forVar ≠ true := by
    rw [← a2, ne_eq, plain_kind hn (List.mem_of_getElem? a1)]; exact hvt
  obtain ⟨fac, vs, hc, hwf, hvars⟩ : ∃ fac vs, st.2.2.createFactor (ws ++ [n.solverVar i v]) f.table = .ok (fac, vs) ∧
      fac.WF ∧ fac.vars = ws ++ [n.solverVar i v] := by
    have hids := stands_nodup hall hnd
    unfold Vs.createFactor
    rcases hsize.resolve_left hkind with h | ⟨t, h1, h2⟩
    · rw [h]
      exact ⟨_, _, rfl, ⟨by simp, hids⟩, rfl⟩
    · rw [h1]
      dsimp only
      have : t.length = size (ws ++ [n.solverVar i v]) := by rw [stands_size hn hall, h2]
      rw [if_neg (by simpa using this)]
      exact ⟨_, _, rfl, ⟨this, hids⟩, rfl⟩
  rw [hc, ok_bind]
  dsimp only
  by_cases hch : v.nodeType = .chance
  · rw [if_pos hch]
    obtain ⟨g, k1, _⟩ := normalizeFor_spec vs fac hwf (n.solverVar i v) (by rw [hvars]; simp)
      (hn.outcomes v (List.mem_of_getElem? a1)).1
    rw [k1]
    exact ⟨_, rfl⟩
  · rw [if_neg hch]; exact ⟨_, rfl⟩

end Table

/-! ## All tables -/

theorem foldlM_never {σ β : Type} {g : σ → β → Except Fault σ} {x : β} (h : ∀ s r, g s x ≠ .ok r) :
    ∀ {l : List β}, x ∈ l → ∀ s r, l.foldlM g s ≠ .ok r := by
  intro l
  induction l with
  | nil => intro hx; simp at hx
  | cons y l ih =>
    intro hx s r he
    rw [List.foldlM_cons] at he
    obtain ⟨s', h1, h2⟩ := bind_inv he
    rcases List.mem_cons.1 hx with rfl | hx
    · exact h _ _ h1
    · exact ih hx _ _ h2

theorem foldlM_all {σ β : Type} {g : σ → β → Except Fault σ} : ∀ {l : List β}, (∀ x ∈ l, ∀ s, ∃ r, g s x = .ok r) →
    ∀ s, ∃ r, l.foldlM g s = .ok r := by
  intro l
  induction l with
  | nil => intro _ s; exact ⟨s, rfl⟩
  | cons y l ih =>
    intro h s
    obtain ⟨s', h1⟩ := h y List.mem_cons_self s
    rw [List.foldlM_cons, h1, ok_bind]
    exact ih (fun x hx => h x (List.mem_cons_of_mem _ hx)) s'

theorem foldlM_first {σ β : Type} {g : σ → β → Except Fault σ} {pre post : List β} {x : β}
    (h : ∀ y ∈ pre, ∀ s, ∃ r, g s y = .ok r) (s : σ) :
    ∃ s', ∀ e, g s' x = .error e → (pre ++ x :: post).foldlM g s = .error e := by
  obtain ⟨s', hs⟩ := foldlM_all h s
  refine ⟨s', fun e he => ?_⟩
  rw [List.foldlM_append, hs, ok_bind, List.foldlM_cons, he]
  rfl

section Calls

variable [Field α] [DecidableEq α]

theorem plain_start {n : Net α} (hn : n.Plain) (sch : NSched α) (k : Nat) (ev : List (String × String)) :
    ∃ R, n.toVE sch k ev = (do
      let (fs, deps, vs) ← n.factors.foldlM
        (n.addTable ((n.solverVars 0 n.variables).map (fun e => (e.1.name, e)))) ([], [], { Vs.new with «variables» := R })
      let (ps, vs) ← n.policyFactors (n.varIDs 0 n.variables) ev (sch.pol k n.policies) vs
      let weights ← n.utilityWeights
      return (VE.new vs (fs ++ ps) deps weights, (n.solverVars 0 n.variables).map (fun e => (e.1.name, e)))) := by
  refine ⟨Vs.new.variables ++ (n.solverVars 0 n.variables).map Prod.snd, ?_⟩
  unfold Net.toVE
  rw [addVariables_spec n _ 0 Vs.new rfl rfl (by have := hn.few; omega) (fun v hv => (hn.outcomes v hv).2), ok_bind]
  dsimp only
  rw [nameMap_spec n _ 0 [] (by simpa using hn.names), List.nil_append]

theorem plain_never {n : Net α} (hn : n.Plain) (h : (∃ f ∈ n.factors, n.Unknown f ∨ n.WrongSize f) ∨ n.Unweighted)
    (sch : NSched α) (k : Nat) (ev : List (String × String)) (r : VE α × List (String × NVar × Var)) :
    n.toVE sch k ev ≠ .ok r := by
  obtain ⟨R, hR⟩ := plain_start hn sch k ev
  rw [hR]
  intro he
  obtain ⟨⟨fs, deps, vs⟩, h1, he⟩ := bind_inv he
  obtain ⟨⟨ps, vs'⟩, h2, he⟩ := bind_inv he
  obtain ⟨ws, h3, he⟩ := bind_inv he
  rcases h with ⟨f, hf, hb⟩ | ⟨i, v, j, f, u, b1, b2, b3, b4, b5, b6, b7, b8⟩
  · refine foldlM_never (x := f) (fun s r hs => ?_) hf _ _ h1
    rcases hb with hb | hb
    · obtain ⟨m, hm⟩ := addTable_unknown hn hb s
      rw [hm] at hs; cases hs
    · obtain ⟨m, hm⟩ := addTable_wrongSize hn hb s
      rw [hm] at hs; cases hs
  · unfold Net.utilityWeights at h3
    rw [b1] at h3
    dsimp only at h3
    rw [goGet_eq.2 b2, ok_bind] at h3
    unfold derefFactor at h3
    rw [b3] at h3
    dsimp only at h3
    rw [goGet_eq.2 b4, ok_bind] at h3
    obtain ⟨ws', h4, h5⟩ := bind_inv h3
    have hu : u.name ∈ n.utilityNames := by
      obtain ⟨p, hp⟩ := List.getElem?_of_mem b5
      unfold Net.utilityNames
      refine List.mem_map.2 ⟨(u, p), List.mem_filter.2 ⟨List.mem_zipIdx_iff_getElem?.2 hp, ?_⟩, rfl⟩
      simp only [decide_eq_true_eq]
      refine ⟨fun e => b7 ?_, b6⟩
      rw [b1, Option.some.injEq] at e
      subst e
      rw [b2] at hp
      simp at hp
      rw [hp]
    have : ∃ y, weightFor f.tab f.given u.name = .ok y := by
      clear h5 h3 he h1 h2 b1 b2 b3 b4 b5 b6 b7 b8 hR
      revert h4 hu
      generalize n.utilityNames = l
      intro h4 hu
      induction l generalizing ws' with
      | nil => simp at hu
      | cons s l ih =>
        rw [List.mapM_cons] at h4
        obtain ⟨y, c1, h4⟩ := bind_inv h4
        obtain ⟨ys, c2, _⟩ := bind_inv h4
        rcases List.mem_cons.1 hu with rfl | hu
        · exact ⟨y, c1⟩
        · exact ih ys c2 hu
    obtain ⟨y, hy⟩ := this
    unfold weightFor at hy
    rw [slicesIndex_none.2 b8] at hy
    cases hy

end Calls

theorem plain_fault_policies [Field α] [LinearOrder α] {n : Net α} {sch : NSched α} {e : Fault}
    (h : ({ n with policies := [] } : Net α).toVE sch 0 [] = .error e) (stepwise : Bool) :
    (n.solvePolicies sch stepwise).1 = .error e := by
  have hs : ∃ m, n.countDecisionSteps stepwise = m + 1 := by
    unfold Net.countDecisionSteps
    dsimp only
    split_ifs with h1 h2
    · exact ⟨0, rfl⟩
    · exact ⟨0, rfl⟩
    · exact ⟨_, (Nat.succ_pred_eq_of_ne_zero h2).symm⟩
  obtain ⟨m, hm⟩ := hs
  unfold Net.solvePolicies
  rw [hm]
  have : ∃ n', Net.policySteps sch stepwise (m + 1) 0 { n with policies := [] } = (.error e, n') := by
    unfold Net.policySteps Net.enter
    rw [h]
    cases e <;> exact ⟨_, rfl⟩
  obtain ⟨n', hn'⟩ := this
  dsimp only
  rw [hn']

/-! ## The calls -/

theorem toVE_cases [Field α] [DecidableEq α] {n : Net α} {sch : NSched α} {k : Nat} {ev : List (String × String)}
    (h : ∀ r, n.toVE sch k ev ≠ .ok r) : ∃ e, n.toVE sch k ev = .error e := by
  cases he : n.toVE sch k ev with
  | error e => exact ⟨e, rfl⟩
  | ok r => exact absurd he (h r)

/-- **C144**: with a table that does not fit, or a utility variable without weight, no call gives numbers. -/
theorem C144_no_answer [Field α] [LinearOrder α] {n : Net α} (hn : n.Plain)
    (h : (∃ f ∈ n.factors, n.Unknown f ∨ n.WrongSize f) ∨ n.Unweighted) (sch : NSched α)
    (evidence : List (String × String)) (query : List String) (u : String) (ign stepwise : Bool) :
    (∀ r, (n.solveQuery sch evidence query ign).1 ≠ .ok r) ∧
    (∀ r, (n.solveUtility sch evidence query u ign).1 ≠ .ok r) ∧
    (∀ r, (n.solvePolicies sch stepwise).1 ≠ .ok r) := by
  have hev := fun ev => plain_never hn h sch 0 ev
  obtain ⟨e, he⟩ := toVE_cases (plain_never (n := { n with policies := [] }) ⟨hn.names, hn.named, hn.few, hn.outcomes⟩ h sch 0 [])
  refine ⟨?_, ?_, fun r hr => ?_⟩
  · intro r hr
    unfold Net.solveQuery Net.solve Net.enter at hr
    obtain ⟨e, he⟩ := toVE_cases (hev (if ign then evidence else []))
    rw [he] at hr
    cases e <;> cases hr
  · intro r hr
    unfold Net.solveUtility Net.solve Net.enter at hr
    obtain ⟨e, he⟩ := toVE_cases (hev (if ign then evidence else []))
    rw [he] at hr
    cases e <;> cases hr
  · rw [plain_fault_policies he] at hr
    cases hr

theorem solve_ends [Field α] [LinearOrder α] {n : Net α} {sch : NSched α} {P : Fault → Prop}
    (h : ∀ (ps : List (String × Factor α)) ev, ∃ e, P e ∧ ({ n with policies := ps } : Net α).toVE sch 0 ev = .error e)
    (evidence : List (String × String)) (query : List String) (u : String) (ign stepwise : Bool) :
    (∃ e, P e ∧ (n.solveQuery sch evidence query ign).1 = .error e) ∧
    (∃ e, P e ∧ (n.solveUtility sch evidence query u ign).1 = .error e) ∧
    (∃ e, P e ∧ (n.solvePolicies sch stepwise).1 = .error e) := by
  obtain ⟨e, he, h1⟩ := h n.policies (if ign then evidence else [])
  obtain ⟨e', he', h2⟩ := h [] []
  refine ⟨⟨e, he, ?_⟩, ⟨e, he, ?_⟩, ⟨e', he', plain_fault_policies h2 stepwise⟩⟩
  · unfold Net.solveQuery Net.solve Net.enter
    rw [show n.toVE sch 0 (if ign then evidence else []) = .error e from h1]
    cases e <;> rfl
  · unfold Net.solveUtility Net.solve Net.enter
    rw [show n.toVE sch 0 (if ign then evidence else []) = .error e from h1]
    cases e <;> rfl

theorem toVE_first [Field α] [DecidableEq α] {n : Net α} (hn : n.Plain) {pre post : List (NFactor α)} {f : NFactor α}
    (hf : n.factors = pre ++ f :: post) (hpre : ∀ g ∈ pre, n.Usable g) (sch : NSched α) (k : Nat) (ev : List (String × String)) :
    ∃ st, ∀ e, n.addTable ((n.solverVars 0 n.variables).map (fun e => (e.1.name, e))) st f = .error e →
      n.toVE sch k ev = .error e := by
  obtain ⟨R, hR⟩ := plain_start hn sch k ev
  obtain ⟨st, hst⟩ := foldlM_first (g := n.addTable ((n.solverVars 0 n.variables).map (fun e => (e.1.name, e))))
    (pre := pre) (post := post) (x := f) (fun y hy s => addTable_usable hn (hpre y hy) s)
    ([], [], { Vs.new with «variables» := R })
  refine ⟨st, fun e he => ?_⟩
  rw [hR, hf, hst e he]
  rfl

/-- **C144**: if the first table that does not fit names something unknown, every call returns an error. -/
theorem C144_unknown [Field α] [LinearOrder α] {n : Net α} (hn : n.Plain) {pre post : List (NFactor α)} {f : NFactor α}
    (hf : n.factors = pre ++ f :: post) (hpre : ∀ g ∈ pre, n.Usable g) (hbad : n.Unknown f) (sch : NSched α)
    (evidence : List (String × String)) (query : List String) (u : String) (ign stepwise : Bool) :
    Errors (n.solveQuery sch evidence query ign).1 ∧ Errors (n.solveUtility sch evidence query u ign).1 ∧
      Errors (n.solvePolicies sch stepwise).1 := by
  have := solve_ends (n := n) (sch := sch) (P := fun e => ∃ m, e = .error m) (fun ps ev => by
    have hn' : ({ n with policies := ps } : Net α).Plain := ⟨hn.names, hn.named, hn.few, hn.outcomes⟩
    obtain ⟨st, hst⟩ := toVE_first hn' hf hpre sch 0 ev
    obtain ⟨m, hm⟩ := addTable_unknown hn' (f := f) hbad st
    exact ⟨_, ⟨m, rfl⟩, hst _ hm⟩) evidence query u ign stepwise
  obtain ⟨⟨_, ⟨m1, rfl⟩, h1⟩, ⟨_, ⟨m2, rfl⟩, h2⟩, ⟨_, ⟨m3, rfl⟩, h3⟩⟩ := this
  exact ⟨⟨m1, h1⟩, ⟨m2, h2⟩, ⟨m3, h3⟩⟩

/-- **C144**: if the first table that does not fit has the wrong number of entries, every call panics. -/
theorem C144_wrongSize [Field α] [LinearOrder α] {n : Net α} (hn : n.Plain) {pre post : List (NFactor α)} {f : NFactor α}
    (hf : n.factors = pre ++ f :: post) (hpre : ∀ g ∈ pre, n.Usable g) (hbad : n.WrongSize f) (sch : NSched α)
    (evidence : List (String × String)) (query : List String) (u : String) (ign stepwise : Bool) :
    Panics (n.solveQuery sch evidence query ign).1 ∧ Panics (n.solveUtility sch evidence query u ign).1 ∧
      Panics (n.solvePolicies sch stepwise).1 := by
  have := solve_ends (n := n) (sch := sch) (P := fun e => ∃ m, e = .panic m) (fun ps ev => by
    have hn' : ({ n with policies := ps } : Net α).Plain := ⟨hn.names, hn.named, hn.few, hn.outcomes⟩
    obtain ⟨st, hst⟩ := toVE_first hn' hf hpre sch 0 ev
    obtain ⟨m, hm⟩ := addTable_wrongSize hn' (f := f) hbad st
    exact ⟨_, ⟨m, rfl⟩, hst _ hm⟩) evidence query u ign stepwise
  obtain ⟨⟨_, ⟨m1, rfl⟩, h1⟩, ⟨_, ⟨m2, rfl⟩, h2⟩, ⟨_, ⟨m3, rfl⟩, h3⟩⟩ := this
  exact ⟨⟨m1, h1⟩, ⟨m2, h2⟩, ⟨m3, h3⟩⟩

/-- **C144**: if all tables fit, but a utility variable has no weight, a freshly made network gives an error. -/
theorem C144_unweighted [Field α] [LinearOrder α] {n : Net α} (hn : n.Plain) (hfresh : n.policies = [])
    (hall : ∀ g ∈ n.factors, n.Usable g) (hw : n.EnoughWeights) (hbad : n.Unweighted) (sch : NSched α)
    (evidence : List (String × String)) (query : List String) (u : String) (ign stepwise : Bool) :
    Errors (n.solveQuery sch evidence query ign).1 ∧ Errors (n.solveUtility sch evidence query u ign).1 ∧
      Errors (n.solvePolicies sch stepwise).1 := by
  have key : ∀ ev, ∃ m, n.toVE sch 0 ev = .error (.error m) := by
    intro ev
    obtain ⟨R, hR⟩ := plain_start hn sch 0 ev
    obtain ⟨⟨fs, deps, vs⟩, h1⟩ := foldlM_all (g := n.addTable ((n.solverVars 0 n.variables).map (fun e => (e.1.name, e))))
      (fun y hy s => addTable_usable hn (hall y hy) s) ([], [], { Vs.new with «variables» := R })
    have hpol : sch.pol 0 n.policies = [] := by
      have := (sch.pol_perm 0 n.policies).length_eq
      rw [hfresh] at this ⊢
      exact List.length_eq_zero_iff.1 this
    have hww : Errors n.utilityWeights := by
      have hnever := plain_never hn (.inr hbad) sch 0 ev
      obtain ⟨i, v, j, f, u, b1, b2, b3, b4, b5, b6, b7, b8⟩ := hbad
      have hlen := hw i v j f b1 b2 b3 b4
      unfold Net.utilityWeights at hnever ⊢
      have hd : derefFactor n.factors v = .ok f := by
        unfold derefFactor
        rw [b3]
        exact goGet_eq.2 b4
      rcases (mapM_errors (f := weightFor f.tab f.given) (l := n.utilityNames) (fun s _ => by
        unfold weightFor
        cases hs : slicesIndex s f.given with
        | none => exact .inr ⟨_, rfl⟩
        | some p =>
          have hp := slicesIndex_some hs
          have hlt : p < f.tab.length := (List.getElem?_eq_some_iff.1 hp).1.trans_le hlen
          exact .inl ⟨f.tab[p], goGet_eq.2 (List.getElem?_eq_getElem hlt)⟩)).2 with ⟨ws, hws⟩ | ⟨m, hm⟩
      · exfalso
        refine hnever (VE.new vs (fs ++ []) deps (some ws), (n.solverVars 0 n.variables).map (fun e => (e.1.name, e))) ?_
        rw [hR, h1, ok_bind]
        dsimp only
        rw [hpol]
        unfold Net.policyFactors
        rw [ok_bind]
        dsimp only
        unfold Net.utilityWeights
        rw [b1]
        dsimp only
        rw [goGet_eq.2 b2, ok_bind, hd, ok_bind, hws]
        rfl
      · rw [b1]
        dsimp only
        rw [goGet_eq.2 b2, ok_bind, hd, ok_bind, hm]
        exact ⟨m, rfl⟩
    obtain ⟨m, hm⟩ := hww
    refine ⟨m, ?_⟩
    rw [hR, h1, ok_bind]
    dsimp only
    rw [hpol]
    unfold Net.policyFactors
    rw [ok_bind]
    dsimp only
    rw [hm]
    rfl
  have hself : ({ n with policies := [] } : Net α) = n := by
    cases n
    simp_all
  obtain ⟨m, hm⟩ := key (if ign then evidence else [])
  obtain ⟨m', hm'⟩ := key []
  refine ⟨⟨m, ?_⟩, ⟨m, ?_⟩, ⟨m', plain_fault_policies (by rw [hself]; exact hm') stepwise⟩⟩
  · unfold Net.solveQuery Net.solve Net.enter
    rw [hm]
  · unfold Net.solveUtility Net.solve Net.enter
    rw [hm]

/-! ## Examples -/

namespace Ex

instance (n : Net ℚ) (s : String) : Decidable (n.Knows s) := by unfold Net.Knows; infer_instance

/-- The umbrella network with a table of three numbers for a variable with two outcomes. -/
def umbShort : Net ℚ :=
  { umb with factors := ⟨"Weather", [], some [70, 20, 10], [], 2⟩ :: umb.factors.tail }

/-- The umbrella network with a table for a variable it does not have. -/
def umbGhost : Net ℚ := { umb with factors := umb.factors ++ [⟨"Ghost", ["Weather"], some [1, 2], [], 0⟩] }

/-- The umbrella network, where the total utility leaves out the comfort. -/
def umbLeft : Net ℚ :=
  { umb with
    «variables» := umb.variables.set 3 ⟨"Total", .utility, ["effort"], (0, 0), "", some 5⟩
    factors := umb.factors.dropLast ++ [⟨"Total", ["Effort"], some [2], [1], 1⟩] }

/-- `New` accepts the three of them. -/
theorem malformed_new :
    newNet "umbrella" "" umbVars (nf "Weather" [] [70, 20, 10] :: umbTables.tail) = .ok umbShort ∧
    newNet "umbrella" "" umbVars (umbTables ++ [nf "Ghost" ["Weather"] [1, 2]]) = .ok umbGhost ∧
    newNet "umbrella" "" (umbVars.set 3 (nv "Total" .utility ["effort"])) (umbTables.dropLast ++ [nf "Total" ["Effort"] [2]]) =
      .ok umbLeft := ⟨rfl, rfl, rfl⟩

theorem umb_usable {n : Net ℚ} (hk : ∀ f ∈ n.factors, f.forVar = n.totalName ∨
    ((∀ s ∈ f.dims, n.Knows s) ∧ f.dims.Nodup ∧ (n.isKind .decision f.forVar = true ∨ f.table = none ∨
      f.table.isSome ∧ f.tab.length = (f.dims.map n.count).prod))) : ∀ f ∈ n.factors, n.Usable f := by
  intro f hf
  refine (hk f hf).imp_right (fun ⟨h1, h2, h3⟩ => ⟨h1, h2, h3.imp_right (fun h => h.imp_right (fun ⟨h4, h5⟩ => ?_))⟩)
  obtain ⟨t, ht⟩ := Option.isSome_iff_exists.1 h4
  exact ⟨t, ht, by rw [← h5]; simp [NFactor.tab, ht]⟩

end Ex

/-- A table that is too long: all calls panic. -/
example (sch : NSched ℚ) (stepwise : Bool) :
    Panics (Ex.umbShort.solveQuery sch [("Forecast", "bad")] ["Weather"] false).1 ∧
    Panics (Ex.umbShort.solveUtility sch [] ["Umbrella"] "Effort" true).1 ∧ Panics (Ex.umbShort.solvePolicies sch stepwise).1 := by
  have hn : Ex.umbShort.Plain := ⟨by decide, by decide, by decide, by decide⟩
  have hb : Ex.umbShort.WrongSize ⟨"Weather", [], some [70, 20, 10], [], 2⟩ :=
    ⟨by decide, by decide, by decide, _, rfl, by decide⟩
  have h := fun q b => C144_wrongSize hn (pre := []) rfl (by simp) hb sch [("Forecast", "bad")] [q] "" b stepwise
  have h' := C144_wrongSize hn (pre := []) rfl (by simp) hb sch [] ["Umbrella"] "Effort" true stepwise
  exact ⟨(h "Weather" false).1, h'.2.1, h'.2.2⟩

/-- A table for an unknown variable, after six that fit: all calls return an error. -/
example (sch : NSched ℚ) (stepwise : Bool) :
    Errors (Ex.umbGhost.solveQuery sch [("Forecast", "bad")] ["Weather"] false).1 ∧
    Errors (Ex.umbGhost.solveUtility sch [("Forecast", "bad")] ["Weather"] "" false).1 ∧
    Errors (Ex.umbGhost.solvePolicies sch stepwise).1 := by
  have hn : Ex.umbGhost.Plain := ⟨by decide, by decide, by decide, by decide⟩
  have hu : ∀ f ∈ Ex.umb.factors, Ex.umb.Usable f := Ex.umb_usable (by decide)
  exact C144_unknown hn (pre := Ex.umb.factors) (post := []) rfl hu
    ⟨by decide, "Ghost", by decide, by decide⟩ sch _ _ "" false stepwise

/-- A utility variable without weight: all calls return an error. -/
example (sch : NSched ℚ) (stepwise : Bool) :
    Errors (Ex.umbLeft.solveQuery sch [("Forecast", "bad")] ["Weather"] false).1 ∧
    Errors (Ex.umbLeft.solveUtility sch [("Forecast", "bad")] ["Weather"] "" false).1 ∧
    Errors (Ex.umbLeft.solvePolicies sch stepwise).1 := by
  have hn : Ex.umbLeft.Plain := ⟨by decide, by decide, by decide, by decide⟩
  refine C144_unweighted hn rfl (Ex.umb_usable (by decide)) ?_
    ⟨3, _, 5, _, ⟨"Comfort", .utility, ["comfort"], (0, 0), "", some 3⟩, rfl, rfl, rfl, rfl, by decide, rfl, by decide, by decide⟩
    sch _ _ "" false stepwise
  intro i v j f h1 h2 h3 h4
  cases h1
  cases h2
  cases h3
  cases h4
  decide

/-- Both kinds of fault in one network: still no numbers. -/
example (sch : NSched ℚ) (r) :
    (({ Ex.umbShort with factors := Ex.umbGhost.factors ++ Ex.umbShort.factors } : Net ℚ).solveQuery sch [] ["Weather"] false).1 ≠ .ok r :=
  (C144_no_answer ⟨by decide, by decide, by decide, by decide⟩
    (.inl ⟨⟨"Ghost", ["Weather"], some [1, 2], [], 0⟩, by decide, .inl ⟨by decide, "Ghost", by decide, by decide⟩⟩)
    sch [] ["Weather"] "" false false).1 r

end Bbn
