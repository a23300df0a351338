import Verif.Lemmas.NetVars

/-!
# The solver tables of a network
-/

set_option autoImplicit false

namespace Bbn

open Finset

variable {α : Type}

/-- The name map of the solver. -/
def Net.nameTable (n : Net α) : List (String × NVar × Var) := (n.solverVars 0 n.variables).map (fun e => (e.1.name, e))

/-- The solver variable of this name. -/
def Net.varOf (n : Net α) (s : String) : Var := ((mapGet n.nameTable s).map Prod.snd).getD ⟨0, 0, 0, .chance⟩

/-- The name is that of a variable other than the total-utility node. -/
def Net.IsVar (n : Net α) (s : String) : Prop := ∃ i v, n.variables[i]? = some v ∧ v.name = s ∧ n.totalUtility ≠ some i

theorem selfVars (n : Net α) : SolverVars n n.nameTable ((n.solverVars 0 n.variables).map Prod.snd) := ⟨rfl, rfl⟩

theorem varOf_eq {n : Net α} (hn : n.Valid) {i : Nat} {v : NVar} (hv : n.variables[i]? = some v)
    (ht : n.totalUtility ≠ some i) : n.varOf v.name = n.solverVar i v := by
  unfold Net.varOf
  rw [(selfVars n).get_of hn hv ht]; rfl

theorem pos_unique {n : Net α} (hn : n.Valid) {i j : Nat} {u v : NVar} (hu : n.variables[i]? = some u)
    (hv : n.variables[j]? = some v) (h : u.name = v.name) : i = j := by
  have hlt : i < (n.variables.map NVar.name).length := by
    rw [List.length_map]; exact (List.getElem?_eq_some_iff.1 hu).1
  exact (List.getElem?_inj hlt hn.names).1 (by rw [List.getElem?_map, List.getElem?_map, hv, hu]; simp [h])

theorem name_unique {n : Net α} (hn : n.Valid) {u v : NVar} (hu : u ∈ n.variables) (hv : v ∈ n.variables)
    (h : u.name = v.name) : u = v := List.inj_on_of_nodup_map hn.names hu hv h

theorem find_name {n : Net α} (hn : n.Valid) {v : NVar} (hv : v ∈ n.variables) :
    n.variables.find? (fun u => u.name = v.name) = some v := by
  cases hf : n.variables.find? (fun u => u.name = v.name) with
  | none =>
    rw [List.find?_eq_none] at hf
    simpa using hf v hv
  | some u =>
    have h1 : u.name = v.name := by simpa using List.find?_some hf
    rw [name_unique hn (List.mem_of_find?_eq_some hf) hv h1]

theorem count_eq {n : Net α} (hn : n.Valid) {v : NVar} (hv : v ∈ n.variables) :
    n.count v.name = v.outcomes.length := by
  unfold Net.count outcomeCount
  rw [find_name hn hv]; rfl

theorem isKind_iff {n : Net α} (hn : n.Valid) {v : NVar} (hv : v ∈ n.variables) (t : NodeType) :
    n.isKind t v.name = true ↔ v.nodeType = t := by
  unfold Net.isKind
  rw [List.any_eq_true]
  constructor
  · rintro ⟨u, hu, h⟩
    simp only [decide_eq_true_eq] at h
    rw [← name_unique hn hu hv h.1]; exact h.2
  · intro h
    exact ⟨v, hv, by simp [h]⟩

theorem isKind_mem {n : Net α} {t : NodeType} {s : String} :
    n.isKind t s = true ↔ ∃ v ∈ n.variables, v.name = s ∧ v.nodeType = t := by
  unfold Net.isKind; simp

theorem Net.IsVar.varOf_mem {n : Net α} {names : List (String × NVar × Var)} {R : List Var} (hs : SolverVars n names R)
    (hn : n.Valid) {s : String} (h : n.IsVar s) : n.varOf s ∈ R := by
  obtain ⟨i, v, h1, rfl, h3⟩ := h
  rw [varOf_eq hn h1 h3]; exact hs.mem_of h1 h3

theorem Net.IsVar.ids {n : Net α} (hn : n.Valid) {s : String} (h : n.IsVar s) (w : World) :
    n.ids w (n.varOf s).id = w s := by
  obtain ⟨i, v, h1, rfl, h3⟩ := h
  rw [varOf_eq hn h1 h3]
  simp [Net.solverVar, Net.ids, h1]

theorem Net.IsVar.outcomes {n : Net α} (hn : n.Valid) {s : String} (h : n.IsVar s) :
    (n.varOf s).outcomes = n.count s := by
  obtain ⟨i, v, h1, rfl, h3⟩ := h
  rw [varOf_eq hn h1 h3, count_eq hn (List.mem_of_getElem? h1)]; rfl

theorem Net.IsVar.inj {n : Net α} (hn : n.Valid) {s t : String} (hs : n.IsVar s) (ht : n.IsVar t)
    (h : (n.varOf s).id = (n.varOf t).id) : s = t := by
  obtain ⟨i, v, h1, rfl, h3⟩ := hs
  obtain ⟨j, u, k1, rfl, k3⟩ := ht
  rw [varOf_eq hn h1 h3, varOf_eq hn k1 k3] at h
  simp only [Net.solverVar] at h
  subst h
  rw [h1] at k1
  simp at k1; rw [k1]

theorem ids_set {n : Net α} (hn : n.Valid) {s : String} (h : n.IsVar s) (w : World) (k : Nat) :
    n.ids (w.set s k) = (n.ids w).upd (n.varOf s).id k := by
  obtain ⟨i, v, h1, rfl, h3⟩ := h
  rw [varOf_eq hn h1 h3]
  funext j
  have hid : (n.solverVar i v).id = i := rfl
  simp only [Net.ids, Assignment.upd, World.set, hid]
  by_cases hj : j = i
  · subst hj; simp [h1]
  · rw [if_neg hj]
    cases hu : n.variables[j]? with
    | none => rfl
    | some u =>
      dsimp only
      rw [if_neg]
      intro e
      exact hj (pos_unique hn hu h1 e)

theorem size_varOf {n : Net α} (hn : n.Valid) {l : List String} (h : ∀ s ∈ l, n.IsVar s) :
    size (l.map n.varOf) = (l.map n.count).prod := by
  induction l with
  | nil => rfl
  | cons s l ih =>
    simp only [List.map_cons, size, List.prod_cons]
    rw [ih (fun t ht => h t (List.mem_cons_of_mem _ ht)), (h s List.mem_cons_self).outcomes hn]

theorem flatIndex_varOf {n : Net α} (hn : n.Valid) (w : World) {l : List String} (h : ∀ s ∈ l, n.IsVar s) :
    flatIndex (l.map n.varOf) (tupleOf (l.map n.varOf) (n.ids w)) = rowMajor (l.map (fun s => (n.count s, w s))) := by
  induction l with
  | nil => rfl
  | cons s l ih =>
    have hl : ∀ t ∈ l, n.IsVar t := fun t ht => h t (List.mem_cons_of_mem _ ht)
    simp only [List.map_cons, rowMajor, tupleOf]
    rw [flatIndex_cons _ _ _ _ (by simp)]
    have := ih hl
    simp only [tupleOf] at this
    rw [this, size_varOf hn hl, (h s List.mem_cons_self).ids hn w, List.map_map]
    rfl

theorem nodup_varOf {n : Net α} (hn : n.Valid) {l : List String} (h : ∀ s ∈ l, n.IsVar s) (hd : l.Nodup) :
    ((l.map n.varOf).map Var.id).Nodup := by
  rw [List.map_map]
  refine List.Nodup.map_on ?_ hd
  intro s hs t ht e
  exact Net.IsVar.inj hn (h s hs) (h t ht) e

/-- A solver table belongs to a table of the network. -/
structure TableFac [Field α] [DecidableEq α] (n : Net α) (f : NFactor α) (fac : Factor α) : Prop where
  vars : fac.vars = f.dims.map n.varOf
  wf : fac.WF
  val : ∀ w : World, (∀ s ∈ f.dims, w s < n.count s) →
    fac.val (n.ids w) = if n.isKind .chance f.forVar then n.prob f w else n.entry f w

/-- The tables that become solver tables. -/
def Net.isTable (n : Net α) (f : NFactor α) : Bool := f.forVar ≠ n.totalName ∧ n.isKind .decision f.forVar = false

/-- The tables of decisions without a policy. -/
def Net.isOpen (n : Net α) (f : NFactor α) : Bool := n.isKind .decision f.forVar ∧ n.hasPolicy f.forVar = false

theorem isVar_of {n : Net α} (hn : n.Valid) {v : NVar} (hv : v ∈ n.variables) (ht : v.name ≠ n.totalName) :
    n.IsVar v.name := by
  obtain ⟨i, hi⟩ := List.getElem?_of_mem hv
  exact ⟨i, v, hi, rfl, fun e => ht ((totalName_iff hn hi).2 e)⟩

theorem total_utility {n : Net α} (hn : n.Valid) {v : NVar} (hv : v ∈ n.variables) (h : v.name = n.totalName) :
    v.nodeType = .utility := by
  obtain ⟨i, hi⟩ := List.getElem?_of_mem hv
  obtain ⟨u, _, _, hu, h2, _⟩ := hn.weights i ((totalName_iff hn hi).1 h)
  rw [hu] at hi
  simp at hi; rw [← hi]; exact h2

theorem isVar_state {n : Net α} (hn : n.Valid) {v : NVar} (hv : v ∈ n.variables) (ht : v.nodeType ≠ .utility) :
    n.IsVar v.name := isVar_of hn hv (fun h => ht (total_utility hn hv h))

theorem dims_isVar {n : Net α} (hn : n.Valid) {f : NFactor α} (hf : f ∈ n.factors) (ht : f.forVar ≠ n.totalName) :
    ∀ s ∈ f.dims, n.IsVar s := by
  intro s hs
  simp only [NFactor.dims, List.mem_append, List.mem_singleton] at hs
  rcases hs with hs | rfl
  · obtain ⟨v, hv, rfl, hu⟩ := hn.parents f hf ht s hs
    exact isVar_state hn hv hu
  · obtain ⟨v, hv, h⟩ := hn.known f hf
    rw [← h]; exact isVar_of hn hv (by rw [h]; exact ht)

theorem givenVars_spec {n : Net α} (hn : n.Valid) {names : List (String × NVar × Var)} {R : List Var}
    (hs : SolverVars n names R) {l : List String} (h : ∀ s ∈ l, n.IsVar s) :
    givenVars names l = .ok (l.map n.varOf) := by
  unfold givenVars
  induction l with
  | nil => rfl
  | cons s l ih =>
    rw [List.mapM_cons, ih (fun t ht => h t (List.mem_cons_of_mem _ ht))]
    obtain ⟨i, v, h1, rfl, h3⟩ := h s List.mem_cons_self
    rw [hs.get_of hn h1 h3]
    simp only [ok_bind, List.map_cons, varOf_eq hn h1 h3]
    rfl

theorem fits_dims {n : Net α} (hn : n.Valid) {l : List String} (h : ∀ s ∈ l, n.IsVar s) {w : World} :
    Fits (n.ids w) (l.map n.varOf) ↔ ∀ s ∈ l, w s < n.count s := by
  unfold Fits
  simp only [List.mem_map, forall_exists_index, and_imp, forall_apply_eq_imp_iff₂]
  constructor
  · intro h2 s hs
    have := h2 s hs
    rwa [(h s hs).ids hn, (h s hs).outcomes hn] at this
  · intro h2 s hs
    rw [(h s hs).ids hn, (h s hs).outcomes hn]
    exact h2 s hs

theorem addTable_total [Field α] [DecidableEq α] {n : Net α} {names : List (String × NVar × Var)}
    (st : List (Factor α) × List (Var × List Var) × Vs) {f : NFactor α} (ht : f.forVar = n.totalName) :
    n.addTable names st f = .ok st := by
  unfold Net.addTable; rw [if_pos ht]

theorem addTable_decision [Field α] [DecidableEq α] {n : Net α} (hn : n.Valid) {names : List (String × NVar × Var)}
    {R : List Var} (hs : SolverVars n names R)
    (st : List (Factor α) × List (Var × List Var) × Vs) {f : NFactor α} (hf : f ∈ n.factors)
    (hk : n.isKind .decision f.forVar = true) :
    n.addTable names st f = .ok (if n.hasPolicy f.forVar then st
      else (st.1, mapSet st.2.1 (n.varOf f.forVar) (f.given.map n.varOf), st.2.2)) := by
  obtain ⟨v, hv, hvn, hvt⟩ := isKind_mem.1 hk
  have ht : f.forVar ≠ n.totalName := by
    intro e
    have := total_utility hn hv (hvn.trans e)
    rw [hvt] at this; exact absurd this (by decide)
  have hd := dims_isVar hn hf ht
  obtain ⟨i, hi⟩ := List.getElem?_of_mem hv
  have hti : n.totalUtility ≠ some i := fun e => ht (by rw [← hvn]; exact (totalName_iff hn hi).2 e)
  unfold Net.addTable
  rw [if_neg ht, ← hvn, hs.get_of hn hi hti]
  dsimp only
  rw [givenVars_spec hn hs (fun s hs => hd s (by simp [NFactor.dims, hs])), ok_bind]
  rw [varOf_eq hn hi hti]
  by_cases hp : n.hasPolicy v.name = true
  · have : (n.solverVar i v).nodeType = .chance := by simp [Net.solverVar, Net.solverType, hvt, hp]
    rw [if_neg (by rw [this]; decide), if_pos hvt, if_pos hp]
    rfl
  · have : (n.solverVar i v).nodeType = .decision := by simp [Net.solverVar, Net.solverType, hvt, hp]
    rw [if_pos this, if_neg hp]
    rfl

theorem addTable_table [Field α] [DecidableEq α] {n : Net α} (hn : n.Valid) {names : List (String × NVar × Var)}
    {R : List Var} (hs : SolverVars n names R)
    (st : List (Factor α) × List (Var × List Var) × Vs) {f : NFactor α} (hf : f ∈ n.factors)
    (hk : n.isTable f = true) :
    ∃ fac c, st.2.2.factorCounter + (if n.isKind .chance f.forVar then 1 else 0) = fac.id ∧ fac.id + 1 = c ∧
      TableFac n f fac ∧
      n.addTable names st f = .ok (st.1 ++ [fac], st.2.1, { st.2.2 with factorCounter := c }) := by
  simp only [Net.isTable, decide_eq_true_eq] at hk
  obtain ⟨ht, hnd⟩ := hk
  obtain ⟨v, hv, hvn⟩ := hn.known f hf
  have hd := dims_isVar hn hf ht
  obtain ⟨i, hi⟩ := List.getElem?_of_mem hv
  have hti : n.totalUtility ≠ some i := fun e => ht (by rw [← hvn]; exact (totalName_iff hn hi).2 e)
  have hvt : v.nodeType ≠ .decision := by
    intro e
    rw [← hvn, (isKind_iff hn hv .decision).2 e] at hnd
    exact absurd hnd (by decide)
  obtain ⟨t, ht1, ht2⟩ := hn.size f hf ht hnd
  have hgiven := givenVars_spec hn hs (l := f.given) (fun s hs => hd s (by simp [NFactor.dims, hs]))
  have hvar : n.varOf f.forVar = n.solverVar i v := by rw [← hvn, varOf_eq hn hi hti]
  have hdims : f.given.map n.varOf ++ [n.solverVar i v] = f.dims.map n.varOf := by
    simp [NFactor.dims, hvar]
  have hsz := size_varOf hn hd
  set c0 := st.2.2.factorCounter with hc0
  set raw : Factor α := ⟨c0, t, f.dims.map n.varOf⟩ with hraw
  have hcreate : st.2.2.createFactor (f.given.map n.varOf ++ [n.solverVar i v]) f.table =
      .ok (raw, { st.2.2 with factorCounter := c0 + 1 }) := by
    unfold Vs.createFactor
    rw [ht1, hdims]
    dsimp only
    rw [if_neg (by rw [ht2, hsz]; simp)]
  have hwf : raw.WF := ⟨by rw [ht2]; exact hsz.symm, nodup_varOf hn hd (hn.dims f hf)⟩
  have hval : ∀ w : World, raw.val (n.ids w) = n.entry f w := by
    intro w
    simp only [Factor.val, hraw, Net.entry, NFactor.tab, ht1, Option.getD_some]
    rw [flatIndex_varOf hn w hd]
  have hty : (n.solverVar i v).nodeType = v.nodeType := by simp [Net.solverVar, Net.solverType, hvt]
  by_cases hch : v.nodeType = .chance
  · have hmem : n.solverVar i v ∈ raw.vars := by rw [hraw]; dsimp only; rw [← hdims]; simp
    have hout : (n.solverVar i v).outcomes = n.count f.forVar := by
      rw [← hvar]; exact (hd f.forVar (by simp [NFactor.dims])).outcomes hn
    obtain ⟨g, g1, g2, g3, g4, g5⟩ := normalizeFor_spec { st.2.2 with factorCounter := c0 + 1 } raw hwf
      (n.solverVar i v) hmem (hn.outcomes v hv).1
    have hkind : n.isKind .chance f.forVar = true := by rw [← hvn]; exact (isKind_iff hn hv _).2 hch
    refine ⟨g, c0 + 1 + 1, by rw [g3, if_pos hkind], by rw [g3], ⟨?_, g2, ?_⟩, ?_⟩
    · rw [g4]
      simp only [hraw]
      rw [← hdims]
      unfold otherVars
      rw [List.filter_append]
      have h1 : (f.given.map n.varOf).filter (fun w => decide (w.id ≠ (n.solverVar i v).id)) = f.given.map n.varOf := by
        rw [List.filter_eq_self]
        intro w hw
        have := hwf.nodup
        simp only [hraw] at this
        rw [← hdims, List.map_append, List.nodup_append] at this
        simp only [ne_eq, decide_not, Bool.not_eq_true', decide_eq_false_iff_not]
        intro e
        exact this.2.2 _ (List.mem_map_of_mem (f := Var.id) hw) _ (by simp) e
      rw [h1]; simp
    · intro w hw
      rw [if_pos hkind]
      have hfit : Fits (n.ids w) raw.vars := (fits_dims hn hd).2 hw
      have hsum : ∑ c ∈ range (n.solverVar i v).outcomes, raw.val ((n.ids w).upd (n.solverVar i v).id c) = n.rowSum f w := by
        unfold Net.rowSum
        rw [hout]
        apply Finset.sum_congr rfl
        intro c _
        rw [← hval, ids_set hn (hd f.forVar (by simp [NFactor.dims])), hvar]
      rw [g5 _ hfit, hsum, hval]
      rfl
    · unfold Net.addTable
      rw [if_neg ht, ← hvn, hs.get_of hn hi hti]
      dsimp only
      rw [hgiven, ok_bind, if_neg (by rw [hty]; exact hvt), if_neg hvt, hcreate, ok_bind]
      dsimp only
      rw [if_pos hch, g1]
      rfl
  · have hkind : ¬ n.isKind .chance f.forVar = true := by rw [← hvn, isKind_iff hn hv]; exact hch
    refine ⟨raw, c0 + 1, by rw [if_neg hkind]; rfl, by simp [hraw], ⟨rfl, hwf, ?_⟩, ?_⟩
    · intro w _
      rw [if_neg hkind, hval]
    · unfold Net.addTable
      rw [if_neg ht, ← hvn, hs.get_of hn hi hti]
      dsimp only
      rw [hgiven, ok_bind, if_neg (by rw [hty]; exact hvt), if_neg hvt, hcreate, ok_bind]
      dsimp only
      rw [if_neg hch]
      rfl

/-- The entry of an open decision in the dependency map. -/
def Net.depEntry (n : Net α) (f : NFactor α) : Var × List Var := (n.varOf f.forVar, f.given.map n.varOf)

theorem addTables_spec [Field α] [DecidableEq α] {n : Net α} (hn : n.Valid) {names : List (String × NVar × Var)}
    {R : List Var} (hs : SolverVars n names R) : ∀ (l : List (NFactor α)) (fs : List (Factor α))
    (deps : List (Var × List Var)) (vs : Vs), (∀ f ∈ l, f ∈ n.factors) →
    (l.map NFactor.forVar).Nodup → (∀ e ∈ deps, ∀ f ∈ l, n.isOpen f = true → e.1 ≠ n.varOf f.forVar) →
    ∃ fs' c, l.foldlM (n.addTable names) (fs, deps, vs) =
        .ok (fs ++ fs', deps ++ (l.filter n.isOpen).map n.depEntry, { vs with factorCounter := c }) ∧
      vs.factorCounter ≤ c ∧ (∀ f ∈ fs', vs.factorCounter ≤ f.id ∧ f.id < c) ∧ (fs'.map Factor.id).Nodup ∧
      List.Forall₂ (TableFac n) (l.filter n.isTable) fs' := by
  intro l
  induction l with
  | nil =>
    intro fs deps vs _ _ _
    exact ⟨[], vs.factorCounter, by simp; rfl, le_rfl, by simp, by simp, by simp⟩
  | cons f l ih =>
    intro fs deps vs hsub hnd hdep
    have hf := hsub f List.mem_cons_self
    have hsub' : ∀ g ∈ l, g ∈ n.factors := fun g hg => hsub g (List.mem_cons_of_mem _ hg)
    rw [List.map_cons, List.nodup_cons] at hnd
    have hdep' : ∀ e ∈ deps, ∀ g ∈ l, n.isOpen g = true → e.1 ≠ n.varOf g.forVar :=
      fun e he g hg => hdep e he g (List.mem_cons_of_mem _ hg)
    rw [List.foldlM_cons]
    by_cases hk : n.isKind .decision f.forVar = true
    · have hnt : n.isTable f = false := by simp [Net.isTable, hk]
      rw [addTable_decision hn hs _ hf hk, ok_bind]
      by_cases hp : n.hasPolicy f.forVar = true
      · have hno : n.isOpen f = false := by simp [Net.isOpen, hp]
        rw [if_pos hp, List.filter_cons_of_neg (by simp [hno]), List.filter_cons_of_neg (by simp [hnt])]
        exact ih fs deps vs hsub' hnd.2 hdep'
      · have ho : n.isOpen f = true := by simp [Net.isOpen, hp, hk]
        rw [if_neg hp, List.filter_cons_of_pos ho, List.filter_cons_of_neg (by simp [hnt])]
        dsimp only
        have hnew : n.varOf f.forVar ∉ deps.map Prod.fst := by
          intro h
          obtain ⟨e, he, h2⟩ := List.mem_map.1 h
          exact hdep e he f List.mem_cons_self ho h2
        rw [mapSet_new hnew]
        obtain ⟨fs', c, h1, h2⟩ := ih fs (deps ++ [(n.varOf f.forVar, f.given.map n.varOf)]) vs hsub' hnd.2 (by
          intro e he g hg hgo heq
          rcases List.mem_append.1 he with he | he
          · exact hdep' e he g hg hgo heq
          · simp only [List.mem_singleton] at he
            subst he
            have hgk : n.isKind .decision g.forVar = true := by simp [Net.isOpen] at hgo; exact hgo.1
            have isv : ∀ g : NFactor α, n.isKind .decision g.forVar = true → n.IsVar g.forVar := by
              intro g hgk
              obtain ⟨v, hv, h1, h2⟩ := isKind_mem.1 hgk
              rw [← h1]; exact isVar_state hn hv (by rw [h2]; decide)
            have := Net.IsVar.inj hn (isv f hk) (isv g hgk) (by dsimp only at heq; rw [heq])
            exact hnd.1 (this ▸ List.mem_map_of_mem hg))
        exact ⟨fs', c, by rw [h1]; simp [Net.depEntry], h2⟩
    · have hno : n.isOpen f = false := by simp [Net.isOpen, hk]
      rw [List.filter_cons_of_neg (by simp [hno])]
      by_cases ht : f.forVar = n.totalName
      · have hnt : n.isTable f = false := by simp [Net.isTable, ht]
        rw [addTable_total _ ht, ok_bind, List.filter_cons_of_neg (by simp [hnt])]
        exact ih fs deps vs hsub' hnd.2 hdep'
      · have hta : n.isTable f = true := by simp [Net.isTable, ht, hk]
        obtain ⟨fac, c, a1, a2, a3, a4⟩ := addTable_table hn hs (fs, deps, vs) hf hta
        replace a1 : vs.factorCounter ≤ fac.id := by rw [← a1]; exact Nat.le_add_right _ _
        replace a2 : fac.id < c := by omega
        rw [a4, ok_bind, List.filter_cons_of_pos hta]
        dsimp only at a1 a2 ⊢
        obtain ⟨fs', c', h1, h2, h3, h4, h5⟩ := ih (fs ++ [fac]) deps { vs with factorCounter := c } hsub' hnd.2 hdep'
        dsimp only at h2 h3
        refine ⟨fac :: fs', c', by rw [h1]; simp, by omega, ?_, ?_, h5.cons a3⟩
        · intro g hg
          rcases List.mem_cons.1 hg with rfl | hg
          · omega
          · have := h3 g hg; omega
        · rw [List.map_cons, List.nodup_cons]
          refine ⟨?_, h4⟩
          intro h
          obtain ⟨g, hg, e⟩ := List.mem_map.1 h
          have := h3 g hg; omega

end Bbn
