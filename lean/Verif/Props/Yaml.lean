import Verif.Lemmas.Files

/-!
# Loading and saving YAML: C53, C55–C57
-/

set_option autoImplicit false

namespace Bbn

variable {α : Type}

/-! ## C53 -/

theorem logicTable_reach [Zero α] [One α] [Add α] [Div α] (lower : String → String) (logic : String) (k : Nat)
    {h : LHeap α} (hr : LReach h) :
    (logicTable lower logic k h).1 = (logicTable lower logic k initHeap).1 ∧ LReach (logicTable lower logic k h).2 := by
  unfold logicTable
  split
  · exact ⟨rfl, hr⟩
  split
  · exact ⟨rfl, hr⟩
  rename_i p hp
  split
  · exact ⟨rfl, hr⟩
  rename_i args _
  have hpl : p < (initHeap (α := α)).length := by
    have := List.findIdx?_eq_some_iff_getElem.1 hp
    unfold initHeap
    rw [List.length_map]
    exact this.1
  have hl : (initHeap (α := α))[p]? = some (initHeap (α := α))[p] := List.getElem?_eq_getElem hpl
  generalize (initHeap (α := α))[p] = l at hl
  obtain ⟨k', h1, h2⟩ := reach_sameOp hr p l hl
  cases ha : l.setArgs args with
  | error e =>
    have e1 : h.setArgs p args = .error e := by
      unfold LHeap.setArgs
      rw [goGet_ok.2 h1]
      change (k'.setArgs args >>= fun l => pure (h.set p l)) = _
      rw [← setArgs_sameOp_eq args h2, ha]; rfl
    have e2 : (initHeap (α := α)).setArgs p args = .error e := by
      unfold LHeap.setArgs
      rw [goGet_ok.2 hl]
      change (l.setArgs args >>= fun l => pure (initHeap.set p l)) = _
      rw [ha]; rfl
    rw [e1, e2]
    exact ⟨rfl, hr⟩
  | ok l' =>
    obtain ⟨h', e1, e2, e3⟩ := configured hr hl ha
    obtain ⟨h0, f1, _, f3⟩ := configured .init hl ha
    rw [e1, f1]
    exact ⟨by dsimp only; rw [e3, f3], e2⟩

theorem toTable_reach [Zero α] [One α] [Add α] [Div α] (lower : String → String) (v : VarYaml α)
    {h : LHeap α} (hr : LReach h) :
    (toTable lower v h).1 = (toTable lower v initHeap).1 ∧ LReach (toTable lower v h).2 := by
  unfold toTable
  split
  · exact ⟨rfl, hr⟩
  split
  · exact ⟨rfl, hr⟩
  obtain ⟨h1, h2⟩ := logicTable_reach lower v.logic v.given.length hr
  exact ⟨congrArg (Except.map some) h1, h2⟩

theorem yamlNodes_reach [Zero α] [One α] [Add α] [Div α] (lower : String → String) :
    ∀ (vs : List (VarYaml α)) {h h₀ : LHeap α}, LReach h → LReach h₀ →
    (yamlNodes lower vs h).1 = (yamlNodes lower vs h₀).1 ∧ LReach (yamlNodes lower vs h).2 := by
  intro vs
  induction vs with
  | nil => intro h h₀ hr _; exact ⟨rfl, hr⟩
  | cons v vs ih =>
    intro h h₀ hr hr₀
    unfold yamlNodes
    split
    · exact ⟨rfl, hr⟩
    rename_i tp _
    obtain ⟨a1, a2⟩ := toTable_reach lower v hr
    obtain ⟨b1, b2⟩ := toTable_reach lower v hr₀
    generalize toTable lower v h = r at a1 a2 ⊢
    generalize toTable lower v h₀ = r₀ at b1 b2 ⊢
    obtain ⟨r, h⟩ := r
    obtain ⟨r₀, h₀⟩ := r₀
    dsimp only at a1 a2 b1 b2
    rw [← b1] at a1
    subst a1
    cases r with
    | error e => exact ⟨rfl, a2⟩
    | ok t =>
      dsimp only
      obtain ⟨c1, c2⟩ := ih a2 b2
      generalize yamlNodes lower vs h = s at c1 c2 ⊢
      generalize yamlNodes lower vs h₀ = s₀ at c1 ⊢
      obtain ⟨s, h⟩ := s
      obtain ⟨s₀, h₀⟩ := s₀
      dsimp only at c1 c2
      subst c1
      cases s with
      | error e => exact ⟨rfl, c2⟩
      | ok x => exact ⟨rfl, c2⟩

/-- **C53.** Whatever logic factors were constructed, configured or loaded before: a node's table is the one that
results in a fresh program. -/
theorem C53_node_table [Zero α] [One α] [Add α] [Div α] (lower : String → String) (v : VarYaml α) {h : LHeap α}
    (hr : LReach h) : (toTable lower v h).1 = (toTable lower v initHeap).1 :=
  (toTable_reach lower v hr).1

/-- **C53, whole networks.** The same holds for loading a network, and further loads can follow. -/
theorem C53_network [Zero α] [One α] [Add α] [Div α] (lower : String → String) (y : NetYaml α) {h : LHeap α}
    (hr : LReach h) :
    (fromYaml lower y h).1 = (fromYaml lower y initHeap).1 ∧ LReach (fromYaml lower y h).2 := by
  obtain ⟨h1, h2⟩ := yamlNodes_reach lower y.variables hr .init
  unfold fromYaml
  generalize yamlNodes lower y.variables h = r at h1 h2 ⊢
  generalize yamlNodes lower y.variables initHeap = r₀ at h1 ⊢
  obtain ⟨r, h⟩ := r
  obtain ⟨r₀, h₀⟩ := r₀
  dsimp only at h1 h2
  subst h1
  cases r with
  | error e => exact ⟨rfl, h2⟩
  | ok x => exact ⟨rfl, h2⟩

/-- After `count-is 5` was configured elsewhere, the node `count-is 1` still gets its own table. -/
example : ∃ h, (initHeap (α := ℚ)).setArgs 23 [5] = .ok h ∧ LReach h ∧
    (toTable id ⟨"A", ["B"], "", ["t", "f"], (0, 0), "", "count-is 1", []⟩ h).1 = .ok (some [1, 0, 0, 1]) := by
  have e : (initHeap (α := ℚ)).setArgs 23 [5] = .ok (initHeap.set 23 (.count 5 .is)) := by decide +kernel
  refine ⟨_, e, .setArgs _ _ .init e, ?_⟩
  rw [C53_node_table _ _ (.setArgs _ _ .init e)]
  decide +kernel

/-! ## C55 -/

/-- Two networks have the same content: name, variables (without colours), parents and tables, total-utility node. -/
structure SameNet (n n' : Net α) : Prop where
  name : n'.name = n.name
  vars : n'.variables.map (fun v => (v.name, v.nodeType, v.outcomes, v.position)) =
    n.variables.map (fun v => (v.name, v.nodeType, v.outcomes, v.position))
  tables : ∀ v ∈ n.variables, ∃ f f', tableFor n.factors v = some f ∧ tableFor n'.factors v = some f' ∧
    f'.given = f.given ∧ f'.tab = f.tab
  noOther : ∀ f ∈ n'.factors, ∃ v ∈ n'.variables, v.name = f.forVar
  total : n'.totalUtility = n.totalUtility

/-- What `ToYAML` writes for a variable with the given table. -/
def savedVar (fs : List (NFactor α)) (v : NVar) : VarYaml α :=
  let f := (tableFor fs v).getD ⟨v.name, [], none, [], 0⟩
  ⟨v.name, f.given, nodeTypeName v.nodeType, v.outcomes, v.position, "", "",
    (List.range (f.tab.length / v.outcomes.length)).map (fun i => (f.tab.drop (i * v.outcomes.length)).take v.outcomes.length)⟩

/-- The variable that is loaded again. -/
def reloadedVar (v : NVar) : NVar := { v with
  color := ""
  factor := none }

/-- The table that is loaded again. -/
def reloadedTable (fs : List (NFactor α)) (v : NVar) : NFactor α :=
  let y := savedVar fs v
  ⟨v.name, y.given, if y.table.length > 0 then some y.table.flatten else none, [], 0⟩

theorem reloadedTable_given {fs : List (NFactor α)} {v : NVar} {f : NFactor α} (h : tableFor fs v = some f) :
    (reloadedTable fs v).given = f.given := by
  unfold reloadedTable savedVar; rw [h]; rfl

theorem reloadedTable_tab {fs : List (NFactor α)} {v : NVar} {f : NFactor α} (h : tableFor fs v = some f)
    (hd : v.outcomes.length ∣ f.tab.length) : (reloadedTable fs v).tab = f.tab := by
  unfold reloadedTable savedVar NFactor.tab
  rw [h]
  dsimp only [Option.getD_some]
  have e := flatten_rows f.tab v.outcomes.length (f.tab.length / v.outcomes.length)
  rw [Nat.div_mul_cancel hd, List.take_length] at e
  unfold NFactor.tab at e
  rw [e]
  split
  · rfl
  · rename_i hl
    simp only [List.length_map, List.length_range, gt_iff_lt, not_lt, Nat.le_zero] at hl
    have : (f.table.getD []).length = 0 := by
      unfold NFactor.tab at hd
      rw [← Nat.div_mul_cancel hd, hl, Nat.zero_mul]
    rw [List.eq_nil_of_length_eq_zero this]; rfl

theorem core_parts {f g : NFactor α} (h : f.core = g.core) : f.forVar = g.forVar ∧ f.given = g.given ∧ f.tab = g.tab := by
  unfold NFactor.core at h
  rw [NFactor.mk.injEq] at h
  exact ⟨h.1, h.2.1, by unfold NFactor.tab; rw [h.2.2.1]⟩

theorem toYamlVar_linked {fs fs' : List (NFactor α)} (h : fs'.map NFactor.core = fs.map NFactor.core) {v : NVar}
    (hv : v.factor = none) {f : NFactor α} (hf : tableFor fs v = some f) (h0 : 0 < v.outcomes.length) :
    toYamlVar fs' (linked fs v) = .ok (savedVar fs v) := by
  obtain ⟨g, hg, e⟩ := (deref_linked h hv).2 f hf
  have e1 : g.given = f.given := (core_parts e).2.1
  have e2 : g.tab = f.tab := (core_parts e).2.2
  unfold toYamlVar
  rw [hg, ok_bind, e2]
  unfold tableRows
  have hl : (linked fs v).outcomes = v.outcomes ∧ (linked fs v).name = v.name ∧ (linked fs v).nodeType = v.nodeType ∧
      (linked fs v).position = v.position := by unfold linked; split <;> exact ⟨rfl, rfl, rfl, rfl⟩
  rw [hl.1, if_neg (by omega), ok_bind, hl.2.1, hl.2.2.1, hl.2.2.2, e1]
  unfold savedVar
  rw [hf]; rfl

theorem mapM_map_ok {β γ δ : Type} {l : List β} {k : β → γ} {g : γ → Except Fault δ} {h : β → δ}
    (hg : ∀ x ∈ l, g (k x) = .ok (h x)) : (l.map k).mapM g = .ok (l.map h) := by
  induction l with
  | nil => rfl
  | cons x l ih =>
    rw [List.map_cons, List.mapM_cons, hg x (by simp), ok_bind, ih (fun y hy => hg y (by simp [hy])), ok_bind]; rfl

theorem yamlNodes_saved [Zero α] [One α] (lower : String → String) (fs : List (NFactor α)) (h : LHeap α) :
    ∀ vs : List NVar, yamlNodes lower (vs.map (savedVar fs)) h =
      (.ok (vs.map reloadedVar, vs.map (reloadedTable fs)), h) := by
  intro vs
  induction vs with
  | nil => rfl
  | cons v vs ih =>
    rw [List.map_cons, yamlNodes]
    have e : nodeTypeOf (savedVar fs v).type = some v.nodeType := nodeTypeOf_name _
    rw [e]
    have e2 : toTable lower (savedVar fs v) h = (.ok (reloadedTable fs v).table, h) := by
      unfold toTable
      have : (savedVar fs v).logic = "" := rfl
      rw [if_neg (by simp [this]), if_pos this]
      unfold reloadedTable
      dsimp only
      split <;> rfl
    rw [e2]
    dsimp only
    rw [ih]
    rfl

theorem tableFor_map {g : NVar → NFactor α} (hg : ∀ v, (g v).forVar = v.name) {u : NVar} : ∀ {vs : List NVar},
    (vs.map NVar.name).Nodup → ∀ {v}, v ∈ vs → u.name = v.name → tableFor (vs.map g) u = some (g v) := by
  intro vs
  induction vs with
  | nil => intro _ v hv; cases hv
  | cons w vs ih =>
    intro hn v hv e
    rw [List.map_cons, List.nodup_cons] at hn
    unfold tableFor
    rw [List.map_cons, List.find?_cons, hg]
    rcases List.mem_cons.1 hv with rfl | hv
    · simp [e]
    · have : w.name ≠ u.name := by
        intro h; rw [e] at h; exact hn.1 (h ▸ List.mem_map_of_mem hv)
      simp only [this, decide_false]
      exact ih hn.2 hv e

theorem isUtility_reloaded {vars : List NVar} {g : String} :
    IsUtility (vars.map reloadedVar) g ↔ IsUtility vars g := by
  unfold IsUtility
  constructor
  · rintro ⟨u, hu, h⟩
    obtain ⟨v, hv, rfl⟩ := List.mem_map.1 hu
    exact ⟨v, hv, h⟩
  · rintro ⟨u, hu, h⟩
    exact ⟨_, List.mem_map_of_mem hu, h⟩

section
variable {vars : List NVar} {factors : List (NFactor α)} (hn : (vars.map NVar.name).Nodup)
  (hall : ∀ v ∈ vars, ∃ f, tableFor factors v = some f)
include hn hall

theorem isTotal_reloaded {v : NVar} (hv : v ∈ vars) :
    IsTotal (vars.map reloadedVar) (vars.map (reloadedTable factors)) (reloadedVar v) ↔ IsTotal vars factors v := by
  obtain ⟨f, hf⟩ := hall v hv
  have e : tableFor (vars.map (reloadedTable factors)) (reloadedVar v) = some (reloadedTable factors v) :=
    tableFor_map (fun _ => rfl) hn hv rfl
  unfold IsTotal
  rw [e, hf]
  simp only [Option.some.injEq, exists_eq_left', isUtility_reloaded, reloadedTable_given hf]
  rfl

theorem accepted_reloaded (ha : Accepted vars factors) :
    Accepted (vars.map reloadedVar) (vars.map (reloadedTable factors)) := by
  have etab : ∀ v ∈ vars, tableFor (vars.map (reloadedTable factors)) (reloadedVar v) = some (reloadedTable factors v) :=
    fun v hv => tableFor_map (fun _ => rfl) hn hv rfl
  constructor
  · rw [List.map_map]; exact hn
  · intro v' hv' f hf g hg
    obtain ⟨v, hv, rfl⟩ := List.mem_map.1 hv'
    rw [etab v hv] at hf
    cases hf
    obtain ⟨f, hf⟩ := hall v hv
    rw [reloadedTable_given hf] at hg
    obtain ⟨u, hu, e⟩ := ha.parents v hv f hf g hg
    exact ⟨_, List.mem_map_of_mem hu, e⟩
  · intro v' hv' ht
    obtain ⟨v, hv, rfl⟩ := List.mem_map.1 hv'
    obtain ⟨f, hf, h1, h2⟩ := ha.utility v hv ht
    refine ⟨_, etab v hv, ?_⟩
    simp only [isUtility_reloaded, reloadedTable_given hf]
    exact ⟨h1, h2⟩
  · intro v' hv' w' hw' h1 h2
    obtain ⟨v, hv, rfl⟩ := List.mem_map.1 hv'
    obtain ⟨w, hw, rfl⟩ := List.mem_map.1 hw'
    rw [isTotal_reloaded hn hall hv] at h1
    rw [isTotal_reloaded hn hall hw] at h2
    rw [ha.oneTotal v hv w hw h1 h2]
  · intro v' hv' h1 f hf
    obtain ⟨v, hv, rfl⟩ := List.mem_map.1 hv'
    rw [isTotal_reloaded hn hall hv] at h1
    rw [etab v hv] at hf
    cases hf
    obtain ⟨f, hf⟩ := hall v hv
    rw [reloadedTable_given hf]
    exact ha.weights v hv h1 f hf

end

theorem tableFor_core {fs fs' : List (NFactor α)} (h : fs'.map NFactor.core = fs.map NFactor.core) {v : NVar}
    {f : NFactor α} (hf : tableFor fs v = some f) : ∃ f', tableFor fs' v = some f' ∧ f'.core = f.core := by
  induction fs' generalizing fs with
  | nil => cases fs with | nil => cases hf | cons => simp at h
  | cons a fs' ih =>
    cases fs with
    | nil => simp at h
    | cons b fs =>
      rw [List.map_cons, List.map_cons, List.cons.injEq] at h
      have e : a.forVar = b.forVar := (core_parts h.1).1
      unfold tableFor at hf ⊢
      rw [List.find?_cons] at hf ⊢
      rw [e]
      split at hf
      · cases hf; exact ⟨a, rfl, h.1⟩
      · exact ih h.2 hf

theorem round_trip [Zero α] [One α] (name info : String) {vars : List NVar} {factors : List (NFactor α)}
    (hptr : ∀ v ∈ vars, v.factor = none) {n : Net α} (hnew : newNet name info vars factors = .ok n)
    (hall : ∀ v ∈ vars, 0 < v.outcomes.length ∧
      ∃ f, tableFor factors v = some f ∧ v.outcomes.length ∣ f.tab.length) :
    ∃ y n', toYaml n = .ok y ∧ (∀ lower h, fromYaml lower y h = (.ok n', h)) ∧ SameNet n n' ∧
      n'.info = "" ∧ (∀ v ∈ n'.variables, v.color = "") ∧
      newNet name "" (vars.map reloadedVar) (vars.map (reloadedTable factors)) = .ok n' := by
  have hb := C35_new_result name info vars factors hptr hnew
  have ha := (C35_new_partial name info vars factors hptr).1.1 ⟨n, hnew⟩
  have hall' : ∀ v ∈ vars, ∃ f, tableFor factors v = some f := fun v hv => let ⟨_, f, h, _⟩ := hall v hv; ⟨f, h⟩
  have hptr' : ∀ v ∈ vars.map reloadedVar, v.factor = none := by
    intro v hv; obtain ⟨u, _, rfl⟩ := List.mem_map.1 hv; rfl
  obtain ⟨n', hn'⟩ := (C35_new_partial name "" _ _ hptr').1.2 (accepted_reloaded ha.names hall' ha)
  have hb' := C35_new_result name "" _ _ hptr' hn'
  have hy : toYaml n = .ok ⟨name, "", vars.map (savedVar factors)⟩ := by
    unfold toYaml
    rw [hb.links, mapM_map_ok (h := savedVar factors) ?_, ok_bind, hb.sameName]
    · rfl
    · intro v hv
      obtain ⟨h0, f, hf, _⟩ := hall v hv
      exact toYamlVar_linked hb.tables (hptr v hv) hf h0
  refine ⟨_, n', hy, ?_, ?_, hb'.sameInfo, ?_, hn'⟩
  · intro lower h
    unfold fromYaml
    rw [yamlNodes_saved]
    dsimp only
    rw [hn']
  · have hl : ∀ (fs : List (NFactor α)) (v : NVar), ((linked fs v).name, (linked fs v).nodeType, (linked fs v).outcomes,
        (linked fs v).position) = (v.name, v.nodeType, v.outcomes, v.position) := by
      intro fs v; unfold linked; split <;> rfl
    constructor
    · rw [hb.sameName, hb'.sameName]
    · rw [hb.links, hb'.links, List.map_map, List.map_map, List.map_map]
      apply List.map_congr_left
      intro v _
      simp only [Function.comp_apply, hl]
      rfl
    · intro v' hv'
      rw [hb.links] at hv'
      obtain ⟨v, hv, rfl⟩ := List.mem_map.1 hv'
      obtain ⟨_, f, hf, hd⟩ := hall v hv
      have e1 : ∀ fs, tableFor fs (linked factors v) = tableFor (α := α) fs v := by
        intro fs; unfold tableFor; rw [linked_name]
      obtain ⟨g, hg, hgc⟩ := tableFor_core hb.tables hf
      have e2 : tableFor (vars.map (reloadedTable factors)) v = some (reloadedTable factors v) :=
        tableFor_map (fun _ => rfl) ha.names hv rfl
      obtain ⟨g', hg', hgc'⟩ := tableFor_core hb'.tables e2
      refine ⟨g, g', by rw [e1, hg], by rw [e1, hg'], ?_, ?_⟩
      · rw [show g'.given = (reloadedTable factors v).given from (core_parts hgc').2.1, show g.given = f.given from (core_parts hgc).2.1]
        exact reloadedTable_given hf
      · rw [show g'.tab = (reloadedTable factors v).tab from (core_parts hgc').2.2, show g.tab = f.tab from (core_parts hgc).2.2]
        exact reloadedTable_tab hf hd
    · intro f hf
      have : f.core ∈ n'.factors.map NFactor.core := List.mem_map_of_mem hf
      rw [hb'.tables, List.map_map] at this
      obtain ⟨v, hv, e⟩ := List.mem_map.1 this
      have e : v.name = f.forVar := (core_parts e).1
      refine ⟨linked _ (reloadedVar v), by rw [hb'.links, List.map_map]; exact List.mem_map_of_mem (f := _ ∘ _) hv, ?_⟩
      rw [linked_name]; exact e
    · by_cases ht : ∃ v ∈ vars, IsTotal vars factors v
      · obtain ⟨v, hv, ht⟩ := ht
        obtain ⟨i, hi⟩ := List.mem_iff_getElem?.1 hv
        rw [hb.total i v hi ht]
        refine hb'.total i (reloadedVar v) (by rw [List.getElem?_map, hi]; rfl) ?_
        exact (isTotal_reloaded ha.names hall' hv).2 ht
      · rw [hb.noTotal (fun v hv h => ht ⟨v, hv, h⟩)]
        apply hb'.noTotal
        intro v' hv' h
        obtain ⟨v, hv, rfl⟩ := List.mem_map.1 hv'
        exact ht ⟨v, hv, (isTotal_reloaded ha.names hall' hv).1 h⟩
  · intro v hv
    rw [hb'.links, List.map_map] at hv
    obtain ⟨u, _, rfl⟩ := List.mem_map.1 hv
    simp only [Function.comp_apply]
    unfold linked; split <;> rfl

/-- **C55.** If every variable has a table whose size is a multiple of the number of outcomes (decisions may have an
empty one), then saving succeeds, loading the result succeeds whatever was loaded before, and the loaded network has
the same name, variables, types, outcomes, positions, parents, tables and total-utility node. -/
theorem C55_round_trip [Zero α] [One α] (name info : String) {vars : List NVar} {factors : List (NFactor α)}
    (hptr : ∀ v ∈ vars, v.factor = none) {n : Net α} (hnew : newNet name info vars factors = .ok n)
    (hall : ∀ v ∈ vars, 0 < v.outcomes.length ∧
      ∃ f, tableFor factors v = some f ∧ v.outcomes.length ∣ f.tab.length) :
    ∃ y n', toYaml n = .ok y ∧ (∀ lower h, fromYaml lower y h = (.ok n', h)) ∧ SameNet n n' := by
  obtain ⟨y, n', h1, h2, h3, _⟩ := round_trip name info hptr hnew hall
  exact ⟨y, n', h1, h2, h3⟩

theorem outcomeCount_reloaded (g : String) (vs : List NVar) :
    outcomeCount (vs.map reloadedVar) g = outcomeCount vs g := by
  unfold outcomeCount
  induction vs with
  | nil => rfl
  | cons v vs ih =>
    rw [List.map_cons, List.find?_cons, List.find?_cons]
    change (match decide (v.name = g) with | true => some (reloadedVar v) | false => _).map _ = _
    cases decide (v.name = g)
    · exact ih
    · rfl

theorem sumWorlds_reloaded [AddCommMonoid α] (F : World → α) : ∀ (vs : List NVar) (w : World),
    sumWorlds (vs.map reloadedVar) F w = sumWorlds vs F w := by
  intro vs
  induction vs with
  | nil => intro w; rfl
  | cons v vs ih =>
    intro w
    rw [List.map_cons, sumWorlds, sumWorlds]
    exact Finset.sum_congr rfl (fun k _ => ih _)

theorem filter_reloaded (p : NVar → Bool) (hp : ∀ v, p (reloadedVar v) = p v) (vs : List NVar) :
    (vs.map reloadedVar).filter p = (vs.filter p).map reloadedVar := by
  rw [List.filter_map]
  congr 1
  exact List.filter_congr (fun v _ => hp v)

theorem any_reloaded (p : NVar → Bool) (hp : ∀ v, p (reloadedVar v) = p v) (vs : List NVar) :
    (vs.map reloadedVar).any p = vs.any p := by
  rw [List.any_map]
  congr 1
  exact funext hp

theorem SameNet.strip {n n' : Net α} (h : SameNet n n') :
    n'.variables.map reloadedVar = n.variables.map reloadedVar := by
  have := congrArg (List.map (fun s : String × NodeType × List String × (Int × Int) =>
    NVar.mk s.1 s.2.1 s.2.2.1 s.2.2.2 "" none)) h.vars
  rw [List.map_map, List.map_map] at this
  exact this

section
variable {n n' : Net α} (h : SameNet n n')
include h

theorem SameNet.count (s : String) : n'.count s = n.count s := by
  unfold Net.count
  rw [← outcomeCount_reloaded s n'.variables, h.strip, outcomeCount_reloaded]

theorem SameNet.isKind (t : NodeType) (s : String) : n'.isKind t s = n.isKind t s := by
  unfold Net.isKind
  rw [← any_reloaded _ (fun v => rfl) n'.variables, h.strip, any_reloaded _ (fun v => rfl)]

theorem SameNet.getName (i : Nat) : (n'.variables[i]?).map NVar.name = (n.variables[i]?).map NVar.name := by
  have e : ∀ l : List NVar, (l[i]?).map NVar.name = ((l.map reloadedVar)[i]?).map NVar.name := by
    intro l; rw [List.getElem?_map, Option.map_map]; rfl
  rw [e, h.strip, ← e]

theorem SameNet.totalName : n'.totalName = n.totalName := by
  unfold Net.totalName
  rw [h.total]
  cases n.totalUtility with
  | none => rfl
  | some i => dsimp only; rw [h.getName]

theorem SameNet.ids (w : World) : n'.ids w = n.ids w := by
  funext i
  have e := h.getName i
  unfold Net.ids
  cases h1 : n.variables[i]? with
  | none =>
    cases h2 : n'.variables[i]? with
    | none => rfl
    | some v => rw [h1, h2] at e; cases e
  | some u =>
    cases h2 : n'.variables[i]? with
    | none => rw [h1, h2] at e; cases e
    | some v =>
      rw [h1, h2] at e
      simp only [Option.map_some, Option.some.injEq] at e
      dsimp only; rw [e]

theorem SameNet.entry [Zero α] {f f' : NFactor α} (e0 : f'.forVar = f.forVar) (e1 : f'.given = f.given)
    (e2 : f'.tab = f.tab) (w : World) : n'.entry f' w = n.entry f w := by
  unfold Net.entry NFactor.dims
  simp only [e0, e1, e2, h.count]

theorem SameNet.prob [Field α] [DecidableEq α] {f f' : NFactor α} (e0 : f'.forVar = f.forVar) (e1 : f'.given = f.given)
    (e2 : f'.tab = f.tab) (w : World) : n'.prob f' w = n.prob f w := by
  unfold Net.prob Net.rowSum
  simp only [h.count, h.entry e0 e1 e2, e0]

end

theorem tableFor_forVar {fs : List (NFactor α)} {v : NVar} {f : NFactor α} (h : tableFor fs v = some f) :
    f ∈ fs ∧ f.forVar = v.name := by
  unfold tableFor at h
  exact ⟨List.mem_of_find?_eq_some h, by simpa using List.find?_some h⟩

/-- The tables are, up to their order, those of the variables. -/
theorem factors_perm {n : Net α} (hv : n.Valid) (g : NVar → NFactor α)
    (hg : ∀ v ∈ n.variables, tableFor n.factors v = some (g v)) : n.factors.Perm (n.variables.map g) := by
  have hnd : n.factors.Nodup := List.Nodup.of_map _ hv.tables
  have hinj : ∀ f ∈ n.factors, ∀ f' ∈ n.factors, f.forVar = f'.forVar → f = f' :=
    fun f hf f' hf' e => List.inj_on_of_nodup_map hv.tables hf hf' e
  have hnd' : (n.variables.map g).Nodup := by
    apply List.Nodup.of_map NFactor.forVar
    rw [List.map_map, List.map_congr_left (g := NVar.name)]
    · exact hv.names
    · intro v hvm; exact (tableFor_forVar (hg v hvm)).2
  rw [List.perm_ext_iff_of_nodup hnd hnd']
  intro f
  constructor
  · intro hf
    obtain ⟨v, hvm, e⟩ := hv.known f hf
    obtain ⟨h1, h2⟩ := tableFor_forVar (hg v hvm)
    rw [hinj f hf _ h1 (by rw [h2, e])]
    exact List.mem_map_of_mem hvm
  · intro hf
    obtain ⟨v, hvm, rfl⟩ := List.mem_map.1 hf
    exact (tableFor_forVar (hg v hvm)).1

theorem filter_for {n : Net α} (hv : n.Valid) {v : NVar} {f : NFactor α}
    (hf : tableFor n.factors v = some f) : n.factors.filter (fun g => g.forVar = v.name) = [f] := by
  obtain ⟨h1, h2⟩ := tableFor_forVar hf
  apply List.perm_singleton.1
  rw [List.perm_ext_iff_of_nodup ((List.Nodup.of_map _ hv.tables).filter _) (List.nodup_singleton f)]
  intro g
  rw [List.mem_filter, List.mem_singleton]
  constructor
  · rintro ⟨hg, e⟩
    simp only [decide_eq_true_eq] at e
    exact List.inj_on_of_nodup_map hv.tables hg h1 (by rw [e, h2])
  · rintro rfl; exact ⟨h1, by simpa using h2⟩

/-- The table for a variable, total version. -/
def tableOf (n : Net α) (v : NVar) : NFactor α := (tableFor n.factors v).getD ⟨"", [], none, [], 0⟩

theorem joint_vars [Field α] [DecidableEq α] {n : Net α} (hv : n.Valid)
    (hg : ∀ v ∈ n.variables, ∃ f, tableFor n.factors v = some f) (ps : List (String × Factor α)) (w : World) :
    n.joint ps w = (((n.variables.map reloadedVar).filter (fun v => n.isKind .chance v.name)).map
      (fun v => n.prob (tableOf n v) w)).prod * (ps.map (fun p => p.2.val (n.ids w))).prod := by
  unfold Net.joint Net.chanceTables
  congr 1
  have hg' : ∀ v ∈ n.variables, tableFor n.factors v = some (tableOf n v) := by
    intro v hvm; obtain ⟨f, hf⟩ := hg v hvm; unfold tableOf; rw [hf]; rfl
  have hp := ((factors_perm hv _ hg').filter (fun f => n.isKind .chance f.forVar)).map (fun f => n.prob f w)
  rw [hp.prod_eq, List.filter_map, List.map_map, filter_reloaded _ (fun v => rfl), List.map_map]
  have e : n.variables.filter ((fun f => n.isKind .chance f.forVar) ∘ tableOf n) =
      n.variables.filter (fun v => n.isKind .chance v.name) := by
    apply List.filter_congr
    intro v hvm
    simp only [Function.comp_apply, (tableFor_forVar (hg' v hvm)).2]
  rw [e]
  rfl

/-- **Meaning.** Two valid networks with the same content give every world the same weight and the same utilities. -/
theorem SameNet.meaning [Field α] [DecidableEq α] {n n' : Net α} (h : SameNet n n') (hv : n.Valid) (hv' : n'.Valid) :
    (∀ ps w, n'.joint ps w = n.joint ps w) ∧ (∀ u w, (u = "" ∨ ∃ v ∈ n.variables, v.name = u) →
      n'.asked u w = n.asked u w) ∧ ∀ ps F, n'.total ps F = n.total ps F := by
  have hmem : ∀ v ∈ n.variables.map reloadedVar, ∃ f f', tableFor n.factors v = some f ∧ tableFor n'.factors v = some f' ∧
      f'.forVar = f.forVar ∧ f'.given = f.given ∧ f'.tab = f.tab := by
    intro v hvm
    obtain ⟨u, hu, rfl⟩ := List.mem_map.1 hvm
    obtain ⟨f, f', h1, h2, h3, h4⟩ := h.tables u hu
    exact ⟨f, f', h1, h2, by rw [(tableFor_forVar h1).2, (tableFor_forVar h2).2], h3, h4⟩
  have hg : ∀ v ∈ n.variables, ∃ f, tableFor n.factors v = some f := by
    intro v hvm; obtain ⟨f, _, h1, _⟩ := h.tables v hvm; exact ⟨f, h1⟩
  have hg' : ∀ v ∈ n'.variables, ∃ f, tableFor n'.factors v = some f := by
    intro v hvm
    have := List.mem_map_of_mem (f := reloadedVar) hvm
    rw [h.strip] at this
    obtain ⟨_, f', _, h2, _⟩ := hmem _ this
    exact ⟨f', h2⟩
  have hjoint : ∀ ps w, n'.joint ps w = n.joint ps w := by
    intro ps w
    rw [joint_vars hv hg, joint_vars hv' hg', h.strip, h.ids]
    simp only [h.isKind]
    congr 2
    apply List.map_congr_left
    intro v hvm
    obtain ⟨f, f', h1, h2, h3, h4, h5⟩ := hmem v (List.mem_of_mem_filter hvm)
    unfold tableOf
    rw [h1, h2]
    exact h.prob h3 h4 h5 w
  have hutil : ∀ u ∈ n.variables, ∀ w, n'.utilityIn u.name w = n.utilityIn u.name w := by
    intro u hu w
    obtain ⟨f, f', h1, h2, h3, h4⟩ := h.tables u hu
    unfold Net.utilityIn
    rw [filter_for hv h1, filter_for hv' h2]
    simp only [List.map_cons, List.map_nil, List.sum_cons, List.sum_nil]
    rw [h.entry (by rw [(tableFor_forVar h1).2, (tableFor_forVar h2).2]) h3 h4]
  have hweight : ∀ s, n'.weight s = n.weight s := by
    intro s
    unfold Net.weight
    rw [h.total, h.totalName]
    cases ht : n.totalUtility with
    | none => rfl
    | some i =>
      dsimp only
      obtain ⟨v, _, _, h1, _⟩ := hv.weights i ht
      have hn : n.totalName = v.name := by unfold Net.totalName; rw [ht]; dsimp only; rw [h1]; rfl
      obtain ⟨f, f', h1, h2, h3, h4⟩ := h.tables v (List.mem_of_getElem? h1)
      unfold tableFor at h1 h2
      rw [hn, h1, h2]
      simp only [Option.map_some, h3, h4]
  refine ⟨hjoint, ?_, ?_⟩
  · intro u w hu
    unfold Net.asked
    split
    · unfold Net.totalIn Net.utilityVars
      have e : ∀ (m : Net α), ((m.variables.filter (fun v => v.nodeType = .utility ∧ v.name ≠ m.totalName)).map
          (fun u => m.weight u.name * m.utilityIn u.name w)) =
          (((m.variables.map reloadedVar).filter (fun v => v.nodeType = .utility ∧ v.name ≠ m.totalName)).map
          (fun u => m.weight u.name * m.utilityIn u.name w)) := by
        intro m
        rw [filter_reloaded _ (fun v => rfl), List.map_map]; rfl
      rw [e n, e n', h.strip, h.totalName]
      congr 1
      apply List.map_congr_left
      intro v hvm
      obtain ⟨u, hu, rfl⟩ := List.mem_map.1 (List.mem_of_mem_filter hvm)
      rw [hweight]
      congr 1
      exact hutil u hu w
    · rename_i hne
      obtain ⟨v, hvm, rfl⟩ := hu.resolve_left hne
      exact hutil v hvm w
  · intro ps F
    unfold Net.total Net.stateVars
    rw [← sumWorlds_reloaded _ (n'.variables.filter _), ← sumWorlds_reloaded _ (n.variables.filter _),
      ← filter_reloaded _ (fun v => rfl), ← filter_reloaded _ (fun v => rfl), h.strip]
    simp only [hjoint]

/-- **C55, meaning.** For well-formed networks in which also decisions have a (possibly empty) table, the loaded
network is valid and gives every world the same weight and the same utilities, so by C34 and C43 it answers queries
alike. -/
theorem C55_meaning [Field α] [DecidableEq α] (name info : String) {vars : List NVar} {factors : List (NFactor α)}
    (hptr : ∀ v ∈ vars, v.factor = none) (hwf : WellFormed vars factors)
    (hall : ∀ v ∈ vars, ∃ f ∈ factors, f.forVar = v.name ∧ v.outcomes.length ∣ f.tab.length) :
    ∃ n y n', newNet name info vars factors = .ok n ∧ toYaml n = .ok y ∧
      (∀ lower h, fromYaml lower y h = (.ok n', h)) ∧ n.Valid ∧ n'.Valid ∧
      (∀ ps w, n'.joint ps w = n.joint ps w) ∧
      (∀ u w, (u = "" ∨ ∃ v ∈ vars, v.name = u) → n'.asked u w = n.asked u w) ∧
      ∀ ps F, n'.total ps F = n.total ps F := by
  obtain ⟨n, hn, hv, _⟩ := C35_new_valid name info hptr hwf
  have hall' : ∀ v ∈ vars, 0 < v.outcomes.length ∧ ∃ f, tableFor factors v = some f ∧ v.outcomes.length ∣ f.tab.length := by
    intro v hvm
    obtain ⟨f, hf, e, hd⟩ := hall v hvm
    exact ⟨(hwf.outcomes v hvm).1, f, tableFor_mem hwf hf e, hd⟩
  obtain ⟨y, n', h1, h2, h3, _, _, hb⟩ := round_trip name info hptr hn hall'
  have hall2 : ∀ v ∈ vars, ∃ f, tableFor factors v = some f := fun v hvm => let ⟨_, f, h, _⟩ := hall' v hvm; ⟨f, h⟩
  have hmem : ∀ v ∈ vars, ∃ f ∈ factors, tableFor factors v = some f ∧ f.forVar = v.name ∧
      (reloadedTable factors v).given = f.given ∧ (reloadedTable factors v).tab = f.tab := by
    intro v hvm
    obtain ⟨_, f, hf, hd⟩ := hall' v hvm
    exact ⟨f, (tableFor_forVar hf).1, hf, (tableFor_forVar hf).2, reloadedTable_given hf, reloadedTable_tab hf hd⟩
  have hn' : (vars.map NVar.name).Nodup := hwf.accepted.names
  have hfor : ∀ v ∈ vars, ∀ f ∈ vars.map (reloadedTable factors), f.forVar = v.name → f = reloadedTable factors v := by
    intro v hvm f hf e
    obtain ⟨u, hu, rfl⟩ := List.mem_map.1 hf
    rw [List.inj_on_of_nodup_map hn' hu hvm e]
  have hwf' : WellFormed (vars.map reloadedVar) (vars.map (reloadedTable factors)) := by
    constructor
    · exact accepted_reloaded hn' hall2 hwf.accepted
    · intro v hvm; obtain ⟨u, hu, rfl⟩ := List.mem_map.1 hvm; exact hwf.named u hu
    · rw [List.length_map]; exact hwf.few
    · intro v hvm; obtain ⟨u, hu, rfl⟩ := List.mem_map.1 hvm; exact hwf.outcomes u hu
    · rw [List.map_map]; exact hn'
    · intro v hvm _
      obtain ⟨u, hu, rfl⟩ := List.mem_map.1 hvm
      exact ⟨_, List.mem_map_of_mem hu, rfl⟩
    · intro f hf
      obtain ⟨u, hu, rfl⟩ := List.mem_map.1 hf
      exact ⟨_, List.mem_map_of_mem hu, rfl⟩
    · intro f hf
      obtain ⟨u, hu, rfl⟩ := List.mem_map.1 hf
      obtain ⟨f, hf, _, e, e1, _⟩ := hmem u hu
      rw [e1, show (reloadedTable factors u).forVar = f.forVar from e.symm]
      exact hwf.dims f hf
    · intro v hvm ht f hf e g hg
      obtain ⟨u, hu, rfl⟩ := List.mem_map.1 hvm
      rw [hfor u hu f hf e] at hg
      obtain ⟨f, hf, _, e, e1, _⟩ := hmem u hu
      rw [e1] at hg
      rw [isUtility_reloaded]
      exact hwf.parents u hu ht f hf e g hg
    · intro v hvm ht htot f hf e
      obtain ⟨u, hu, rfl⟩ := List.mem_map.1 hvm
      rw [hfor u hu f hf e]
      rw [isTotal_reloaded hn' hall2 hu] at htot
      obtain ⟨f, hf, _, e, e1, e2⟩ := hmem u hu
      obtain ⟨t, ht, hl⟩ := hwf.size u hu ht htot f hf e
      have e3 : f.tab = t := by unfold NFactor.tab; rw [ht]; rfl
      simp only [outcomeCount_reloaded]
      rw [e1]
      have hpos : 0 < t.length := by
        rw [hl]
        apply Nat.mul_pos _ (hwf.outcomes u hu).1
        apply Nat.pos_of_ne_zero
        rw [Ne, List.prod_eq_zero_iff]
        intro hm
        obtain ⟨g, hg, h0⟩ := List.mem_map.1 hm
        obtain ⟨x, hx, rfl⟩ := hwf.accepted.parents u hu f (tableFor_mem hwf hf e) g hg
        unfold outcomeCount at h0
        cases hq : vars.find? (fun v => v.name = x.name) with
        | none =>
          have := List.find?_eq_none.1 hq x hx
          simp at this
        | some y =>
          rw [hq] at h0
          have := (hwf.outcomes y (List.mem_of_find?_eq_some hq)).1
          simp only [Option.map_some, Option.getD_some] at h0
          omega
      rw [e3] at e2
      cases hq : (reloadedTable factors u).table with
      | none => unfold NFactor.tab at e2; rw [hq] at e2; rw [← e2] at hpos; simp at hpos
      | some t' =>
        unfold NFactor.tab at e2; rw [hq] at e2
        exact ⟨t', rfl, by rw [show t' = t from e2]; exact hl⟩
    · intro v hvm ht htot
      obtain ⟨u, hu, rfl⟩ := List.mem_map.1 hvm
      rw [isTotal_reloaded hn' hall2 hu] at htot
      exact hwf.single u hu ht htot
    · intro v hvm htot f hf e
      obtain ⟨u, hu, rfl⟩ := List.mem_map.1 hvm
      rw [isTotal_reloaded hn' hall2 hu] at htot
      rw [hfor u hu f hf e]
      obtain ⟨f, hf, _, e, e1, e2⟩ := hmem u hu
      rw [e1, e2]
      obtain ⟨a, b⟩ := hwf.weights u hu htot f hf e
      refine ⟨a, ?_⟩
      intro x hx hxt hxn
      obtain ⟨z, hz, rfl⟩ := List.mem_map.1 hx
      exact b z hz hxt hxn
  have hv' : n'.Valid := by
    obtain ⟨m, hm, hmv, _⟩ := C35_new_valid name "" (by
      intro v hv; obtain ⟨u, _, rfl⟩ := List.mem_map.1 hv; rfl) hwf'
    rw [hb] at hm
    cases hm
    exact hmv
  obtain ⟨m1, m2, m3⟩ := h3.meaning hv hv'
  have hb0 := C35_new_result name info vars factors hptr hn
  refine ⟨n, y, n', hn, h1, h2, hv, hv', m1, ?_, m3⟩
  intro u w hu
  apply m2
  rcases hu with hu | ⟨v, hvm, e⟩
  · exact .inl hu
  · refine .inr ⟨linked factors v, by rw [hb0.links]; exact List.mem_map_of_mem hvm, by rw [linked_name, e]⟩

end Bbn
