import Verif.Lemmas.NetNew
import Verif.Props.NetExamples
import Mathlib.Algebra.BigOperators.Group.List.Lemmas

/-!
# C35: what `New` accepts and builds
-/

set_option autoImplicit false

namespace Bbn

variable {α : Type}

@[simp] theorem linked_name (fs : List (NFactor α)) (v : NVar) : (linked fs v).name = v.name := by
  unfold linked; split <;> rfl
@[simp] theorem linked_type (fs : List (NFactor α)) (v : NVar) : (linked fs v).nodeType = v.nodeType := by
  unfold linked; split <;> rfl
@[simp] theorem linked_outcomes (fs : List (NFactor α)) (v : NVar) : (linked fs v).outcomes = v.outcomes := by
  unfold linked; split <;> rfl

theorem linked_names (fs : List (NFactor α)) (vs : List NVar) :
    (vs.map (linked fs)).map NVar.name = vs.map NVar.name := by
  rw [List.map_map]; exact List.map_congr_left (fun v _ => linked_name fs v)

theorem isUtility_linked (fs : List (NFactor α)) (vs : List NVar) (g : String) :
    IsUtility (vs.map (linked fs)) g ↔ IsUtility vs g := by
  unfold IsUtility
  constructor
  · rintro ⟨u, hu, h1, h2⟩
    obtain ⟨v, hv, rfl⟩ := List.mem_map.1 hu
    exact ⟨v, hv, by simpa using h1, by simpa using h2⟩
  · rintro ⟨v, hv, h1, h2⟩
    exact ⟨linked fs v, List.mem_map_of_mem hv, by simpa using h1, by simpa using h2⟩

theorem core_given {f f' : NFactor α} (h : f.core = f'.core) : f.given = f'.given :=
  (congrArg NFactor.given h : f.core.given = f'.core.given)

theorem deref_linked {fs fs' : List (NFactor α)} (h : fs'.map NFactor.core = fs.map NFactor.core) {v : NVar}
    (hv : v.factor = none) :
    (∀ f, derefFactor fs' (linked fs v) = .ok f → ∃ f₀, tableFor fs v = some f₀ ∧ f.core = f₀.core) ∧
      ∀ f₀, tableFor fs v = some f₀ → ∃ f, derefFactor fs' (linked fs v) = .ok f ∧ f.core = f₀.core := by
  have htab : tableFor fs v = (fs.findIdx? (fun f => f.forVar = v.name)).bind (fun i => fs[i]?) := find_findIdx _ _
  cases hi : fs.findIdx? (fun f => f.forVar = v.name) with
  | none =>
    have h1 : linked fs v = v := by unfold linked; rw [hi]
    rw [hi] at htab
    constructor
    · intro f hf
      unfold derefFactor at hf
      rw [h1, hv] at hf
      cases hf
    · intro f₀ hf; rw [htab] at hf; cases hf
  | some i =>
    have h1 : (linked fs v).factor = some i := by unfold linked; rw [hi]
    rw [hi] at htab
    obtain ⟨hlt, _⟩ := List.findIdx?_eq_some_iff_getElem.1 hi
    have hget : fs[i]? = some fs[i] := List.getElem?_eq_getElem hlt
    have hcore : (fs'[i]?).map NFactor.core = (fs[i]?).map NFactor.core := by
      rw [← List.getElem?_map, ← List.getElem?_map, h]
    rw [hget] at hcore
    obtain ⟨f', h2, h3⟩ := Option.map_eq_some_iff.1 hcore
    have hder : derefFactor fs' (linked fs v) = .ok f' := by
      unfold derefFactor; rw [h1]; exact goGet_eq.2 h2
    have ht : tableFor fs v = some fs[i] := by rw [htab]; exact hget
    constructor
    · intro f hf
      rw [hder] at hf
      simp only [Except.ok.injEq] at hf
      subst hf; exact ⟨_, ht, h3⟩
    · intro f₀ hf
      rw [ht] at hf
      simp only [Option.some.injEq] at hf
      subst hf; exact ⟨_, hder, h3⟩

theorem totalAt_linked {fs fs' : List (NFactor α)} (h : fs'.map NFactor.core = fs.map NFactor.core) {vs : List NVar}
    {v : NVar} (hv : v.factor = none) : TotalAt (vs.map (linked fs)) fs' (linked fs v) ↔ IsTotal vs fs v := by
  obtain ⟨d1, d2⟩ := deref_linked h hv
  unfold TotalAt IsTotal
  rw [linked_type]
  constructor
  · rintro ⟨h1, f, h2, h3, h4⟩
    obtain ⟨f₀, h5, h6⟩ := d1 f h2
    rw [core_given h6] at h3 h4
    exact ⟨h1, f₀, h5, h3, fun g hg => (isUtility_linked fs vs g).1 (h4 g hg)⟩
  · rintro ⟨h1, f₀, h2, h3, h4⟩
    obtain ⟨f, h5, h6⟩ := d2 f₀ h2
    rw [← core_given h6] at h3 h4
    exact ⟨h1, f, h5, h3, fun g hg => (isUtility_linked fs vs g).2 (h4 g hg)⟩

theorem utilityNodeOK_linked {fs fs' : List (NFactor α)} (h : fs'.map NFactor.core = fs.map NFactor.core)
    {vs : List NVar} {v : NVar} (hv : v.factor = none) : UtilityNodeOK (vs.map (linked fs)) fs' (linked fs v) ↔
      (v.nodeType = .utility → ∃ f, tableFor fs v = some f ∧ f.given ≠ [] ∧
        ((∀ g ∈ f.given, IsUtility vs g) ∧ v.outcomes.length = f.given.length ∨ ∀ g ∈ f.given, ¬ IsUtility vs g)) := by
  obtain ⟨d1, d2⟩ := deref_linked h hv
  unfold UtilityNodeOK
  rw [linked_type, linked_outcomes]
  simp only [isUtility_linked]
  constructor
  · intro hh hu
    obtain ⟨f, h2, h3⟩ := hh hu
    obtain ⟨f₀, h5, h6⟩ := d1 f h2
    rw [core_given h6] at h3
    exact ⟨f₀, h5, h3⟩
  · intro hh hu
    obtain ⟨f₀, h2, h3⟩ := hh hu
    obtain ⟨f, h5, h6⟩ := d2 f₀ h2
    rw [← core_given h6] at h3
    exact ⟨f, h5, h3⟩

/-- What `New` builds from an accepted structure. -/
structure Built (name info : String) (vars : List NVar) (factors : List (NFactor α)) (n : Net α) : Prop where
  sameName : n.name = name
  sameInfo : n.info = info
  /-- Variables only get their pointers to their tables. -/
  links : n.variables = vars.map (linked factors)
  /-- Tables keep variable, parents and entries ... -/
  tables : n.factors.map NFactor.core = factors.map NFactor.core
  /-- ... and get the outcome counts of the parents and the number of columns. -/
  counts : ∀ v ∈ vars, ∀ i, factors.findIdx? (fun f => f.forVar = v.name) = some i →
    ∃ f, n.factors[i]? = some f ∧ f.outcomes = f.given.map (fun g => (outcomeCount vars g).getD 0) ∧
      f.columns = v.outcomes.length
  policies : n.policies = []
  fresh : n.vs = none ∧ n.names = []
  total : ∀ i v, vars[i]? = some v → IsTotal vars factors v → n.totalUtility = some i
  noTotal : (∀ v ∈ vars, ¬ IsTotal vars factors v) → n.totalUtility = none

theorem newNet_spec (name info : String) (vars : List NVar) (factors : List (NFactor α))
    (hptr : ∀ v ∈ vars, v.factor = none) :
    (Accepted vars factors ∧ ∃ n, newNet name info vars factors = .ok n ∧
      Built name info vars factors n) ∨
    (¬ Accepted vars factors ∧ (Errors (newNet name info vars factors) ∨
      (Panics (newNet name info vars factors) ∧
        ∃ v ∈ vars, v.nodeType = .utility ∧ tableFor factors v = none))) := by
  unfold newNet
  rcases checkNames_spec vars [] with ⟨c1, _, hnames⟩ | ⟨⟨m, c1⟩, c2⟩
  swap
  · right
    refine ⟨fun h => c2 ⟨by simp, h.names⟩, .inl ⟨m, by rw [c1]; rfl⟩⟩
  rw [c1, ok_bind]
  rcases linkFactors_spec vars vars factors hnames with ⟨hk, fs', l1, l2, l3, l4⟩ | ⟨hk, m, l1⟩
  swap
  · exact .inr ⟨fun h => hk h.parents, .inl ⟨m, by rw [l1]; rfl⟩⟩
  rw [l1, ok_bind]
  dsimp only
  have hnames' : ((vars.map (linked factors)).map NVar.name).Nodup := by rw [linked_names]; exact hnames
  have hk' : ∀ v ∈ vars.map (linked factors), ∀ f, derefFactor fs' v = .ok f → ∀ g ∈ f.given,
      ∃ u ∈ vars.map (linked factors), u.name = g := by
    intro v' hv' f hf g hg
    obtain ⟨v, hv, rfl⟩ := List.mem_map.1 hv'
    obtain ⟨f₀, h1, h2⟩ := (deref_linked l2 (hptr v hv)).1 f hf
    obtain ⟨u, hu, h3⟩ := hk v hv f₀ h1 g (by rw [← core_given h2]; exact hg)
    exact ⟨linked factors u, List.mem_map_of_mem hu, by simpa using h3⟩
  -- the check of the utility variables says what `Accepted` says
  have key : ((∀ v ∈ vars.map (linked factors), UtilityNodeOK (vars.map (linked factors)) fs' v) ∧
      (vars.map (linked factors)).Pairwise (fun v w => ¬ (TotalAt (vars.map (linked factors)) fs' v ∧
        TotalAt (vars.map (linked factors)) fs' w))) ↔ Accepted vars factors := by
    constructor
    · rintro ⟨h1, h2⟩
      have h1' := fun v hv => (utilityNodeOK_linked l2 (hptr v hv)).1 (h1 _ (List.mem_map_of_mem hv))
      refine ⟨hnames, hk, ?_, ?_, ?_⟩
      · intro v hv hu
        obtain ⟨f, a1, a2, a3⟩ := h1' v hv hu
        refine ⟨f, a1, a2, ?_⟩
        rcases a3 with ⟨a3, _⟩ | a3
        · exact .inl a3
        · exact .inr a3
      · intro v hv w hw hT hW
        by_contra hne
        rw [List.pairwise_map] at h2
        have h3 : vars.Pairwise (fun v w => ¬ (IsTotal vars factors v ∧ IsTotal vars factors w)) := by
          refine h2.imp_of_mem ?_
          intro a b ha hb hab h
          exact hab ⟨(totalAt_linked l2 (hptr a ha)).2 h.1, (totalAt_linked l2 (hptr b hb)).2 h.2⟩
        have : Std.Symm (fun v w => ¬ (IsTotal vars factors v ∧ IsTotal vars factors w)) := ⟨fun _ _ h h' => h ⟨h'.2, h'.1⟩⟩
        exact h3.forall hv hw hne ⟨hT, hW⟩
      · intro v hv hT f hf
        obtain ⟨hu, f', b1, b2, b3⟩ := hT
        obtain ⟨f'', a1, a2, a3⟩ := h1' v hv hu
        rw [hf] at a1 b1
        simp only [Option.some.injEq] at a1 b1
        subst a1 b1
        rcases a3 with ⟨_, a3⟩ | a3
        · exact a3
        · obtain ⟨g, hg⟩ := List.exists_mem_of_ne_nil _ a2
          exact absurd (b3 g hg) (a3 g hg)
    · intro h
      refine ⟨?_, ?_⟩
      · intro v' hv'
        obtain ⟨v, hv, rfl⟩ := List.mem_map.1 hv'
        rw [utilityNodeOK_linked l2 (hptr v hv)]
        intro hu
        obtain ⟨f, a1, a2, a3⟩ := h.utility v hv hu
        refine ⟨f, a1, a2, ?_⟩
        rcases a3 with a3 | a3
        · exact .inl ⟨a3, h.weights v hv ⟨hu, f, a1, a2, a3⟩ f a1⟩
        · exact .inr a3
      · rw [List.pairwise_map]
        have hnd : vars.Nodup := List.Nodup.of_map _ hnames
        refine List.Pairwise.imp_of_mem ?_ hnd
        intro a b ha hb hab h'
        exact hab (h.oneTotal a ha b hb ((totalAt_linked l2 (hptr a ha)).1 h'.1) ((totalAt_linked l2 (hptr b hb)).1 h'.2))
  rcases utilityNodes_spec (vars.map (linked factors)) hnames' fs' (vars.map (linked factors)) 0 none hk' with
    ⟨⟨u1, u2, _⟩, t, u3, u4, u5⟩ | ⟨u1, u2⟩
  · refine .inl ⟨key.1 ⟨u1, u2⟩, _, by rw [u3, ok_bind]; rfl, ?_⟩
    refine ⟨rfl, rfl, rfl, l2, ?_, rfl, ⟨rfl, rfl⟩, ?_, ?_⟩
    · intro v hv i hi
      obtain ⟨hlt, _⟩ := List.findIdx?_eq_some_iff_getElem.1 hi
      exact ⟨_, l3 v hv i _ hi (List.getElem?_eq_getElem hlt), rfl, rfl⟩
    · intro i v hi hT
      have := u5 i (linked factors v) (by rw [List.getElem?_map, hi]; rfl)
        ((totalAt_linked l2 (hptr v (List.mem_of_getElem? hi))).2 hT)
      simpa using this
    · intro h
      apply u4
      intro v' hv'
      obtain ⟨v, hv, rfl⟩ := List.mem_map.1 hv'
      rw [totalAt_linked l2 (hptr v hv)]
      exact h v hv
  · right
    refine ⟨fun h => u1 ⟨(key.2 h).1, (key.2 h).2, by simp⟩, ?_⟩
    rcases u2 with ⟨m, h⟩ | ⟨⟨m, h⟩, v', hv', h1, h2⟩
    · exact .inl ⟨m, by rw [h]; rfl⟩
    · obtain ⟨v, hv, rfl⟩ := List.mem_map.1 hv'
      refine .inr ⟨⟨m, by rw [h]; rfl⟩, v, hv, by simpa using h1, ?_⟩
      cases htab : tableFor factors v with
      | none => rfl
      | some f₀ =>
        obtain ⟨f, h3, _⟩ := (deref_linked l2 (hptr v hv)).2 f₀ htab
        exact absurd h3 (h2 f)

/-- **C35** (partial). `New` accepts exactly the structures with distinct names, known parents of the tables in use,
utility variables with parents that are all utilities or no utilities, and at most one total-utility node, whose
outcome and parent counts are equal. All others are reported as errors if every utility variable has a table. What is
missing: tables that are not in use are not checked, and utility variables without table make `New` panic. -/
theorem C35_new_partial (name info : String) (vars : List NVar) (factors : List (NFactor α))
    (hptr : ∀ v ∈ vars, v.factor = none) :
    ((∃ n, newNet name info vars factors = .ok n) ↔ Accepted vars factors) ∧
      ((∀ v ∈ vars, v.nodeType = .utility → tableFor factors v ≠ none) → ¬ Accepted vars factors →
        Errors (newNet name info vars factors)) := by
  rcases newNet_spec name info vars factors hptr with ⟨h1, n, h2, _⟩ | ⟨h1, h2⟩
  · exact ⟨⟨fun _ => h1, fun _ => ⟨n, h2⟩⟩, fun _ h => absurd h1 h⟩
  · refine ⟨⟨?_, fun h => absurd h h1⟩, ?_⟩
    · rintro ⟨n, hn⟩
      rcases h2 with ⟨m, h2⟩ | ⟨⟨m, h2⟩, _⟩ <;> rw [hn] at h2 <;> cases h2
    · intro ht _
      rcases h2 with h2 | ⟨_, v, hv, h3, h4⟩
      · exact h2
      · exact absurd h4 (ht v hv h3)

/-- **C35**, the result: `New` keeps variables and tables as they are given, links each variable to its table, fills
in the counts, and finds the total-utility node. -/
theorem C35_new_result (name info : String) (vars : List NVar) (factors : List (NFactor α))
    (hptr : ∀ v ∈ vars, v.factor = none) {n : Net α} (h : newNet name info vars factors = .ok n) :
    Built name info vars factors n := by
  rcases newNet_spec name info vars factors hptr with ⟨_, n', h2, h3⟩ | ⟨_, h2⟩
  · rw [h] at h2
    simp only [Except.ok.injEq] at h2
    subst h2; exact h3
  · rcases h2 with ⟨m, h2⟩ | ⟨⟨m, h2⟩, _⟩ <;> rw [h] at h2 <;> cases h2

/-- **C35** refuted: a table with an unknown parent is accepted if the table is for an unknown variable. -/
theorem C35_unknown_parent_refuted : ∃ (vars : List NVar) (factors : List (NFactor ℚ)) (n : Net ℚ),
    (∃ f ∈ factors, ∃ g ∈ f.given, ∀ v ∈ vars, v.name ≠ g) ∧ newNet "n" "" vars factors = .ok n :=
  ⟨[Ex.nv "Rain" .chance ["yes", "no"]], [Ex.nf "Rain" [] [20, 80], Ex.nf "Snow" ["Cold"] [1, 2, 3, 4]], _,
    ⟨_, List.mem_cons_of_mem _ List.mem_cons_self, "Cold", by decide, by decide⟩, rfl⟩

/-- **C35** refuted: `New` panics instead of returning an error for a utility variable without table. -/
theorem C35_no_table_refuted : Panics (newNet (α := ℚ) "n" "" [Ex.nv "Gain" .utility ["utility"]] []) := ⟨_, rfl⟩

/-- What a user has to get right, in terms of the arguments of `New`. -/
structure WellFormed (vars : List NVar) (factors : List (NFactor α)) : Prop where
  accepted : Accepted vars factors
  named : ∀ v ∈ vars, v.name ≠ ""
  few : vars.length ≤ 65536
  outcomes : ∀ v ∈ vars, 0 < v.outcomes.length ∧ v.outcomes.length < 65536
  tables : (factors.map NFactor.forVar).Nodup
  hasTable : ∀ v ∈ vars, v.nodeType ≠ .decision → ∃ f ∈ factors, f.forVar = v.name
  known : ∀ f ∈ factors, ∃ v ∈ vars, v.name = f.forVar
  dims : ∀ f ∈ factors, (f.given ++ [f.forVar]).Nodup
  parents : ∀ v ∈ vars, v.nodeType ≠ .utility → ∀ f ∈ factors, f.forVar = v.name →
    ∀ g ∈ f.given, ¬ IsUtility vars g
  size : ∀ v ∈ vars, v.nodeType ≠ .decision → ¬ IsTotal vars factors v → ∀ f ∈ factors, f.forVar = v.name →
    ∃ t, f.table = some t ∧ t.length = (f.given.map (fun g => (outcomeCount vars g).getD 0)).prod * v.outcomes.length
  single : ∀ v ∈ vars, v.nodeType = .utility → ¬ IsTotal vars factors v → v.outcomes.length = 1
  weights : ∀ v ∈ vars, IsTotal vars factors v → ∀ f ∈ factors, f.forVar = v.name →
    f.given.length ≤ f.tab.length ∧ ∀ u ∈ vars, u.nodeType = .utility → u.name ≠ v.name → u.name ∈ f.given

/-- The table listed for a variable is the variable's table if there are no two for it. -/
theorem tableFor_mem {vars : List NVar} {factors : List (NFactor α)} (h : WellFormed vars factors)
    {f : NFactor α} (hf : f ∈ factors) {v : NVar} (e : f.forVar = v.name) : tableFor factors v = some f := by
  unfold tableFor
  cases hg : factors.find? (fun f => f.forVar = v.name) with
  | none =>
    rw [List.find?_eq_none] at hg
    exact absurd e (by simpa using hg f hf)
  | some g =>
    have h1 := List.mem_of_find?_eq_some hg
    have h2 := List.find?_some hg
    simp only [decide_eq_true_eq] at h2
    rw [List.inj_on_of_nodup_map h.tables h1 hf (h2.trans e.symm)]

theorem outcomeCount_linked (fs : List (NFactor α)) (g : String) : ∀ (vs : List NVar),
    outcomeCount (vs.map (linked fs)) g = outcomeCount vs g := by
  intro vs
  unfold outcomeCount
  induction vs with
  | nil => rfl
  | cons v vs ih =>
    rw [List.map_cons, List.find?_cons, List.find?_cons, linked_name]
    split
    · simp
    · exact ih

/-- **C35**, the link to the other properties: a well-formed structure is accepted, and the network built is valid
and without policies, as asked by the theorems on queries. -/
theorem C35_new_valid (name info : String) {vars : List NVar} {factors : List (NFactor α)}
    (hptr : ∀ v ∈ vars, v.factor = none) (h : WellFormed vars factors) :
    ∃ n, newNet name info vars factors = .ok n ∧ n.Valid ∧ n.PoliciesOK := by
  obtain ⟨n, hn⟩ := (C35_new_partial name info vars factors hptr).1.2 h.accepted
  have hb := C35_new_result name info vars factors hptr hn
  refine ⟨n, hn, ?_, by constructor <;> simp [hb.policies]⟩
  have hcount : ∀ s, n.count s = (outcomeCount vars s).getD 0 := by
    intro s; unfold Net.count; rw [hb.links, outcomeCount_linked]
  have hvar : ∀ {v'}, v' ∈ n.variables → ∃ v ∈ vars, v' = linked factors v := by
    intro v' hv'
    rw [hb.links] at hv'
    obtain ⟨v, hv, rfl⟩ := List.mem_map.1 hv'
    exact ⟨v, hv, rfl⟩
  have hvar' : ∀ {v}, v ∈ vars → linked factors v ∈ n.variables := by
    intro v hv; rw [hb.links]; exact List.mem_map_of_mem hv
  have hfac : ∀ {f'}, f' ∈ n.factors → ∃ f ∈ factors, f'.core = f.core := by
    intro f' hf'
    have : f'.core ∈ n.factors.map NFactor.core := List.mem_map_of_mem hf'
    rw [hb.tables] at this
    obtain ⟨f, hf, e⟩ := List.mem_map.1 this
    exact ⟨f, hf, e.symm⟩
  have hfac' : ∀ {f}, f ∈ factors → ∃ f' ∈ n.factors, f'.core = f.core := by
    intro f hf
    have : f.core ∈ factors.map NFactor.core := List.mem_map_of_mem hf
    rw [← hb.tables] at this
    obtain ⟨f, hf, e⟩ := List.mem_map.1 this
    exact ⟨f, hf, e⟩
  have cfor : ∀ {f f' : NFactor α}, f'.core = f.core → f'.forVar = f.forVar :=
    fun {f f'} e => (congrArg NFactor.forVar e : f'.core.forVar = f.core.forVar)
  have cgiven : ∀ {f f' : NFactor α}, f'.core = f.core → f'.given = f.given := fun e => core_given e
  have ctable : ∀ {f f' : NFactor α}, f'.core = f.core → f'.table = f.table :=
    fun {f f'} e => (congrArg NFactor.table e : f'.core.table = f.core.table)
  have hinj : ∀ {u v : NVar}, u ∈ vars → v ∈ vars → u.name = v.name → u = v :=
    fun hu hv e => List.inj_on_of_nodup_map h.accepted.names hu hv e
  -- the name of the total-utility node
  have htotal : ∀ v ∈ vars, v.name = n.totalName ↔ IsTotal vars factors v := by
    intro v hv
    constructor
    · intro e
      by_contra hT
      unfold Net.totalName at e
      cases ht : n.totalUtility with
      | none => rw [ht] at e; exact h.named v hv e
      | some i =>
        rw [ht] at e
        dsimp only at e
        by_cases hex : ∃ u ∈ vars, IsTotal vars factors u
        · obtain ⟨u, hu, hU⟩ := hex
          obtain ⟨j, hj⟩ := List.getElem?_of_mem hu
          have := hb.total j u hj hU
          rw [ht] at this
          simp only [Option.some.injEq] at this
          subst this
          rw [hb.links, List.getElem?_map, hj] at e
          simp only [Option.map_some, linked_name, Option.getD_some] at e
          exact hT (hinj hv hu e ▸ hU)
        · have := hb.noTotal (fun u hu hU => hex ⟨u, hu, hU⟩)
          rw [ht] at this; cases this
    · intro hT
      obtain ⟨j, hj⟩ := List.getElem?_of_mem hv
      have := hb.total j v hj hT
      unfold Net.totalName
      rw [this, hb.links]
      simp [hj]
  have hkind : ∀ v ∈ vars, ∀ t, n.isKind t v.name = true ↔ v.nodeType = t := by
    intro v hv t
    rw [isKind_mem]
    constructor
    · rintro ⟨u', hu', h1, h2⟩
      obtain ⟨u, hu, rfl⟩ := hvar hu'
      rw [linked_name] at h1
      rw [linked_type] at h2
      rw [← hinj hu hv h1]; exact h2
    · intro e
      exact ⟨linked factors v, hvar' hv, by simp, by simpa using e⟩
  constructor
  · rw [hb.links, linked_names]; exact h.accepted.names
  · intro v' hv'
    obtain ⟨v, hv, rfl⟩ := hvar hv'
    rw [linked_name]; exact h.named v hv
  · rw [hb.links, List.length_map]; exact h.few
  · intro v' hv'
    obtain ⟨v, hv, rfl⟩ := hvar hv'
    rw [linked_outcomes]; exact h.outcomes v hv
  · have : n.factors.map NFactor.forVar = factors.map NFactor.forVar := by
      have h1 : ∀ l : List (NFactor α), l.map NFactor.forVar = (l.map NFactor.core).map NFactor.forVar := by
        intro l; rw [List.map_map]; rfl
      rw [h1, hb.tables, ← h1]
    rw [this]; exact h.tables
  · intro v' hv' ht
    obtain ⟨v, hv, rfl⟩ := hvar hv'
    rw [linked_type] at ht
    obtain ⟨f, hf, e⟩ := h.hasTable v hv ht
    obtain ⟨f', hf', e'⟩ := hfac' hf
    exact ⟨f', hf', by rw [cfor e', e, linked_name]⟩
  · intro f' hf'
    obtain ⟨f, hf, e⟩ := hfac hf'
    obtain ⟨v, hv, e'⟩ := h.known f hf
    exact ⟨linked factors v, hvar' hv, by rw [linked_name, e', cfor e]⟩
  · intro f' hf'
    obtain ⟨f, hf, e⟩ := hfac hf'
    unfold NFactor.dims
    rw [cfor e, cgiven e]; exact h.dims f hf
  · intro f' hf' ht g hg
    obtain ⟨f, hf, e⟩ := hfac hf'
    obtain ⟨v, hv, e'⟩ := h.known f hf
    rw [cfor e, ← e'] at ht
    rw [cgiven e] at hg
    have htab := tableFor_mem h hf e'.symm
    obtain ⟨u, hu, hun⟩ := h.accepted.parents v hv f htab g hg
    refine ⟨linked factors u, hvar' hu, by simpa using hun, ?_⟩
    rw [linked_type]
    intro huu
    have hg' : IsUtility vars g := ⟨u, hu, hun, huu⟩
    by_cases hvt : v.nodeType = .utility
    · obtain ⟨f₁, a1, a2, a3⟩ := h.accepted.utility v hv hvt
      rw [htab] at a1
      simp only [Option.some.injEq] at a1
      subst a1
      rcases a3 with a3 | a3
      · exact ht ((htotal v hv).2 ⟨hvt, f, htab, a2, a3⟩)
      · exact a3 g hg hg'
    · exact h.parents v hv hvt f hf e'.symm g hg hg'
  · intro f' hf' ht hd
    obtain ⟨f, hf, e⟩ := hfac hf'
    obtain ⟨v, hv, e'⟩ := h.known f hf
    rw [cfor e, ← e'] at ht hd
    have hnd : v.nodeType ≠ .decision := by
      intro h'
      rw [(hkind v hv _).2 h'] at hd; cases hd
    obtain ⟨t, h1, h2⟩ := h.size v hv hnd (fun hT => ht ((htotal v hv).2 hT)) f hf e'.symm
    refine ⟨t, by rw [ctable e]; exact h1, ?_⟩
    unfold NFactor.dims
    rw [cfor e, cgiven e, List.map_append, List.prod_append, h2]
    congr 1
    · congr 1
      exact List.map_congr_left (fun g _ => (hcount g).symm)
    · simp only [List.map_cons, List.map_nil, List.prod_cons, List.prod_nil, mul_one]
      rw [hcount, ← e']
      unfold outcomeCount
      cases hfd : vars.find? (fun u => u.name = v.name) with
      | none =>
        rw [List.find?_eq_none] at hfd
        exact absurd (hfd v hv) (by simp)
      | some u =>
        have h3 := List.mem_of_find?_eq_some hfd
        have h4 := List.find?_some hfd
        simp only [decide_eq_true_eq] at h4
        rw [hinj h3 hv h4]
        rfl
  · intro v' hv' hu ht
    obtain ⟨v, hv, rfl⟩ := hvar hv'
    rw [linked_type] at hu
    rw [linked_name] at ht
    rw [linked_outcomes]
    exact h.single v hv hu (fun hT => ht ((htotal v hv).2 hT))
  · intro i hi
    by_cases hex : ∃ u ∈ vars, IsTotal vars factors u
    swap
    · have := hb.noTotal (fun u hu hU => hex ⟨u, hu, hU⟩)
      rw [hi] at this; cases this
    obtain ⟨v, hv, hT⟩ := hex
    obtain ⟨j, hj⟩ := List.getElem?_of_mem hv
    have hij := hb.total j v hj hT
    rw [hi] at hij
    simp only [Option.some.injEq] at hij
    subst hij
    obtain ⟨hvu, f, hf, hne, hall⟩ := hT
    have hidx := find_findIdx (fun f => decide (f.forVar = v.name)) factors
    unfold tableFor at hf
    rw [hf] at hidx
    obtain ⟨k, hk, hfk⟩ := Option.bind_eq_some_iff.1 hidx.symm
    have hcore : (n.factors[k]?).map NFactor.core = some f.core := by
      rw [← List.getElem?_map, hb.tables, List.getElem?_map, hfk]; rfl
    obtain ⟨f', hf', e⟩ := Option.map_eq_some_iff.1 hcore
    have hffor : f.forVar = v.name := by simpa using List.find?_some hf
    obtain ⟨w1, w2⟩ := h.weights v hv ⟨hvu, f, hf, hne, hall⟩ f (List.mem_of_getElem? hfk) hffor
    refine ⟨linked factors v, k, f', by rw [hb.links, List.getElem?_map, hj]; rfl, by simpa using hvu, ?_, hf', ?_, ?_, ?_⟩
    · unfold linked; rw [hk]
    · rw [cfor e, hffor, linked_name]
    · rw [cgiven e]; unfold NFactor.tab; rw [ctable e]; exact w1
    · intro u' hu' h1 h2
      obtain ⟨u, hu, rfl⟩ := hvar hu'
      rw [linked_type] at h1
      rw [linked_name, linked_name] at h2
      rw [linked_name, cgiven e]
      exact w2 u hu h1 h2

instance (vars : List NVar) (g : String) : Decidable (IsUtility vars g) := by unfold IsUtility; infer_instance

instance (vars : List NVar) (factors : List (NFactor α)) (v : NVar) : Decidable (IsTotal vars factors v) :=
  decidable_of_iff (v.nodeType = .utility ∧ ∃ f ∈ (tableFor factors v).toList, f.given ≠ [] ∧
    ∀ g ∈ f.given, IsUtility vars g) (by unfold IsTotal; simp)

theorem Ex.umb_wellFormed : WellFormed Ex.umbVars Ex.umbTables where
  accepted := (C35_new_partial "umbrella" "" Ex.umbVars Ex.umbTables (by decide)).1.1 ⟨_, Ex.umb_new⟩
  named := by decide
  few := by decide
  outcomes := by decide
  tables := by decide
  hasTable := by decide
  known := by decide
  dims := by decide
  parents := by decide
  size := by
    have : ∀ v ∈ Ex.umbVars, v.nodeType ≠ .decision → ¬ IsTotal Ex.umbVars Ex.umbTables v →
        ∀ f ∈ Ex.umbTables, f.forVar = v.name → f.table.isSome ∧ f.tab.length =
          (f.given.map (fun g => (outcomeCount Ex.umbVars g).getD 0)).prod * v.outcomes.length := by decide
    intro v hv h1 h2 f hf h3
    obtain ⟨h4, h5⟩ := this v hv h1 h2 f hf h3
    obtain ⟨t, ht⟩ := Option.isSome_iff_exists.1 h4
    refine ⟨t, ht, ?_⟩
    rw [← h5]; simp [NFactor.tab, ht]
  single := by decide
  weights := by decide

example : ∃ n, newNet "umbrella" "" Ex.umbVars Ex.umbTables = .ok n ∧ n.Valid ∧ n.PoliciesOK :=
  C35_new_valid "umbrella" "" (by decide) Ex.umb_wellFormed

/-- A utility variable that depends on a utility and on a chance variable is rejected. -/
example : Errors (newNet "n" "" (Ex.umbVars ++ [Ex.nv "Mixed" .utility ["mixed"]])
    (Ex.umbTables ++ [Ex.nf "Mixed" ["Effort", "Weather"] [1, 2]])) := by
  apply (C35_new_partial "n" "" _ _ (by decide)).2 (by decide)
  intro h
  obtain ⟨f, h1, _, h3⟩ := h.utility (Ex.nv "Mixed" .utility ["mixed"]) (by decide) rfl
  have hf : f = Ex.nf "Mixed" ["Effort", "Weather"] [1, 2] := by
    have : tableFor (Ex.umbTables ++ [Ex.nf "Mixed" ["Effort", "Weather"] [1, 2]]) (Ex.nv "Mixed" .utility ["mixed"]) =
      some (Ex.nf "Mixed" ["Effort", "Weather"] [1, 2]) := rfl
    rw [this] at h1
    exact (Option.some.inj h1).symm
  subst hf
  revert h3
  decide

end Bbn
