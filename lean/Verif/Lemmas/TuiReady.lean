import Verif.Lemmas.TuiSession
import Verif.Props.TuiTable

/-!
# Starting the app
-/

set_option autoImplicit false

namespace Bbn

variable {α : Type}

/-- What a network needs for the app's numbers. `New` links the variables to their tables and checks the total-utility
node. -/
structure AppReady (n : Net α) : Prop where
  valid : n.Valid
  solvable : (∃ s, n.isKind .decision s = true) → n.Feasible
  total : n.TotalOK
  linked : ∀ v ∈ n.variables, v.nodeType ≠ .decision → ∃ j f, v.factor = some j ∧ n.factors[j]? = some f ∧ f.forVar = v.name

theorem with_totalOK (n : Net α) (vs : Option Vs) (names : List (String × NVar × Var)) (ps : List (String × Factor α))
    (h : n.TotalOK) : Net.TotalOK { n with vs := vs, names := names, policies := ps } := h

/-- Solving the policies of such a network. -/
theorem AppReady.solve [Field α] [LinearOrder α] [IsStrictOrderedRing α] {n : Net α} (hr : AppReady n) (sch : NSched α) :
    ∃ tables N, n.solvePolicies sch true = (.ok tables, N) ∧ (tables.map Prod.fst).Nodup ∧
      (∀ s, s ∈ tables.map Prod.fst ↔ n.isKind .decision s = true) ∧ (∀ t ∈ tables, n.PolicyTable t.1 t.2) ∧
      N.AppNet ∧ N.NamesFit ∧ N.PoliciesSolved ∧ ∃ vs names ps, N = { n with vs := vs, names := names, policies := ps } := by
  obtain ⟨ts, N, h1, h2, h3, h4, h5, h6, ⟨vs, names, ps, h7⟩, h8, ⟨_, _, _, h9⟩, _⟩ := solvePolicies_net sch hr.valid hr.solvable true
  refine ⟨ts, N, h1, h2, h3, h4, ⟨h5, h6.toPoliciesOK, ?_, ?_⟩, ?_, h6, vs, names, ps, h7⟩
  · intro v hv hd
    have hv' : v ∈ n.variables := by rw [h7] at hv; exact hv
    have : v.name ∈ N.policies.map Prod.fst := h8.symm.subset ((h3 v.name).2 ((isKind_iff hr.valid hv' _).2 hd))
    unfold Net.hasPolicy
    exact mapGet_isSome.2 this
  · rw [h7]; exact hr.total
  · intro v hv ht
    obtain ⟨i, hi⟩ := List.getElem?_of_mem hv
    obtain ⟨w, hw, _⟩ := h9.names i v hi (fun e => ht ((totalName_iff h5 hi).2 e))
    exact ⟨_, hw, rfl⟩

theorem Indexed.unique {nodes : List (TNode α)} {byName : List (String × Nat)} (h : Indexed nodes byName) {i j : Nat} {m k : TNode α}
    (hi : nodes[i]? = some m) (hj : nodes[j]? = some k) (e : m.var.name = k.var.name) : i = j := by
  have h1 := h i m hi
  rw [e, h j k hj] at h1
  exact (Option.some.inj h1).symm

/-- The nodes with the policies in place of the tables. -/
theorem usePolicies_map {byName : List (String × Nat)} : ∀ (policies : List (String × NFactor α)) (nodes : List (TNode α)),
    Indexed nodes byName → (policies.map Prod.fst).Nodup → (∀ p ∈ policies, ∃ m ∈ nodes, m.var.name = p.1) →
    usePolicies byName policies nodes = .ok (nodes.map (fun m =>
      { m with factor := (mapGet policies m.var.name).orElse (fun _ => m.factor) })) := by
  intro policies
  induction policies with
  | nil =>
    intro nodes _ _ _
    unfold usePolicies
    rw [List.foldlM_nil]
    have : nodes.map (fun m => { m with factor := (mapGet ([] : List (String × NFactor α)) m.var.name).orElse (fun _ => m.factor) }) =
        nodes := by
      conv_rhs => rw [← List.map_id nodes]
      apply List.map_congr_left
      intro m _
      cases m
      rfl
    rw [this]; rfl
  | cons p l ih =>
    intro nodes hidx hnd hk
    obtain ⟨m, hm, hname⟩ := hk p List.mem_cons_self
    obtain ⟨i, hi⟩ := List.getElem?_of_mem hm
    have hint : intGet byName p.1 = i := by rw [← hname]; unfold intGet; rw [hidx i m hi]; rfl
    obtain ⟨hlt, _⟩ := List.getElem?_eq_some_iff.1 hi
    have hset : nodes.set i { m with factor := some p.2 } =
        nodes.map (fun k => if k.var.name = p.1 then { k with factor := some p.2 } else k) := by
      apply List.ext_getElem?
      intro j
      rw [List.getElem?_set, List.getElem?_map]
      by_cases hj : i = j
      · subst hj
        rw [if_pos rfl, if_pos hlt, hi]
        simp [hname]
      · rw [if_neg hj]
        cases hx : nodes[j]? with
        | none => rfl
        | some k =>
          have : k.var.name ≠ p.1 := fun e => hj (hidx.unique hi hx (by rw [hname, e]))
          simp [this]
    have hnd' := List.nodup_cons.1 (by simpa using hnd : (p.1 :: l.map Prod.fst).Nodup)
    have hidx' : Indexed (nodes.map (fun k => if k.var.name = p.1 then { k with factor := some p.2 } else k)) byName := by
      intro j k hj
      rw [List.getElem?_map] at hj
      cases hx : nodes[j]? with
      | none => rw [hx] at hj; simp at hj
      | some x =>
        rw [hx] at hj
        simp only [Option.map_some, Option.some.injEq] at hj
        have : k.var = x.var := by rw [← hj]; split_ifs <;> rfl
        rw [this]
        exact hidx j x hx
    have hrec := ih (nodes.map (fun k => if k.var.name = p.1 then { k with factor := some p.2 } else k)) hidx' hnd'.2 (by
      intro q hq
      obtain ⟨k, hk1, hk2⟩ := hk q (List.mem_cons_of_mem _ hq)
      refine ⟨_, List.mem_map_of_mem hk1, ?_⟩
      split_ifs <;> exact hk2)
    have hstep : usePolicies byName (p :: l) nodes =
        usePolicies byName l (nodes.map (fun k => if k.var.name = p.1 then { k with factor := some p.2 } else k)) := by
      unfold usePolicies
      rw [List.foldlM_cons, hint, goGet_eq.2 hi, ok_bind]
      have : goSet nodes i { m with factor := some p.2 } = .ok (nodes.set i { m with factor := some p.2 }) := by
        unfold goSet; rw [if_pos hlt]
      rw [this, ok_bind, hset]
    rw [hstep, hrec, List.map_map]
    congr 1
    apply List.map_congr_left
    intro k _
    simp only [Function.comp]
    by_cases hk1 : k.var.name = p.1
    · rw [if_pos hk1]
      have h1 : mapGet l p.1 = none := mapGet_none.2 hnd'.1
      have h2 : mapGet (p :: l) p.1 = some p.2 := by simp [mapGet]
      dsimp only
      rw [hk1, h1, h2]
      rfl
    · rw [if_neg hk1]
      have h2 : mapGet (p :: l) k.var.name = mapGet l k.var.name := by
        simp [mapGet, Ne.symm hk1]
      rw [h2]

/-- The nodes before solving. -/
theorem appNodes_indexed {n : Net α} (hn : n.Valid) {nodes : List (TNode α)} (h : nodes.map TNode.var = n.variables) :
    Indexed nodes (nodes.zipIdx.foldl (fun m p => mapSet m p.1.var.name p.2) []) := by
  intro i m hm
  have := (byName_indexed nodes 0 [] (by
    have e : nodes.map (fun n => n.var.name) = n.variables.map NVar.name := by rw [← h, List.map_map]; rfl
    rw [e]; exact hn.names)).1 i m hm
  simpa using this

theorem appNodes_factor {n : Net α} {nodes : List (TNode α)} (h : appNodes n = .ok nodes) {i : Nat} {m : TNode α}
    (hm : nodes[i]? = some m) : ∃ v, n.variables[i]? = some v ∧ m.var = v ∧ m.factor = v.factor.bind (fun p => n.factors[p]?) := by
  have hall := mapM_forall₂ h
  clear h
  generalize n.variables = vs at hall
  induction hall generalizing i with
  | nil => simp at hm
  | cons hx _ ih =>
    cases i with
    | zero =>
      simp only [List.getElem?_cons_zero, Option.some.injEq] at hm
      subst hm
      obtain ⟨e1, e2, _⟩ := newNode_inv hx
      exact ⟨_, rfl, e1, e2⟩
    | succ i =>
      rw [List.getElem?_cons_succ] at hm ⊢
      exact ih hm

/-- The nodes of the app fit the solved network. -/
theorem started_nodes [Field α] [LinearOrder α] [IsStrictOrderedRing α] {n : Net α} (hr : AppReady n) {sch : NSched α}
    {nodes ns : List (TNode α)} (h1 : appNodes n = .ok nodes) {policies : List (String × NFactor α)}
    (h2 : (n.solvePolicies sch true).1 = .ok policies)
    (h3 : usePolicies (nodes.zipIdx.foldl (fun m p => mapSet m p.1.var.name p.2) []) policies nodes = .ok ns) :
    NodesOf (n.solvePolicies sch true).2 ns ∧ ns.map TNode.var = n.variables ∧
      ∀ m ∈ ns, ∃ f, m.factor = some f ∧ f.forVar = m.var.name ∧ (∀ g ∈ f.given, ∃ v ∈ n.variables, v.name = g) ∧
        (m.var.nodeType = .decision → (m.var.name, f) ∈ policies) ∧ (m.var.nodeType ≠ .decision → f ∈ n.factors) := by
  obtain ⟨tables, N, k1, k2, k3, kt, k4, k5, k6, vs, names, ps, k7⟩ := hr.solve sch
  rw [k1] at h2 ⊢
  have e := Except.ok.inj h2
  subst e
  obtain ⟨n1, _⟩ := appNodes_spec h1
  have hidx := appNodes_indexed hr.valid n1
  rw [usePolicies_map _ nodes hidx k2 (by
    intro p hp
    obtain ⟨v, hv, e, _⟩ := isKind_mem.1 ((k3 p.1).1 (List.mem_map_of_mem hp))
    rw [← n1] at hv
    obtain ⟨m, hm, rfl⟩ := List.mem_map.1 hv
    exact ⟨m, hm, e⟩)] at h3
  cases h3
  have hvars : (nodes.map (fun m => { m with factor := (mapGet tables m.var.name).orElse (fun _ => m.factor) })).map TNode.var =
      n.variables := by
    rw [List.map_map, ← n1]; rfl
  have hget : ∀ (i : Nat) (m' : TNode α), (nodes.map (fun m => { m with
      factor := (mapGet tables m.var.name).orElse (fun _ => m.factor) }))[i]? = some m' →
      ∃ v : NVar, n.variables[i]? = some v ∧ m'.var = v ∧
        m'.factor = (mapGet tables v.name).orElse (fun _ => v.factor.bind (fun p => n.factors[p]?)) := by
    intro i m' hm
    rw [List.getElem?_map] at hm
    cases hx : nodes[i]? with
    | none => rw [hx] at hm; simp at hm
    | some x =>
      rw [hx] at hm
      simp only [Option.map_some, Option.some.injEq] at hm
      obtain ⟨v, hv, e1, e2⟩ := appNodes_factor h1 hx
      refine ⟨v, hv, by rw [← hm]; exact e1, ?_⟩
      rw [← hm]
      dsimp only
      rw [e1, e2]
  have hNv : N.variables = n.variables := by rw [k7]
  refine ⟨⟨?_, ?_⟩, hvars, ?_⟩
  · rw [hNv, ← hvars]
    simp only [List.map_map]
    rfl
  · intro i hi m hm
    obtain ⟨v, hv, e1, e2⟩ := hget i m hm
    have hi' : n.totalUtility = some i := by rw [k7] at hi; exact hi
    obtain ⟨v', j, f, w1, w2, w3, w4, w5, w6, w7⟩ := hr.valid.weights i hi'
    rw [hv] at w1; cases w1
    refine ⟨f, by rw [k7]; exact List.mem_of_getElem? w4, ?_, ?_⟩
    · rw [w5, Net.totalName_eq (n := N) hi (by rw [hNv]; exact hv)]
    · rw [e2, w3]
      have : mapGet tables v.name = none := by
        rw [mapGet_none, k3]
        rw [isKind_iff hr.valid (List.mem_of_getElem? hv)]
        rw [w2]; decide
      rw [this]
      exact w4
  · intro m hm
    obtain ⟨i, hi⟩ := List.getElem?_of_mem hm
    obtain ⟨v, hv, e1, e2⟩ := hget i m hi
    have hvm := List.mem_of_getElem? hv
    cases ht : mapGet tables v.name with
    | some f =>
      rw [ht] at e2
      have hp := kt _ (mapGet_some ht)
      refine ⟨f, e2, by rw [e1]; exact hp.forVar, ?_, fun _ => by rw [e1]; exact mapGet_some ht, fun hd => ?_⟩
      swap
      · rw [e1, Ne, ← isKind_iff hr.valid hvm] at hd
        exact absurd hp.decision hd
      intro g hg
      rcases hp.parents g hg with h | h <;>
      · obtain ⟨u, hu, e, _⟩ := isKind_mem.1 h
        exact ⟨u, hu, e⟩
    | none =>
      rw [ht] at e2
      have hd : v.nodeType ≠ .decision := by
        intro hd
        rw [mapGet_none, k3] at ht
        exact ht ((isKind_iff hr.valid hvm _).2 hd)
      obtain ⟨j, f, a1, a2, a3⟩ := hr.linked v hvm hd
      rw [a1] at e2
      have hf := List.mem_of_getElem? a2
      refine ⟨f, e2.trans a2, by rw [e1]; exact a3, ?_, fun h => absurd (e1 ▸ h) hd, fun _ => hf⟩
      intro g hg
      by_cases hft : f.forVar = n.totalName
      · cases htu : n.totalUtility with
        | none =>
          have : n.totalName = "" := by unfold Net.totalName; rw [htu]
          obtain ⟨x, hx, e⟩ := hr.valid.known f hf
          exact absurd (e.trans (hft.trans this)) (hr.valid.named x hx)
        | some i =>
          obtain ⟨u, hu, e⟩ := (hr.total i htu f hf hft).2.2 g hg
          exact ⟨u, (List.mem_filter.1 hu).1, e⟩
      · obtain ⟨u, hu, e, _⟩ := hr.valid.parents f hf hft g hg
        exact ⟨u, hu, e⟩

/-- The app when it starts. -/
theorem startApp_live [Field α] [LinearOrder α] [IsStrictOrderedRing α] {n : Net α} (hr : AppReady n) {fm : Fmt α}
    {sch0 : NSched α} {sch : Nat → NSched α} {evidence : List (String × String)} (hev : n.EvidenceOK evidence) {a : App α}
    (h : startApp fm sch0 sch n evidence = .ok a) : a.Live (n.solvePolicies sch0 true).2 := by
  obtain ⟨tables, N, k1, k2, k3, kt, k4, k5, k6, vs, names, ps, k7⟩ := hr.solve sch0
  unfold startApp at h
  obtain ⟨nodes, h1, h⟩ := bind_inv h
  dsimp only at h
  obtain ⟨policies, h2, h⟩ := bind_inv h
  obtain ⟨ns, h3, h⟩ := bind_inv h
  obtain ⟨hnodes, _⟩ := started_nodes hr h1 h2 h3
  rw [k1] at h hnodes ⊢
  dsimp only at h hnodes ⊢
  have hl := (updateMarginals_live sch k4 (a := ⟨ns, nodes.zipIdx.foldl (fun m p => mapSet m p.1.var.name p.2) [], N, evidence, [],
    0, 0, false, [], [], ""⟩) (.refl N) k5 hnodes (by rw [k7]; exact ⟨hev.keys, hev.known⟩)).1
  rcases hm : App.updateMarginals sch (⟨ns, nodes.zipIdx.foldl (fun m p => mapSet m p.1.var.name p.2) [], N, evidence, [],
    0, 0, false, [], [], ""⟩ : App α) with ⟨e | u, b⟩
  · rw [hm] at h; cases h
  rw [hm] at h hl
  dsimp only at h hl
  obtain ⟨g, hg, h⟩ := bind_inv h
  refine App.Live.same (a := { b with canvas := g, colors := createColors g }) ?_ (App.render_same h)
  exact ⟨hl.moved, hl.names, hl.nodes, hl.evidence, fun hp => ⟨(hl.shows_ hp).state, (hl.shows_ hp).utility, (hl.shows_ hp).total,
      (hl.shows_ hp).keys⟩⟩

/-- The nodes' tables when the app starts. -/
theorem startApp_tables [Field α] [LinearOrder α] [IsStrictOrderedRing α] {n : Net α} (hr : AppReady n) {fm : Fmt α}
    {sch0 : NSched α} {sch : Nat → NSched α} {evidence : List (String × String)} {a : App α}
    (h : startApp fm sch0 sch n evidence = .ok a) : ∃ policies, (n.solvePolicies sch0 true).1 = .ok policies ∧
      ∀ m ∈ a.nodes, ∃ f, m.factor = some f ∧ f.forVar = m.var.name ∧ (∀ g ∈ f.given, ∃ v ∈ n.variables, v.name = g) ∧
        (m.var.nodeType = .decision → (m.var.name, f) ∈ policies) ∧ (m.var.nodeType ≠ .decision → f ∈ n.factors) := by
  unfold startApp at h
  obtain ⟨nodes, h1, h⟩ := bind_inv h
  dsimp only at h
  obtain ⟨policies, h2, h⟩ := bind_inv h
  obtain ⟨ns, h3, h⟩ := bind_inv h
  obtain ⟨_, _, hfac⟩ := started_nodes hr h1 h2 h3
  obtain ⟨u1, _⟩ := updateMarginals_same (sch := sch) (⟨ns, nodes.zipIdx.foldl (fun m p => mapSet m p.1.var.name p.2) [],
    (n.solvePolicies sch0 true).2, evidence, [], 0, 0, false, [], [], ""⟩ : App α)
  rcases hm : App.updateMarginals sch (⟨ns, nodes.zipIdx.foldl (fun m p => mapSet m p.1.var.name p.2) [],
    (n.solvePolicies sch0 true).2, evidence, [], 0, 0, false, [], [], ""⟩ : App α) with ⟨e | u, b⟩
  · rw [hm] at h; cases h
  rw [hm] at h u1
  dsimp only at h u1
  obtain ⟨g, hg, h⟩ := bind_inv h
  have hs := App.render_same h
  refine ⟨policies, h2, ?_⟩
  intro m hm'
  have : (m.var, m.factor, m.bounds, m.barsX) ∈ a.nodes.map (fun n => (n.var, n.factor, n.bounds, n.barsX)) :=
    List.mem_map_of_mem hm'
  rw [hs.nodes] at this
  obtain ⟨x, hx, e⟩ := List.mem_map.1 this
  simp only [Prod.mk.injEq] at e
  rw [← e.1, ← e.2.1]
  dsimp only at hx
  rw [u1] at hx
  exact hfac x hx

/-- Every node has a table for its own variable. -/
theorem startApp_factor [Field α] [LinearOrder α] [IsStrictOrderedRing α] {n : Net α} (hr : AppReady n) {fm : Fmt α}
    {sch0 : NSched α} {sch : Nat → NSched α} {evidence : List (String × String)} {a : App α}
    (h : startApp fm sch0 sch n evidence = .ok a) : ∀ m ∈ a.nodes, ∃ f, m.factor = some f ∧ f.forVar = m.var.name := by
  obtain ⟨_, _, hf⟩ := startApp_tables hr h
  intro m hm
  obtain ⟨f, h1, h2, _⟩ := hf m hm
  exact ⟨f, h1, h2⟩

/-- The app throughout a session. -/
theorem run_live [Field α] [LinearOrder α] [IsStrictOrderedRing α] {n : Net α} (hr : AppReady n) {fm : Fmt α}
    {sch0 : NSched α} {sch1 : Nat → NSched α} {sch : Nat → Nat → NSched α} {evidence : List (String × String)}
    (hev : n.EvidenceOK evidence) {a0 a : App α} (h0 : startApp fm sch0 sch1 n evidence = .ok a0) {es : List Event} {k : Nat}
    (h : App.run fm sch k es a0 = .ok a) : a.Live (n.solvePolicies sch0 true).2 := by
  have hstart := startApp_live hr hev h0
  obtain ⟨hst, _⟩ := startApp_inv h0
  obtain ⟨tables, N, k1, _, _, _, k4, _, _, _, _, _, k7⟩ := hr.solve sch0
  rw [k1] at hstart ⊢
  dsimp only at hstart ⊢
  have hNv : N.variables = n.variables := by rw [k7]
  refine (run_keep (fun b => b.Live N ∧ b.nodes.map TNode.var = n.variables) ?_ es k a0 a h ⟨hstart, hst.vars⟩).1
  rintro k b e b' ⟨hb, hv⟩ hs
  have hv' : b'.nodes.map TNode.var = b.nodes.map TNode.var := by
    have := congrArg (List.map (fun p => p.1)) (step_vars hs).1
    rw [List.map_map, List.map_map] at this
    exact this
  refine ⟨hb.step k4 (fun m hm => ⟨m.var, ?_, rfl, rfl, rfl⟩) hs, hv'.trans hv⟩
  rw [hNv, ← hv]
  exact List.mem_map_of_mem hm

end Bbn
