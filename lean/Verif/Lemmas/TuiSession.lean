import Verif.Lemmas.NetStill
import Verif.Lemmas.NetPolicies

/-!
# What holds throughout a session
-/

set_option autoImplicit false

namespace Bbn

variable {α : Type}

section

variable [Zero α] [One α] [Add α] [Mul α] [Div α] [DecidableEq α]

/-- What a step does: it selects, or chooses the selected outcome, or solves with the other setting for policies, or
moves nodes; then it draws. -/
inductive Shape (sch : Nat → NSched α) (a b : App α) : Prop
  | select (i s : Int) (h : SameApp { a with selectedNode := i, selectedState := s } b)
  | choose (i s : Int) (c : App α) (hc : App.inputEnter sch { a with selectedNode := i, selectedState := s } = .ok c)
      (h : SameApp c b)
  | policies (r : Except Fault Unit) (c : App α)
      (hc : App.updateMarginals sch { a with ignorePolicies := !a.ignorePolicies } = (r, c)) (h : SameApp c b)
  | move (ns : List (TNode α)) (vs : List NVar) (g : Grid) (cs : List (List Color))
      (hns : ns.map (fun n => (n.var, n.factor)) = a.nodes.map (fun n => (n.var, n.factor)))
      (hvs : vs.map NVar.still = a.network.variables.map NVar.still)
      (h : SameApp { a with nodes := ns, network := { a.network with «variables» := vs }, canvas := g, colors := cs } b)

omit [Zero α] [One α] [Add α] [Mul α] [Div α] [DecidableEq α] in
theorem SameApp.refl (a : App α) : SameApp a a := ⟨rfl, rfl, rfl, rfl, rfl, rfl, rfl, rfl⟩

theorem step_shape {fm : Fmt α} {sch : Nat → NSched α} {a a' : App α} {e : Event} (h : a.step fm sch e = .ok a') :
    Shape sch a a' := by
  cases e with
  | tab =>
    rw [App.step] at h
    split_ifs at h
    exact .select _ _ (App.render_same h)
  | backtab =>
    rw [App.step] at h
    exact .select _ _ (App.render_same h)
  | space =>
    rw [App.step] at h
    obtain ⟨n, _, h⟩ := bind_inv h
    split_ifs at h
    exact .select a.selectedNode _ (App.render_same h)
  | digit c =>
    rw [App.step, App.selectNodeOutcome] at h
    cases hg : goAtoi (String.singleton c) with
    | none => rw [hg] at h; cases h
    | some i =>
      rw [hg] at h
      obtain ⟨n, _, h⟩ := bind_inv h
      split_ifs at h
      · exact .select a.selectedNode _ (App.render_same h)
      · cases h; exact .select a.selectedNode a.selectedState (.refl _)
  | enter =>
    rw [App.step] at h
    obtain ⟨b, hb, h⟩ := bind_inv h
    exact .choose a.selectedNode a.selectedState b hb (App.render_same h)
  | showTable =>
    rw [App.step] at h
    obtain ⟨_, _, h⟩ := bind_inv h
    obtain ⟨_, _, h⟩ := bind_inv h
    cases h
    exact .select a.selectedNode a.selectedState (.refl _)
  | togglePolicies =>
    rw [App.step, App.toggleIgnorePolicy] at h
    rcases hs : App.updateMarginals sch { a with ignorePolicies := !a.ignorePolicies } with ⟨r, b⟩
    rw [hs] at h
    match r, h with
    | .ok (), h => exact .policies _ b hs (App.render_same h)
    | .error (.error _), h => exact .policies _ b hs (App.render_same h)
  | move key =>
    rw [App.step] at h
    unfold App.moveNode at h
    obtain ⟨n, hn, h⟩ := bind_inv h
    obtain ⟨d, _, h⟩ := bind_inv h
    split_ifs at h
    · cases h; exact .select a.selectedNode a.selectedState (.refl _)
    · obtain ⟨v, hv, h⟩ := bind_inv h
      obtain ⟨ns, hns, h⟩ := bind_inv h
      obtain ⟨vs, hvs, h⟩ := bind_inv h
      obtain ⟨g, _, h⟩ := bind_inv h
      obtain ⟨_, _, rfl⟩ := goSetI_inv hns
      obtain ⟨_, _, rfl⟩ := goSetI_inv hvs
      refine .move _ _ _ _ ?_ ?_ (App.render_same h)
      · exact List.map_set_congr (goGetI_inv hn).2.2 _ rfl
      · exact List.map_set_congr (goGetI_inv hv).2.2 _ rfl
  | leftClick x y =>
    rw [App.step, App.leftClick] at h
    split at h
    · cases h; exact .select a.selectedNode a.selectedState (.refl _)
    · rename_i n i _
      obtain ⟨b, hb, h⟩ := bind_inv h
      cases ho : n.selectedOutcome x y with
      | some o =>
        rw [ho] at hb
        exact .choose _ _ b hb (App.render_same h)
      | none =>
        rw [ho] at hb; cases hb
        exact .select _ a.selectedState (App.render_same h)
  | rightClick x y =>
    rw [App.step, App.rightClick] at h
    split at h
    · cases h; exact .select a.selectedNode a.selectedState (.refl _)
    · obtain ⟨b, hb, h⟩ := bind_inv h
      obtain ⟨_, _, h⟩ := bind_inv h
      obtain ⟨_, _, h⟩ := bind_inv h
      cases h
      exact .select _ a.selectedState (App.render_same hb)

end

theorem withVs_names {β : Type} (n : Net α) (op : Vs → Except Fault (β × Vs)) : (n.withVs op).2.names = n.names := by
  unfold Net.withVs
  split
  · rfl
  · split <;> rfl

theorem queryLoop_names [Zero α] [Add α] [Div α] (f : Factor α) : ∀ (qs : List String) (result : List (String × List α))
    (n : Net α), (Net.queryLoop f qs result n).2.names = n.names := by
  intro qs
  induction qs with
  | nil => intro _ n; rfl
  | cons q qs ih =>
    intro r n
    rw [Net.queryLoop]
    have h1 : (n.marginal f q).2.names = n.names := by
      unfold Net.marginal
      split
      · rfl
      · exact withVs_names _ _
    rcases hm : n.marginal f q with ⟨e | m, n1⟩
    · rw [hm] at h1; exact h1
    · rw [hm] at h1
      dsimp only at h1 ⊢
      have h2 : (n1.normalize m).2.names = n1.names := by
        unfold Net.normalize
        exact withVs_names _ _
      rcases hg : n1.normalize m with ⟨e | g, n2⟩
      · rw [hg] at h2; exact h2.trans h1
      · rw [hg] at h2
        dsimp only at h2 ⊢
        rw [ih, h2, h1]

theorem Net.SameCore.nameTable {n m : Net α} (h : n.SameCore m) : m.nameTable = n.nameTable := by
  obtain ⟨vs, names, rfl⟩ := h
  have : ∀ (l : List NVar) (i : Nat), Net.solverVars { n with vs := vs, names := names } i l = n.solverVars i l := by
    intro l
    induction l with
    | nil => intro i; rfl
    | cons v l ih => intro i; rw [Net.solverVars, Net.solverVars, ih]; rfl
  unfold Net.nameTable
  rw [this]

theorem Net.SameCore.valid {n m : Net α} (h : n.SameCore m) (hn : n.Valid) : m.Valid := h.moved.valid.2 hn

theorem Net.SameCore.policiesOK {n m : Net α} (h : n.SameCore m) (hn : n.PoliciesOK) : m.PoliciesOK := h.moved.policiesOK.2 hn

/-- Calls keep the names or make them anew. -/
def Net.NamesRel (n m : Net α) : Prop :=
  n.SameCore m ∧ (n.Valid → n.PoliciesOK → m.names = n.names ∨ m.names = n.nameTable)

theorem namesRel [Field α] [DecidableEq α] : CallRel (Net.NamesRel (α := α)) where
  refl := fun n => ⟨.rfl, fun _ _ => .inl rfl⟩
  trans := by
    rintro a b c ⟨h1, h2⟩ ⟨k1, k2⟩
    refine ⟨h1.trans k1, fun hn hp => ?_⟩
    rcases k2 (h1.valid hn) (h1.policiesOK hp) with h | h
    · rw [h]; exact h2 hn hp
    · rw [h, h1.nameTable]; exact .inr rfl
  solve := by
    intro sch n evidence query utility u ign
    refine ⟨solve_core sch n evidence query utility u ign, fun hn hp => .inr ?_⟩
    obtain ⟨vs, fs, ps, deps, h1, hS⟩ := toVE_spec sch 0 hn hp (if ign then evidence else [])
    unfold Net.solve Net.enter
    rw [h1]
    dsimp only
    split <;> rfl
  loop := fun n f qs r => ⟨queryLoop_core f qs r n, fun _ _ => .inl (queryLoop_names f qs r n)⟩

theorem tuiSolve_names [Field α] [DecidableEq α] (sch : Nat → NSched α) {n : Net α} (hn : n.Valid) (hp : n.PoliciesOK)
    (hf : n.NamesFit) (evidence : List (String × String)) (nodes : List (TNode α)) (ign : Bool) :
    (tuiSolve sch n evidence nodes ign).2.NamesFit := by
  obtain ⟨h1, h2⟩ := namesRel.tuiSolve_rel sch n evidence nodes ign
  rcases h2 hn hp with h | h
  · obtain ⟨_, _, e⟩ := h1
    intro v hv ht
    rw [h]
    have hv' : v ∈ n.variables := by rw [e] at hv; exact hv
    have ht' : v.name ≠ n.totalName := by rw [e] at ht; exact ht
    exact hf v hv' ht'
  · exact namesFit_table (h1.valid hn) (by rw [h, h1.nameTable])

/-- What the app shows: posterior probabilities, expected utilities and (for the total-utility node) weighted expected
utilities, followed by the expected total. -/
structure Shows [Field α] [DecidableEq α] (N : Net α) (a : App α) : Prop where
  state : ∀ v ∈ N.stateVars, mapGet a.marginals v.name = some ((N.posterior a.evidence a.ignorePolicies v.name).map some)
  utility : ∀ u ∈ N.utilityVars, mapGet a.marginals u.name =
    some [some (N.expected a.evidence a.ignorePolicies u.name), some (N.expected a.evidence a.ignorePolicies "")]
  total : ∀ i, N.totalUtility = some i → ∀ f ∈ N.factors, f.forVar = N.totalName → mapGet a.marginals N.totalName =
    some (f.given.map (fun g => some (N.weight g * N.expected a.evidence a.ignorePolicies g)) ++
      [some (N.expected a.evidence a.ignorePolicies "")])
  keys : ∀ s, mapGet a.marginals s ≠ none → ∃ v ∈ N.variables, v.name = s

/-- The evidence chosen in the app has positive probability. -/
def Possible [Field α] [DecidableEq α] (N : Net α) (a : App α) : Prop :=
  N.mass (N.active a.evidence a.ignorePolicies) (N.Agrees a.evidence) ≠ 0

/-- What holds of the app at all times; `N` is the solved network. -/
structure App.Live [Field α] [DecidableEq α] (N : Net α) (a : App α) : Prop where
  moved : N.Moved a.network
  names : a.network.NamesFit
  nodes : NodesOf N a.nodes
  evidence : N.EvidenceOK a.evidence
  shows_ : Possible N a → Shows N a

theorem mem_of_still {l l' : List NVar} (h : l.map NVar.still = l'.map NVar.still) {v : NVar} (hv : v ∈ l) :
    ∃ u ∈ l', u.name = v.name ∧ u.outcomes = v.outcomes ∧ u.nodeType = v.nodeType := by
  have : v.still ∈ l'.map NVar.still := h ▸ List.mem_map_of_mem hv
  obtain ⟨u, hu, e⟩ := List.mem_map.1 this
  have e1 : u.still.name = v.still.name := by rw [e]
  have e2 : u.still.outcomes = v.still.outcomes := by rw [e]
  have e3 : u.still.nodeType = v.still.nodeType := by rw [e]
  exact ⟨u, hu, e1, e2, e3⟩

theorem NodesOf.moved {n m : Net α} {nodes : List (TNode α)} (h : n.Moved m) (hn : NodesOf n nodes) : NodesOf m nodes := by
  refine ⟨?_, ?_⟩
  · rw [hn.vars]
    have := congrArg (List.map (fun v : NVar => (v.name, v.nodeType))) h.vars
    rw [List.map_map, List.map_map] at this
    exact this.symm
  · rw [h.totalUtility, h.factors, h.totalName]; exact hn.total

theorem NodesOf.congr {n : Net α} {l l' : List (TNode α)}
    (h : l'.map (fun m => (m.var, m.factor)) = l.map (fun m => (m.var, m.factor))) (hn : NodesOf n l) : NodesOf n l' := by
  refine ⟨?_, ?_⟩
  · rw [← hn.vars]
    have := congrArg (List.map (fun p : NVar × Option (NFactor α) => (p.1.name, p.1.nodeType))) h
    rw [List.map_map, List.map_map] at this
    exact this
  · intro i hi m hm
    have e := congrArg (fun l => l[i]?) h
    simp only [List.getElem?_map, hm, Option.map_some] at e
    cases hx : l[i]? with
    | none => rw [hx] at e; simp at e
    | some x =>
      rw [hx] at e
      simp only [Option.map_some, Option.some.injEq, Prod.mk.injEq] at e
      rw [e.2]
      exact hn.total i hi x hx

/-- A network that is ready for the app. -/
structure Net.AppNet (N : Net α) : Prop where
  valid : N.Valid
  policies : N.PoliciesOK
  solved : N.AllSolved
  total : N.TotalOK

/-- Solving in the app. -/
theorem updateMarginals_live [Field α] [CharZero α] [DecidableEq α] (sch : Nat → NSched α) {N : Net α} (hN : N.AppNet)
    {a : App α} (h1 : N.Moved a.network) (h2 : a.network.NamesFit) (h3 : NodesOf N a.nodes) (h4 : N.EvidenceOK a.evidence) :
    (App.updateMarginals sch a).2.Live N ∧ (Possible N a → (App.updateMarginals sch a).1 = .ok ()) := by
  obtain ⟨n1, n2, n3, n4⟩ := hN
  have hv := h1.valid.2 n1
  have hp := h1.policiesOK.2 n2
  have hc := tuiSolve_core sch a.network a.evidence a.nodes a.ignorePolicies
  have hnm := tuiSolve_names sch hv hp h2 a.evidence a.nodes a.ignorePolicies
  have hspec := fun possible => tuiSolve_spec sch hv hp (h1.allSolved.2 n3) h2 (h1.totalOK.2 n4) ((h1.evidenceOK _).2 h4)
    a.ignorePolicies possible (h3.moved h1)
  unfold App.updateMarginals
  rcases ht : tuiSolve sch a.network a.evidence a.nodes a.ignorePolicies with ⟨e | r, n'⟩
  · rw [ht] at hc hnm
    refine ⟨⟨h1.trans hc.moved, hnm, h3, h4, fun hpos => ?_⟩, fun hpos => ?_⟩ <;>
    · obtain ⟨r, n', e1, _⟩ := hspec (by rw [h1.mass]; exact hpos)
      rw [ht] at e1; cases e1
  · rw [ht] at hc hnm
    refine ⟨⟨h1.trans hc.moved, hnm, h3, h4, fun hpos => ?_⟩, fun _ => rfl⟩
    obtain ⟨r', n'', e1, _, _, s1, s2, s3, s4⟩ := hspec (by rw [h1.mass]; exact hpos)
    rw [ht] at e1
    cases e1
    refine ⟨?_, ?_, ?_, ?_⟩
    · intro v hvm
      obtain ⟨u, hu, e1, _, _⟩ := mem_of_still h1.stateVars.symm hvm
      have := s1 u hu
      rw [h1.posterior, e1] at this
      exact this
    · intro v hvm
      obtain ⟨u, hu, e1, _, _⟩ := mem_of_still h1.utilityVars.symm hvm
      have := s2 u hu
      rw [h1.expected, h1.expected, e1] at this
      exact this
    · intro i hi f hf hft
      have := s3 i (h1.totalUtility.trans hi) f (h1.factors.symm ▸ hf) (hft.trans h1.totalName.symm)
      simp only [h1.totalName, h1.weight, h1.expected] at this
      exact this
    · intro s hs
      obtain ⟨v, hvm, e⟩ := s4 s hs
      obtain ⟨u, hu, e1, _, _⟩ := mem_of_still h1.vars hvm
      exact ⟨u, hu, e1.trans e⟩

theorem toggleEvidence_ok {N : Net α} {evidence : List (String × String)} (h : N.EvidenceOK evidence) {v : NVar}
    (hv : v ∈ N.variables) (ht : v.nodeType ≠ .utility) {o : String} (ho : o ∈ v.outcomes) :
    N.EvidenceOK (toggleEvidence evidence v.name o) := by
  have hset : N.EvidenceOK (mapSet evidence v.name o) := by
    refine ⟨mapSet_keys h.keys, fun e he => ?_⟩
    rcases mem_mapSet.1 he with h1 | h1
    · exact h.known e h1.1
    · rw [h1]; exact ⟨v, hv, rfl, ht, ho⟩
  unfold toggleEvidence
  split
  · split_ifs
    · exact ⟨h.keys.sublist (List.filter_sublist.map _), fun e he => h.known e (List.mem_filter.1 he).1⟩
    · exact hset
  · exact hset

theorem App.Live.same [Field α] [DecidableEq α] {N : Net α} {a b : App α} (h : a.Live N) (hs : SameApp a b) : b.Live N := by
  have e : (Possible N b ↔ Possible N a) := by unfold Possible; rw [hs.evidence, hs.ignorePolicies]
  refine ⟨by rw [hs.network]; exact h.moved, by rw [hs.network]; exact h.names, h.nodes.congr ?_, by rw [hs.evidence]; exact h.evidence, ?_⟩
  · have := congrArg (List.map (fun p : NVar × Option (NFactor α) × Bounds × Int => (p.1, p.2.1))) hs.nodes
    rw [List.map_map, List.map_map] at this
    exact this
  · intro hp
    obtain ⟨k1, k2, k3, k4⟩ := h.shows_ (e.1 hp)
    refine ⟨?_, ?_, ?_, ?_⟩
    · rw [hs.marginals, hs.evidence, hs.ignorePolicies]; exact k1
    · rw [hs.marginals, hs.evidence, hs.ignorePolicies]; exact k2
    · rw [hs.marginals, hs.evidence, hs.ignorePolicies]; exact k3
    · rw [hs.marginals]; exact k4

/-- Moving nodes. -/
theorem App.Live.relocate [Field α] [DecidableEq α] {N : Net α} {a : App α} (hl : a.Live N) {ns : List (TNode α)} {vs : List NVar}
    (hns : ns.map (fun n => (n.var, n.factor)) = a.nodes.map (fun n => (n.var, n.factor)))
    (hvs : vs.map NVar.still = a.network.variables.map NVar.still) (g : Grid) (cs : List (List Color)) :
    App.Live N { a with nodes := ns, network := { a.network with «variables» := vs }, canvas := g, colors := cs } := by
  have hmv : a.network.Moved { a.network with «variables» := vs } := by
    unfold Net.Moved Net.still
    simp only [hvs]
  refine ⟨hl.moved.trans hmv, ?_, hl.nodes.congr hns, hl.evidence, fun hp => ⟨(hl.shows_ hp).state, (hl.shows_ hp).utility,
    (hl.shows_ hp).total, (hl.shows_ hp).keys⟩⟩
  intro v hv ht
  obtain ⟨u, hu, e1, e2, _⟩ := mem_of_still hvs hv
  rw [hmv.totalName, ← e1] at ht
  obtain ⟨x, hx1, hx2⟩ := hl.names u hu ht
  exact ⟨x, by rw [← e1]; exact hx1, by rw [hx2, e2]⟩

/-- A session keeps all this. -/
theorem App.Live.step [Field α] [CharZero α] [DecidableEq α] {N : Net α} (hN : N.AppNet) {fm : Fmt α} {sch : Nat → NSched α}
    {a a' : App α} {e : Event} (hl : a.Live N) (hvars : ∀ m ∈ a.nodes, ∃ v ∈ N.variables, v.name = m.var.name ∧
      v.nodeType = m.var.nodeType ∧ v.outcomes = m.var.outcomes) (h : a.step fm sch e = .ok a') : a'.Live N := by
  have hsel : ∀ i s, App.Live N { a with selectedNode := i, selectedState := s } := fun i s =>
    ⟨hl.moved, hl.names, hl.nodes, hl.evidence, fun hp => ⟨(hl.shows_ hp).state, (hl.shows_ hp).utility, (hl.shows_ hp).total,
      (hl.shows_ hp).keys⟩⟩
  cases step_shape h with
  | select i s hs => exact (hsel i s).same hs
  | choose i s c hc hs =>
    refine App.Live.same ?_ hs
    obtain ⟨n, hn, _, _, _, _, _, _, hcase⟩ := inputEnter_inv hc
    rcases hcase with ⟨_, rfl⟩ | ⟨hu, v, hv, hm, _⟩
    · exact hsel i s
    · obtain ⟨x, hx, e1, e2, e3⟩ := hvars n (List.mem_of_getElem? (goGetI_inv hn).2.2)
      have hok := toggleEvidence_ok hl.evidence hx (by rw [e2]; exact hu) (o := v)
        (by rw [e3]; exact List.mem_of_getElem? (goGetI_inv hv).2.2)
      rw [e1] at hok
      have := (updateMarginals_live sch hN (a := { a with
        selectedNode := i, selectedState := s, evidence := toggleEvidence a.evidence n.var.name v })
        hl.moved hl.names hl.nodes hok).1
      rw [show App.updateMarginals sch { a with
        selectedNode := i, selectedState := s, evidence := toggleEvidence a.evidence n.var.name v } = (.ok (), c) from hm] at this
      exact this
  | policies r c hc hs =>
    refine App.Live.same ?_ hs
    have := (updateMarginals_live sch hN (a := { a with ignorePolicies := !a.ignorePolicies })
      hl.moved hl.names hl.nodes hl.evidence).1
    rw [hc] at this
    exact this
  | move ns vs g cs hns hvs hs =>
    exact (hl.relocate hns hvs g cs).same hs

end Bbn
