import Verif.Lemmas.TuiStart
import Verif.Props.TuiTable

/-!
# Sessions with the terminal app: C70, C71
-/

set_option autoImplicit false

namespace Bbn

variable {α : Type}

section

variable [Zero α] [One α] [Add α] [Mul α] [Div α] [DecidableEq α]

/-! ## C71: evidence -/

/-- Looking up the evidence after a toggle. -/
theorem toggleEvidence_get (evidence : List (String × String)) (name value k : String) :
    mapGet (toggleEvidence evidence name value) k =
      if k = name then (if mapGet evidence name = some value then none else some value) else mapGet evidence k := by
  have hfilter : mapGet (evidence.filter (fun e => e.1 ≠ name)) k = if k = name then none else mapGet evidence k := by
    induction evidence with
    | nil => simp [mapGet]
    | cons e l ih =>
      rw [List.filter_cons]
      by_cases h1 : e.1 = name
      · rw [if_neg (by simpa using h1), ih]
        by_cases h2 : k = name
        · rw [if_pos h2, if_pos h2]
        · rw [if_neg h2, if_neg h2]
          have : e.1 ≠ k := fun h => h2 (h.symm.trans h1)
          simp [mapGet, this]
      · rw [if_pos (by simpa using h1)]
        by_cases h2 : e.1 = k
        · have : k ≠ name := fun h => h1 (h2.trans h)
          rw [if_neg this]
          simp [mapGet, h2]
        · have e1 : ∀ l' : List (String × String), mapGet (e :: l') k = mapGet l' k := by
            intro l'
            simp [mapGet, h2]
          rw [e1, e1, ih]
  unfold toggleEvidence
  cases hg : mapGet evidence name with
  | none =>
    dsimp only
    rw [mapGet_mapSet, if_neg (show ¬ (none : Option String) = some value by simp)]
  | some old =>
    dsimp only
    by_cases ho : old = value
    · subst ho
      rw [if_pos rfl, hfilter, if_pos rfl]
    · rw [if_neg ho, mapGet_mapSet, if_neg (show ¬ some old = some value by simpa using ho)]

/-- **C71.** Enter: for a chance or decision node, the selected outcome becomes evidence, replacing other evidence for
the node, or is taken back if it was evidence. -/
theorem C71_enter {fm : Fmt α} {sch : Nat → NSched α} {a a' : App α} (h : a.step fm sch .enter = .ok a') {i s : Nat}
    (hi : a.selectedNode = i) (hs : a.selectedState = s) {n : TNode α} (hn : a.nodes[i]? = some n)
    (hu : n.var.nodeType ≠ .utility) {o : String} (ho : n.var.outcomes[s]? = some o) :
    mapGet a'.evidence = chosen (mapGet a.evidence) n.var.name o := by
  rw [App.step] at h
  obtain ⟨b, hb, h⟩ := bind_inv h
  rw [(App.render_same h).evidence]
  obtain ⟨m, hm, _, _, _, _, _, _, hc⟩ := inputEnter_inv hb
  rw [hi, goGetI_nat, goGet_eq, hn] at hm
  cases hm
  rcases hc with ⟨h1, _⟩ | ⟨_, v, hv, _, he⟩
  · exact absurd h1 hu
  · rw [hs, goGetI_nat, goGet_eq, ho] at hv
    cases hv
    rw [he]
    funext k
    exact toggleEvidence_get a.evidence n.var.name o k

/-- **C71.** Choosing the same outcome twice restores the evidence of a node that had none. -/
theorem C71_twice {fm : Fmt α} {sch sch' : Nat → NSched α} {a a' a'' : App α} (h : a.step fm sch .enter = .ok a')
    (h' : a'.step fm sch' .enter = .ok a'') {i s : Nat} (hi : a.selectedNode = i) (hs : a.selectedState = s)
    {n : TNode α} (hn : a.nodes[i]? = some n) (hu : n.var.nodeType ≠ .utility) {o : String}
    (ho : n.var.outcomes[s]? = some o) (hnone : mapGet a.evidence n.var.name = none) :
    mapGet a'.evidence n.var.name = some o ∧ mapGet a''.evidence = mapGet a.evidence := by
  have e1 := C71_enter h hi hs hn hu ho
  have hb := h
  rw [App.step] at hb
  obtain ⟨b, hb, hr⟩ := bind_inv hb
  have hsame := App.render_same hr
  obtain ⟨_, _, _, _, h3, h4, _⟩ := inputEnter_inv hb
  have hv := (step_vars h).1
  obtain ⟨n', hn', hvar⟩ : ∃ n', a'.nodes[i]? = some n' ∧ n'.var = n.var := by
    have := congrArg (fun l => l[i]?) hv
    simp only [List.getElem?_map, hn, Option.map_some] at this
    cases hx : a'.nodes[i]? with
    | none => rw [hx] at this; simp at this
    | some n' =>
      rw [hx] at this
      simp only [Option.map_some, Option.some.injEq, Prod.mk.injEq] at this
      exact ⟨n', rfl, this.1⟩
  have e2 := C71_enter h' (i := i) (s := s) (by rw [hsame.selectedNode, h3, hi]) (by rw [hsame.selectedState, h4, hs]) hn'
    (by rw [hvar]; exact hu) (o := o) (by rw [hvar]; exact ho)
  rw [hvar] at e2
  have hset : mapGet a'.evidence n.var.name = some o := by
    rw [e1]
    simp [chosen, hnone]
  refine ⟨hset, ?_⟩
  rw [e2]
  funext k
  unfold chosen
  rw [if_pos hset, e1]
  unfold chosen
  by_cases hk : k = n.var.name
  · rw [if_pos hk, hk, hnone]
  · rw [if_neg hk, if_neg hk]

/-- **C71 (clicks).** A left click on the line of an outcome of a chance or decision node (the first node at that place)
chooses the outcome. -/
theorem C71_click {fm : Fmt α} {sch : Nat → NSched α} {a a' : App α} {x y : Int}
    (h : a.step fm sch (.leftClick x y) = .ok a') {i s : Nat} {n : TNode α} (hn : a.nodes[i]? = some n)
    (hc : (x, y) ∈ n.bounds.cells) (hfirst : ∀ j < i, ∀ m, a.nodes[j]? = some m → (x, y) ∉ m.bounds.cells)
    (hu : n.var.nodeType ≠ .utility) {o : String} (ho : n.var.outcomes[s]? = some o) (hy : y = n.bounds.y + 2 + s) :
    mapGet a'.evidence = chosen (mapGet a.evidence) n.var.name o ∧ a'.selectedNode = i ∧ a'.selectedState = s := by
  obtain ⟨hlt, _⟩ := List.getElem?_eq_some_iff.1 ho
  have hfind : a.nodes.zipIdx.find? (fun p => p.1.bounds.contains x y) = some (n, i) := by
    rw [List.find?_eq_some_iff_getElem]
    obtain ⟨hil, hie⟩ := List.getElem?_eq_some_iff.1 hn
    refine ⟨(C67_contains _ _ _).2 hc, i, by rw [List.length_zipIdx]; exact hil, ?_, ?_⟩
    · rw [List.getElem_zipIdx, hie]
      simp
    · intro j hj
      rw [List.getElem_zipIdx]
      have := hfirst j hj a.nodes[j] (List.getElem?_eq_getElem (by omega))
      simp only [Bool.not_eq_true']
      rw [← Bool.not_eq_true]
      exact fun hq => this ((C67_contains _ _ _).1 hq)
  have hout : n.selectedOutcome x y = some s := by
    unfold TNode.selectedOutcome
    rw [if_pos ((C67_contains _ _ _).2 hc), List.find?_range_eq_some]
    refine ⟨by simp; omega, by simpa using hlt, ?_⟩
    intro j hj
    simp
    omega
  rw [App.step, App.leftClick, hfind] at h
  dsimp only at h
  rw [hout] at h
  obtain ⟨b, hb, h⟩ := bind_inv h
  have hsame := App.render_same h
  rw [hsame.evidence, hsame.selectedNode, hsame.selectedState]
  obtain ⟨m, hm, _, _, h3, h4, _, _, hcase⟩ := inputEnter_inv hb
  dsimp only at hm h3 h4 hcase
  rw [goGetI_nat, goGet_eq, hn] at hm
  cases hm
  refine ⟨?_, h3, h4⟩
  rcases hcase with ⟨h1, _⟩ | ⟨_, v, hv, _, he⟩
  · exact absurd h1 hu
  · rw [goGetI_nat, goGet_eq, ho] at hv
    cases hv
    rw [he]
    funext k
    exact toggleEvidence_get a.evidence n.var.name o k

/-- How a step changes the evidence: not at all, or one node that is no utility node is concerned. -/
theorem step_evidence {fm : Fmt α} {sch : Nat → NSched α} {a a' : App α} {e : Event} (h : a.step fm sch e = .ok a') :
    a'.evidence = a.evidence ∨ ∃ n ∈ a.nodes, n.var.nodeType ≠ .utility ∧ ∃ o ∈ n.var.outcomes,
      mapGet a'.evidence = chosen (mapGet a.evidence) n.var.name o ∧ (e = .enter ∨ ∃ x y, e = .leftClick x y) := by
  have enter : ∀ {a b : App α}, a.inputEnter sch = .ok b → b.evidence = a.evidence ∨ ∃ n ∈ a.nodes,
      n.var.nodeType ≠ .utility ∧ ∃ o ∈ n.var.outcomes, mapGet b.evidence = chosen (mapGet a.evidence) n.var.name o := by
    intro a b h
    obtain ⟨n, hn, _, _, _, _, _, _, hc⟩ := inputEnter_inv h
    rcases hc with ⟨_, rfl⟩ | ⟨hu, v, hv, _, he⟩
    · exact .inl rfl
    · refine .inr ⟨n, List.mem_of_getElem? (goGetI_inv hn).2.2, hu, v, List.mem_of_getElem? (goGetI_inv hv).2.2, ?_⟩
      rw [he]
      funext k
      exact toggleEvidence_get _ _ _ k
  cases e with
  | tab =>
    rw [App.step] at h
    split_ifs at h
    exact .inl (App.render_same h).evidence
  | backtab =>
    rw [App.step] at h
    exact .inl (App.render_same h).evidence
  | space =>
    rw [App.step] at h
    obtain ⟨n, _, h⟩ := bind_inv h
    split_ifs at h
    exact .inl (App.render_same h).evidence
  | digit c =>
    rw [App.step, App.selectNodeOutcome] at h
    cases hg : goAtoi (String.singleton c) with
    | none => rw [hg] at h; cases h
    | some i =>
      rw [hg] at h
      obtain ⟨n, _, h⟩ := bind_inv h
      split_ifs at h
      · exact .inl (App.render_same h).evidence
      · cases h; exact .inl rfl
  | enter =>
    rw [App.step] at h
    obtain ⟨b, hb, h⟩ := bind_inv h
    rw [(App.render_same h).evidence]
    rcases enter hb with h1 | ⟨n, h1, h2, o, h3, h4⟩
    · exact .inl h1
    · exact .inr ⟨n, h1, h2, o, h3, h4, .inl rfl⟩
  | showTable =>
    rw [App.step] at h
    obtain ⟨_, _, h⟩ := bind_inv h
    obtain ⟨_, _, h⟩ := bind_inv h
    cases h
    exact .inl rfl
  | togglePolicies =>
    rw [App.step, App.toggleIgnorePolicy] at h
    obtain ⟨_, _, h1, _⟩ := updateMarginals_same (sch := sch) { a with ignorePolicies := !a.ignorePolicies }
    rcases hs : App.updateMarginals sch { a with ignorePolicies := !a.ignorePolicies } with ⟨r, b⟩
    rw [hs] at h h1
    match r, h with
    | .ok (), h => exact .inl ((App.render_same h).evidence.trans h1)
    | .error (.error _), h => exact .inl ((App.render_same h).evidence.trans h1)
  | move key =>
    rw [App.step] at h
    unfold App.moveNode at h
    obtain ⟨n, _, h⟩ := bind_inv h
    obtain ⟨d, _, h⟩ := bind_inv h
    split_ifs at h
    · cases h; exact .inl rfl
    · obtain ⟨_, _, h⟩ := bind_inv h
      obtain ⟨_, _, h⟩ := bind_inv h
      obtain ⟨_, _, h⟩ := bind_inv h
      obtain ⟨_, _, h⟩ := bind_inv h
      exact .inl (App.render_same h).evidence
  | leftClick x y =>
    rw [App.step, App.leftClick] at h
    split at h
    · cases h; exact .inl rfl
    · rename_i n i _
      obtain ⟨b, hb, h⟩ := bind_inv h
      rw [(App.render_same h).evidence]
      cases ho : n.selectedOutcome x y with
      | some o =>
        rw [ho] at hb
        rcases enter hb with h1 | ⟨n, h1, h2, o, h3, h4⟩
        · exact .inl h1
        · exact .inr ⟨n, h1, h2, o, h3, h4, .inr ⟨x, y, rfl⟩⟩
      | none => rw [ho] at hb; cases hb; exact .inl rfl
  | rightClick x y =>
    rw [App.step, App.rightClick] at h
    split at h
    · cases h; exact .inl rfl
    · obtain ⟨b, hb, h⟩ := bind_inv h
      obtain ⟨_, _, h⟩ := bind_inv h
      obtain ⟨_, _, h⟩ := bind_inv h
      cases h
      exact .inl (App.render_same hb).evidence

/-- **C71.** Nothing but Enter and a left click changes the evidence. -/
theorem C71_others {fm : Fmt α} {sch : Nat → NSched α} {a a' : App α} {e : Event} (h : a.step fm sch e = .ok a')
    (he : e ≠ .enter) (hl : ∀ x y, e ≠ .leftClick x y) : a'.evidence = a.evidence := by
  rcases step_evidence h with h | ⟨_, _, _, _, _, _, h | ⟨x, y, h⟩⟩
  · exact h
  · exact absurd h he
  · exact absurd h (hl x y)

theorem step_names {fm : Fmt α} {sch : Nat → NSched α} {a a' : App α} {e : Event} (h : a.step fm sch e = .ok a') :
    a'.nodes.map TNode.var = a.nodes.map TNode.var := by
  have := congrArg (List.map (fun p => p.1)) (step_vars h).1
  rw [List.map_map, List.map_map] at this
  exact this

theorem run_names {fm : Fmt α} {sch : Nat → Nat → NSched α} {k : Nat} {es : List Event} {a a' : App α}
    (h : App.run fm sch k es a = .ok a') : a'.nodes.map TNode.var = a.nodes.map TNode.var :=
  run_keep (fun b => b.nodes.map TNode.var = a.nodes.map TNode.var) (fun _ _ _ _ hp hs => (step_names hs).trans hp) es k a a' h rfl

/-- **C71.** In a whole session the evidence always names chance and decision nodes and their outcomes: utility nodes
never get evidence. Names are unique in every network that `New` accepts. -/
theorem C71_session {fm : Fmt α} {sch : Nat → Nat → NSched α} {k : Nat} {es : List Event} {a a' : App α}
    (h : App.run fm sch k es a = .ok a')
    (hstart : ∀ name o, mapGet a.evidence name = some o →
      ∃ v ∈ a.nodes.map TNode.var, v.name = name ∧ v.nodeType ≠ .utility ∧ o ∈ v.outcomes) :
    ∀ name o, mapGet a'.evidence name = some o →
      ∃ v ∈ a'.nodes.map TNode.var, v.name = name ∧ v.nodeType ≠ .utility ∧ o ∈ v.outcomes := by
  refine run_keep (fun b => ∀ name o, mapGet b.evidence name = some o →
    ∃ v ∈ b.nodes.map TNode.var, v.name = name ∧ v.nodeType ≠ .utility ∧ o ∈ v.outcomes) ?_ es k a a' h hstart
  intro k b e b' hb hs name o hget
  rw [step_names hs]
  rcases step_evidence hs with h1 | ⟨n, h1, h2, o', h3, h4, _⟩
  · rw [h1] at hget
    exact hb name o hget
  · rw [h4] at hget
    unfold chosen at hget
    split_ifs at hget with e1 e2
    · cases hget
      exact ⟨n.var, List.mem_map_of_mem h1, e1.symm, h2, h3⟩
    · exact hb name o hget

/-! ## C70: the canvas -/

/-- **C70.** After any session each node lies within the canvas, and drawing the edges and the nodes does not leave it.
No assumption about positions is needed: with a negative position the app does not start (`C70_refuted`). -/
theorem C70_partial [NatCast α] [LE α] [DecidableLE α] [LT α] [DecidableLT α] {fm : Fmt α} {sch0 : NSched α}
    {sch1 : Nat → NSched α} {sch : Nat → Nat → NSched α} {n : Net α} {evidence : List (String × String)} {a0 a : App α}
    (h0 : startApp fm sch0 sch1 n evidence = .ok a0) {es : List Event} (h : App.run fm sch 0 es a0 = .ok a) :
    (∀ m ∈ a.nodes, ∀ p ∈ m.bounds.cells, (0 ≤ p.1 ∧ 0 ≤ p.2) ∧ p.2 < a.canvas.length ∧
      ∀ row ∈ a.canvas, p.1 < row.length) ∧
    (∃ g, renderEdges a (clearCanvas a.canvas) = .ok g ∧ g.map List.length = a.canvas.map List.length) ∧
    (∀ m ∈ a.nodes, ∃ g, drawNode m a.canvas = .ok g ∧ g.map List.length = a.canvas.map List.length) := by
  obtain ⟨hst, _, hpl⟩ := startApp_inv h0
  have hp : a.Placed := run_keep App.Placed (fun _ _ _ _ hp hs => hp.step hs) es 0 a0 a h hpl
  have hf : ∀ m ∈ a.nodes, ∃ f, m.factor = some f := by
    have hk := run_keep (fun b => b.nodes.map (fun n => (n.var, n.factor, n.barsX)) =
      a0.nodes.map (fun n => (n.var, n.factor, n.barsX))) (fun _ _ _ _ hp hs => (step_vars hs).1.trans hp) es 0 a0 a h rfl
    intro m hm
    have : (m.var, m.factor, m.barsX) ∈ a.nodes.map (fun n => (n.var, n.factor, n.barsX)) := List.mem_map_of_mem hm
    rw [hk] at this
    obtain ⟨x, hx, e⟩ := List.mem_map.1 this
    simp only [Prod.mk.injEq] at e
    rw [← e.2.1]
    exact hst.factor x hx
  have lens : ∀ {g g' : Grid} {hh w : Int}, HasDims g hh w → HasDims g' hh w → g'.map List.length = g.map List.length := by
    intro g g' hh w d d'
    apply List.ext_getElem
    · rw [List.length_map, List.length_map]
      have := d.1; have := d'.1
      omega
    · intro i h1 h2
      rw [List.getElem_map, List.getElem_map]
      have := d.2 _ (List.getElem_mem (by simpa using h2))
      have := d'.2 _ (List.getElem_mem (by simpa using h1))
      omega
  obtain ⟨k1, k2, ⟨hh, w, kd, kh, kb⟩, k4⟩ := hp
  refine ⟨?_, ?_, ?_⟩
  · intro m hm p hp
    rw [mem_cells] at hp
    obtain ⟨b1, b2, b3, b4, b5, b6⟩ := kb m hm
    have := kd.1
    refine ⟨by omega, by omega, ?_⟩
    intro row hr
    have := kd.2 row hr
    omega
  · obtain ⟨g, e, d⟩ := renderEdges_ok k2 hf kb (clearCanvas_dims kd)
    exact ⟨g, e, lens kd d⟩
  · intro m hm
    obtain ⟨g, e, d⟩ := drawNode_dims (k1 m hm) (kb m hm) kd
    exact ⟨g, e, lens kd d⟩

/-- **C70 fails for negative positions**, which the file format allows: the app never gets to its first drawing. -/
theorem C70_refuted [NatCast α] [LE α] [DecidableLE α] [LT α] [DecidableLT α] (fm : Fmt α) (sch0 : NSched α)
    (sch1 : Nat → NSched α) {n : Net α} (evidence : List (String × String))
    (hneg : ∃ v ∈ n.variables, v.position.1 < 0 ∨ v.position.2 < 0) :
    ¬ ∃ a, startApp fm sch0 sch1 n evidence = .ok a := by
  rintro ⟨a, h⟩
  obtain ⟨_, hpos, _⟩ := startApp_inv h
  obtain ⟨v, hv, hn⟩ := hneg
  have := hpos v hv
  omega

end

end Bbn
