import Verif.Model.TuiApp
import Verif.Lemmas.NetVars
import Verif.Lemmas.Training

/-!
# What the steps of the app leave unchanged
-/

set_option autoImplicit false

namespace Bbn

variable {α : Type}

/-- Everything but the drawings is the same. -/
structure SameApp (a b : App α) : Prop where
  nodes : b.nodes.map (fun n => (n.var, n.factor, n.bounds, n.barsX)) =
    a.nodes.map (fun n => (n.var, n.factor, n.bounds, n.barsX))
  byName : b.byName = a.byName
  network : b.network = a.network
  evidence : b.evidence = a.evidence
  marginals : b.marginals = a.marginals
  selectedNode : b.selectedNode = a.selectedNode
  selectedState : b.selectedState = a.selectedState
  ignorePolicies : b.ignorePolicies = a.ignorePolicies

theorem TNode.render_same {fm : Fmt α} {n n' : TNode α} {probs : List (Option α)} {sel ev : Bool} {st : Int}
    (h : n.render fm probs sel st ev = .ok n') :
    n'.var = n.var ∧ n'.factor = n.factor ∧ n'.bounds = n.bounds ∧ n'.barsX = n.barsX := by
  unfold TNode.render at h
  obtain ⟨g, _, h⟩ := bind_inv h
  dsimp only at h
  split_ifs at h <;>
  · obtain ⟨g', _, h⟩ := bind_inv h
    cases h
    exact ⟨rfl, rfl, rfl, rfl⟩

theorem renderNodes_same {fm : Fmt α} {a : App α} : ∀ (l : List (TNode α)) (i : Nat) (g : Grid) {r : List (TNode α) × Grid},
    renderNodes fm a i l g = .ok r → r.1.map (fun n => (n.var, n.factor, n.bounds, n.barsX)) =
      l.map (fun n => (n.var, n.factor, n.bounds, n.barsX)) := by
  intro l
  induction l with
  | nil => intro i g r h; cases h; rfl
  | cons n l ih =>
    intro i g r h
    rw [renderNodes] at h
    obtain ⟨n', h1, h⟩ := bind_inv h
    obtain ⟨g', _, h⟩ := bind_inv h
    obtain ⟨r', h2, h⟩ := bind_inv h
    cases h
    obtain ⟨e1, e2, e3, e4⟩ := TNode.render_same h1
    rw [List.map_cons, List.map_cons, ih _ _ h2, e1, e2, e3, e4]

theorem App.render_same {fm : Fmt α} {a a' : App α} {u : Bool} (h : a.render fm u = .ok a') : SameApp a a' := by
  unfold App.render at h
  dsimp only at h
  split_ifs at h <;>
  · obtain ⟨g, _, h⟩ := bind_inv h
    obtain ⟨r, h1, h⟩ := bind_inv h
    cases h
    exact ⟨renderNodes_same _ _ _ h1, rfl, rfl, rfl, rfl, rfl, rfl, rfl⟩

theorem SameApp.vars {a b : App α} (h : SameApp a b) : b.nodes.map TNode.var = a.nodes.map TNode.var := by
  have := congrArg (List.map Prod.fst) h.nodes
  rw [List.map_map, List.map_map] at this
  exact this

theorem SameApp.length {a b : App α} (h : SameApp a b) : b.nodes.length = a.nodes.length := by
  have := congrArg List.length h.nodes
  rwa [List.length_map, List.length_map] at this

theorem SameApp.boundsEq {a b : App α} (h : SameApp a b) : b.nodes.map TNode.bounds = a.nodes.map TNode.bounds := by
  have := congrArg (List.map (fun p => p.2.2.1)) h.nodes
  rw [List.map_map, List.map_map] at this
  exact this

section

variable [Zero α] [One α] [Add α] [Mul α] [Div α] [DecidableEq α]

theorem updateMarginals_same {sch : Nat → NSched α} (a : App α) :
    (App.updateMarginals sch a).2.nodes = a.nodes ∧ (App.updateMarginals sch a).2.byName = a.byName ∧
    (App.updateMarginals sch a).2.evidence = a.evidence ∧
    (App.updateMarginals sch a).2.selectedNode = a.selectedNode ∧
    (App.updateMarginals sch a).2.selectedState = a.selectedState ∧
    (App.updateMarginals sch a).2.ignorePolicies = a.ignorePolicies ∧
    (App.updateMarginals sch a).2.canvas = a.canvas := by
  unfold App.updateMarginals
  rcases tuiSolve sch a.network a.evidence a.nodes a.ignorePolicies with ⟨r | r, n⟩ <;>
    exact ⟨rfl, rfl, rfl, rfl, rfl, rfl, rfl⟩

/-- What a successful `inputEnter` does. -/
theorem inputEnter_inv {sch : Nat → NSched α} {a a' : App α} (h : a.inputEnter sch = .ok a') :
    ∃ n, goGetI a.nodes a.selectedNode = .ok n ∧ a'.nodes = a.nodes ∧ a'.byName = a.byName ∧
      a'.selectedNode = a.selectedNode ∧ a'.selectedState = a.selectedState ∧ a'.ignorePolicies = a.ignorePolicies ∧
      a'.canvas = a.canvas ∧
      ((n.var.nodeType = .utility ∧ a' = a) ∨
       (n.var.nodeType ≠ .utility ∧ ∃ value, goGetI n.var.outcomes a.selectedState = .ok value ∧
        App.updateMarginals sch { a with evidence := toggleEvidence a.evidence n.var.name value } = (.ok (), a') ∧
        a'.evidence = toggleEvidence a.evidence n.var.name value)) := by
  unfold App.inputEnter at h
  obtain ⟨n, hn, h⟩ := bind_inv h
  refine ⟨n, hn, ?_⟩
  split_ifs at h with hu
  · cases h
    exact ⟨rfl, rfl, rfl, rfl, rfl, rfl, .inl ⟨hu, rfl⟩⟩
  · obtain ⟨value, hv, h⟩ := bind_inv h
    obtain ⟨h1, h2, h3, h4, h5, h6, h7⟩ :=
      updateMarginals_same (sch := sch) { a with evidence := toggleEvidence a.evidence n.var.name value }
    have e : a' = (App.updateMarginals sch { a with evidence := toggleEvidence a.evidence n.var.name value }).2 ∧
        (App.updateMarginals sch { a with evidence := toggleEvidence a.evidence n.var.name value }).1 = .ok () := by
      rcases hq : App.updateMarginals sch { a with evidence := toggleEvidence a.evidence n.var.name value } with ⟨r, b⟩
      rw [hq] at h
      match r, h with
      | .ok (), h => cases h; exact ⟨rfl, rfl⟩
    rw [e.1]
    refine ⟨h1, h2, h4, h5, h6, h7, .inr ⟨hu, value, hv, ?_, h3⟩⟩
    rw [← e.2]

/-- What a successful step keeps: the nodes' variables and tables, and the index of names. -/
theorem step_vars {fm : Fmt α} {sch : Nat → NSched α} {a a' : App α} {e : Event} (h : a.step fm sch e = .ok a') :
    a'.nodes.map (fun n => (n.var, n.factor, n.barsX)) = a.nodes.map (fun n => (n.var, n.factor, n.barsX)) ∧
    a'.byName = a.byName := by
  have key : ∀ {a b : App α}, SameApp a b →
      b.nodes.map (fun n => (n.var, n.factor, n.barsX)) = a.nodes.map (fun n => (n.var, n.factor, n.barsX)) ∧
      b.byName = a.byName := by
    intro a b h
    have := congrArg (List.map (fun p => (p.1, p.2.1, p.2.2.2))) h.nodes
    rw [List.map_map, List.map_map] at this
    exact ⟨this, h.byName⟩
  cases e with
  | tab =>
    rw [App.step] at h
    split_ifs at h
    have := key (App.render_same h)
    exact this
  | backtab =>
    rw [App.step] at h
    have := key (App.render_same h)
    exact this
  | space =>
    rw [App.step] at h
    obtain ⟨n, _, h⟩ := bind_inv h
    split_ifs at h
    have := key (App.render_same h)
    exact this
  | digit c =>
    rw [App.step, App.selectNodeOutcome] at h
    cases hg : goAtoi (String.singleton c) with
    | none => rw [hg] at h; cases h
    | some i =>
      rw [hg] at h
      obtain ⟨n, _, h⟩ := bind_inv h
      split_ifs at h
      · have := key (App.render_same h)
        exact this
      · cases h; exact ⟨rfl, rfl⟩
  | enter =>
    rw [App.step] at h
    obtain ⟨b, hb, h⟩ := bind_inv h
    obtain ⟨_, _, h1, h2, _⟩ := inputEnter_inv hb
    obtain ⟨k1, k2⟩ := key (App.render_same h)
    exact ⟨by rw [k1, h1], by rw [k2, h2]⟩
  | showTable =>
    rw [App.step] at h
    obtain ⟨_, _, h⟩ := bind_inv h
    obtain ⟨_, _, h⟩ := bind_inv h
    cases h
    exact ⟨rfl, rfl⟩
  | togglePolicies =>
    rw [App.step, App.toggleIgnorePolicy] at h
    obtain ⟨h1, h2, _⟩ := updateMarginals_same (sch := sch) { a with ignorePolicies := !a.ignorePolicies }
    rcases hq : App.updateMarginals sch { a with ignorePolicies := !a.ignorePolicies } with ⟨r, b⟩
    rw [hq] at h h1 h2
    match r, h with
    | .ok (), h => obtain ⟨k1, k2⟩ := key (App.render_same h); exact ⟨by rw [k1, h1], by rw [k2, h2]⟩
    | .error (.error _), h => obtain ⟨k1, k2⟩ := key (App.render_same h); exact ⟨by rw [k1, h1], by rw [k2, h2]⟩
  | move key' =>
    rw [App.step] at h
    unfold App.moveNode at h
    obtain ⟨n, hn, h⟩ := bind_inv h
    obtain ⟨d, _, h⟩ := bind_inv h
    split_ifs at h
    · cases h; exact ⟨rfl, rfl⟩
    · obtain ⟨v, _, h⟩ := bind_inv h
      obtain ⟨ns, hns, h⟩ := bind_inv h
      obtain ⟨vs, _, h⟩ := bind_inv h
      obtain ⟨g, _, h⟩ := bind_inv h
      obtain ⟨k1, k2⟩ := key (App.render_same h)
      refine ⟨?_, k2⟩
      rw [k1]
      dsimp only
      unfold goSetI at hns
      unfold goGetI at hn
      split_ifs at hns hn
      rw [goGet_eq] at hn
      obtain ⟨hlt, e⟩ := List.getElem?_eq_some_iff.1 hn
      unfold goSet at hns
      rw [if_pos hlt] at hns
      cases hns
      rw [List.map_set]
      apply List.ext_getElem?
      intro j
      rw [List.getElem?_set]
      split_ifs with hj hl
      · subst hj
        rw [List.getElem?_map, hn]
        rfl
      · subst hj
        simp at hl
        omega
      · rfl
  | leftClick x y =>
    rw [App.step, App.leftClick] at h
    split at h
    · cases h; exact ⟨rfl, rfl⟩
    · rename_i n i _
      obtain ⟨b, hb, h⟩ := bind_inv h
      obtain ⟨k1, k2⟩ := key (App.render_same h)
      rw [k1, k2]
      cases ho : n.selectedOutcome x y with
      | some o =>
        rw [ho] at hb
        obtain ⟨_, _, h1, h2, _⟩ := inputEnter_inv hb
        rw [h1, h2]
        exact ⟨rfl, rfl⟩
      | none => rw [ho] at hb; cases hb; exact ⟨rfl, rfl⟩
  | rightClick x y =>
    rw [App.step, App.rightClick] at h
    split at h
    · cases h; exact ⟨rfl, rfl⟩
    · obtain ⟨b, hb, h⟩ := bind_inv h
      obtain ⟨_, _, h⟩ := bind_inv h
      obtain ⟨_, _, h⟩ := bind_inv h
      cases h
      have := key (App.render_same hb)
      exact this

end

end Bbn
