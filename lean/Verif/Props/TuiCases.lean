import Verif.Props.TuiShown
import Verif.Props.TuiInput
import Verif.Props.TuiRun
import Verif.Props.NetSettle

/-!
# Concrete sessions of the app that meet the conditions of C70, C71, C72, C78 and C79
-/

set_option autoImplicit false

namespace Bbn

namespace Ex

/-! ## The umbrella network -/

theorem umb_ready : AppReady umb := new_appReady "umbrella" "" (by decide) umb_wellFormed umb_new (fun _ => umb_solvable.toFeasible)

/-- Without evidence the worlds of the solved umbrella network are possible. -/
theorem umb_possible (sch0 : NSched ℚ) : (umb.solvePolicies sch0 true).2.mass
    ((umb.solvePolicies sch0 true).2.active [] false) ((umb.solvePolicies sch0 true).2.Agrees []) ≠ 0 := by
  obtain ⟨policies, n', h, _⟩ := solvePolicies_net sch0 umb_valid (fun _ => umb_solvable.toFeasible) true
  rw [h]
  have e1 : n'.active [] false = n'.policies := by
    unfold Net.active
    simp
  have e2 : n'.Agrees [] = fun _ => True := by
    funext w
    simp [Net.Agrees]
  have := umb_mass sch0 true h
  simp only
  rw [e1]
  simp only [e2]
  rw [this]
  decide

/-- A session with the umbrella network. -/
theorem umb_session (sch0 : NSched ℚ) (sch1 : Nat → NSched ℚ) (sch : Nat → Nat → NSched ℚ) : ∃ a0 a,
    startApp exactFm sch0 sch1 umb [] = .ok a0 ∧ App.run exactFm sch 0 [.tab, .tab, .space] a0 = .ok a ∧
      Possible (umb.solvePolicies sch0 true).2 a := by
  have hfm : ∀ x, 0 ≤ x → x ≤ 1 → exactFm.Bar (some x) := fun x h0 h1 => exactFm_bars.bar h0 h1
  obtain ⟨hA, hnn, a0, h0, hs0, hp0⟩ := startApp_ok umb_ready (by decide) (by decide) (by decide) (by decide +kernel) hfm
    sch0 sch1 (evidence := []) ⟨by simp, by simp⟩ rfl (umb_possible sch0)
  obtain ⟨a1, s1, hp1⟩ := hs0.step_ok hA hnn hfm (sch 0) hp0 (e := .tab) trivial
  have hs1 := hs0.step hA s1
  obtain ⟨a2, s2, hp2⟩ := hs1.step_ok hA hnn hfm (sch 1) hp1 (e := .tab) trivial
  have hs2 := hs1.step hA s2
  obtain ⟨a3, s3, hp3⟩ := hs2.step_ok hA hnn hfm (sch 2) hp2 (e := .space) trivial
  exact ⟨a0, a3, h0, by simp only [App.run, s1, ok_bind, s2, s3], hp3⟩

/-- The conditions of C70_partial, C72 and C78 hold in this session: the boxes are on the canvas, the total-utility node
shows `2·Effort`, `1·Comfort` and their sum, and each state variable shows as many numbers as it has outcomes. -/
example (sch0 : NSched ℚ) (sch1 : Nat → NSched ℚ) (sch : Nat → Nat → NSched ℚ) {N : Net ℚ}
    (hN : N = (umb.solvePolicies sch0 true).2) : ∃ a0 a, startApp exactFm sch0 sch1 umb [] = .ok a0 ∧
      App.run exactFm sch 0 [.tab, .tab, .space] a0 = .ok a ∧
      (∀ m ∈ a.nodes, ∃ g, drawNode m a.canvas = .ok g) ∧
      mapGet a.marginals "Effort" = some [some (N.expected a.evidence a.ignorePolicies "Effort"),
        some (N.expected a.evidence a.ignorePolicies "")] ∧
      mapGet a.marginals "Total" = some [some (2 * N.expected a.evidence a.ignorePolicies "Effort"),
        some (1 * N.expected a.evidence a.ignorePolicies "Comfort"), some (N.expected a.evidence a.ignorePolicies "")] ∧
      2 * N.expected a.evidence a.ignorePolicies "Effort" + 1 * N.expected a.evidence a.ignorePolicies "Comfort" =
        N.expected a.evidence a.ignorePolicies "" ∧
      ∃ shown, mapGet a.marginals "Umbrella" = some shown ∧ shown.length = 2 := by
  obtain ⟨a0, a, h0, h1, hp⟩ := umb_session sch0 sch1 sch
  rw [← hN] at hp
  have hev : umb.EvidenceOK [] := ⟨by simp, by simp⟩
  have u := C72_utilities umb_ready hev h0 h1 hN hp (u := ⟨"Effort", .utility, ["effort"], (0, 0), "", some 4⟩) (by decide)
  obtain ⟨t1, t2, _⟩ := C72_total umb_ready hev h0 h1 hN hp (i := 3) rfl
    (t := ⟨"Total", .utility, ["effort", "comfort"], (0, 0), "", some 5⟩) rfl
    (f := ⟨"Total", ["Effort", "Comfort"], some [2, 1], [1, 1], 2⟩) (by decide +kernel) rfl
  obtain ⟨shown, v1, v2, _⟩ := C78_probabilities umb_ready hev h0 h1 hN hp
    (v := ⟨"Umbrella", .decision, ["no", "yes"], (0, 0), "", some 2⟩) (by decide) (by decide)
  obtain ⟨_, _, c⟩ := C70_partial h0 h1
  refine ⟨a0, a, h0, h1, fun m hm => (c m hm).imp fun _ h => h.1, u, t1, ?_, shown, v1, v2⟩
  rw [← t2]
  simp [NFactor.tab]

/-- The conditions of C79 hold. -/
example (sch0 : NSched ℚ) (sch1 : Nat → NSched ℚ) (sch : Nat → Nat → NSched ℚ) : ∃ a0 a,
    startApp exactFm sch0 sch1 umb [] = .ok a0 ∧ App.run exactFm sch 0 [.tab, .digit '1', .showTable, .space] a0 = .ok a := by
  obtain ⟨a0, h0, h1⟩ := C79_no_crash umb_ready (by decide) (by decide) (by decide) (by decide +kernel) exactFm_bars
    sch0 sch1 sch (evidence := []) ⟨by simp, by simp⟩ rfl (umb_possible sch0)
  obtain ⟨a, h⟩ := h1 [.tab, .digit '1', .showTable, .space]
    ⟨trivial, fun _ _ => ⟨(by decide : '1'.isDigit = true), fun _ _ => ⟨trivial, fun _ _ => ⟨trivial, fun _ _ => trivial⟩⟩⟩⟩
  exact ⟨a0, a, h0, h⟩

/-- The condition of C70_refuted holds for a variable two places left of the canvas. -/
example (sch0 : NSched ℚ) (sch1 : Nat → NSched ℚ) (fm : Fmt ℚ) : ¬ ∃ a, startApp fm sch0 sch1
    { pair with «variables» := [⟨"A", .chance, ["x", "y", "z"], (0, 0), "", some 0⟩,
      ⟨"B", .chance, ["yes", "no"], (-2, 0), "", some 1⟩] } [] = .ok a :=
  C70_refuted fm sch0 sch1 [] (by decide)

/-! ## Two unrelated variables -/

/-- The nodes of a session with `pair`. -/
theorem pair_nodes {a : App ℚ} (h : a.nodes.map TNode.var = pair.variables) : ∃ p q, a.nodes = [p, q] ∧
    p.var = ⟨"A", .chance, ["x", "y", "z"], (0, 0), "", some 0⟩ ∧ q.var = ⟨"B", .chance, ["yes", "no"], (40, 0), "", some 1⟩ := by
  match hn : a.nodes with
  | [] => rw [hn] at h; simp [pair] at h
  | [p] => rw [hn] at h; simp [pair] at h
  | [p, q] =>
    rw [hn] at h
    simp only [pair, List.map_cons, List.map_nil, List.cons.injEq] at h
    exact ⟨p, q, rfl, h.1, h.2.1⟩
  | p :: q :: r :: l => rw [hn] at h; simp [pair] at h

/-- Enter on the first outcome is careful with the evidence of `pair`, whether it has been chosen before or not. -/
theorem pair_choice (sch0 : NSched ℚ) {a : App ℚ} (hn : a.nodes.map TNode.var = pair.variables) (hi : a.ignorePolicies = false)
    (he : a.evidence = [] ∨ a.evidence = [("A", "x")]) :
    a.ChoiceOK (pair.solvePolicies sch0 true).2 0 0 := by
  obtain ⟨vs, names, hN⟩ := solved_chance pair_ready (by decide) sch0
  rw [hN]
  obtain ⟨p, q, e, ep, _⟩ := pair_nodes hn
  intro m hm _
  rw [e] at hm
  obtain rfl : p = m := Option.some.inj hm
  refine ⟨"x", le_refl _, by rw [ep]; rfl, ?_⟩
  rw [ep, hi]
  rcases he with he | he <;> rw [he]
  · have : pair.mass [] (pair.Agrees [("A", "x")]) ≠ 0 := by decide +kernel
    exact this
  · have : pair.mass [] (pair.Agrees []) ≠ 0 := by decide +kernel
    exact this

/-- The conditions of C71 (Enter, Enter again, other keys, whole sessions) hold: the first press chooses the outcome, the
second one removes it. -/
example (sch0 : NSched ℚ) (sch1 : Nat → NSched ℚ) (sch : Nat → Nat → NSched ℚ) : ∃ a0 a1 a2 a3,
    startApp exactFm sch0 sch1 pair [] = .ok a0 ∧ a0.step exactFm (sch 0) .enter = .ok a1 ∧
      a1.step exactFm (sch 1) .enter = .ok a2 ∧ a1.step exactFm (sch 1) .tab = .ok a3 ∧
      mapGet a1.evidence "A" = some "x" ∧ mapGet a2.evidence = mapGet [] ∧ a3.evidence = a1.evidence ∧
      ∀ name o, mapGet a1.evidence name = some o →
        ∃ v ∈ a1.nodes.map TNode.var, v.name = name ∧ v.nodeType ≠ .utility ∧ o ∈ v.outcomes := by
  obtain ⟨vs, names, hN⟩ := solved_chance pair_ready (by decide) sch0
  have hfm : ∀ x, 0 ≤ x → x ≤ 1 → exactFm.Bar (some x) := fun x h0 h1 => exactFm_bars.bar h0 h1
  obtain ⟨hA, hnn, a0, h0, hs0, hp0⟩ := startApp_ok pair_ready (by decide) (by decide) (by decide) (by decide +kernel) hfm
    sch0 sch1 (evidence := []) ⟨by simp, by simp⟩ rfl (by
      rw [hN]
      have : pair.mass [] (pair.Agrees []) ≠ 0 := by decide +kernel
      exact this)
  obtain ⟨st, _, _⟩ := startApp_inv h0
  obtain ⟨a1, s1, hp1⟩ := hs0.step_ok hA hnn hfm (sch 0) hp0 (e := .enter) (by
    change a0.ChoiceOK _ a0.selectedNode a0.selectedState
    rw [st.selectedNode, st.selectedState]
    exact pair_choice sch0 st.vars st.ignorePolicies (.inl st.evidence))
  have hs1 := hs0.step hA s1
  obtain ⟨p, q, e, ep, _⟩ := pair_nodes st.vars
  have sel1 := step_selection s1
  simp only [nextSelection, st.selectedNode, st.selectedState] at sel1
  have sel1' : a1.selectedNode = 0 ∧ a1.selectedState = 0 := Prod.mk.inj sel1
  have hn1 := (step_names s1).trans st.vars
  have hx : a1.evidence = [("A", "x")] ∧ a1.ignorePolicies = false := by
    have h := s1
    rw [App.step] at h
    obtain ⟨b, hb, h⟩ := bind_inv h
    rw [(App.render_same h).evidence, (App.render_same h).ignorePolicies]
    obtain ⟨m, hm, _, _, _, _, hi, _, hc⟩ := inputEnter_inv hb
    rw [st.selectedNode, e] at hm
    obtain rfl : p = m := Except.ok.inj hm
    rcases hc with ⟨h1, _⟩ | ⟨_, v, hv, _, he⟩
    · rw [ep] at h1
      cases h1
    · rw [ep, st.selectedState] at hv
      obtain rfl : "x" = v := Except.ok.inj hv
      rw [ep, st.evidence] at he
      exact ⟨he, hi.trans st.ignorePolicies⟩
  obtain ⟨a2, s2, _⟩ := hs1.step_ok hA hnn hfm (sch 1) hp1 (e := .enter) (by
    change a1.ChoiceOK _ a1.selectedNode a1.selectedState
    rw [sel1'.1, sel1'.2]
    exact pair_choice sch0 hn1 hx.2 (.inr hx.1))
  obtain ⟨a3, s3, _⟩ := hs1.step_ok hA hnn hfm (sch 1) hp1 (e := .tab) trivial
  obtain ⟨t1, t2⟩ := C71_twice s1 s2 (i := 0) (s := 0) st.selectedNode st.selectedState (n := p) (by rw [e]; rfl)
    (by rw [ep]; decide) (o := "x") (by rw [ep]; rfl) (by rw [st.evidence]; rfl)
  rw [ep] at t1
  rw [st.evidence] at t2
  refine ⟨a0, a1, a2, a3, h0, s1, s2, s3, t1, t2, C71_others s3 (by simp) (by simp), ?_⟩
  exact C71_session (sch := sch) (k := 0) (es := [.enter]) (a := a0) (a' := a1) (by rw [App.run, s1]; rfl)
    (by rw [st.evidence]; intro name o h; cases h)

/-- The conditions of C71_click hold for a click on the second outcome of the first box. -/
example (sch0 : NSched ℚ) (sch1 sch : Nat → NSched ℚ) : ∃ a0 a1, startApp exactFm sch0 sch1 pair [] = .ok a0 ∧
    a0.step exactFm sch (.leftClick 2 3) = .ok a1 ∧ mapGet a1.evidence "A" = some "y" ∧ mapGet a1.evidence "B" = none ∧
    a1.selectedNode = 0 ∧ a1.selectedState = 1 := by
  obtain ⟨vs, names, hN⟩ := solved_chance pair_ready (by decide) sch0
  have hfm : ∀ x, 0 ≤ x → x ≤ 1 → exactFm.Bar (some x) := fun x h0 h1 => exactFm_bars.bar h0 h1
  obtain ⟨hA, hnn, a0, h0, hs0, hp0⟩ := startApp_ok pair_ready (by decide) (by decide) (by decide) (by decide +kernel) hfm
    sch0 sch1 (evidence := []) ⟨by simp, by simp⟩ rfl (by
      rw [hN]
      have : pair.mass [] (pair.Agrees []) ≠ 0 := by decide +kernel
      exact this)
  obtain ⟨st, _, _⟩ := startApp_inv h0
  obtain ⟨p, q, e, ep, _⟩ := pair_nodes st.vars
  have hb := st.bounds
  rw [e] at hb
  have pb : p.bounds = nodeBounds ⟨"A", .chance, ["x", "y", "z"], (0, 0), "", some 0⟩ := (List.cons.inj hb).1
  have hc : p.bounds.contains 2 3 = true := by rw [pb]; decide
  obtain ⟨a1, s1, _⟩ := hs0.step_ok hA hnn hfm sch hp0 (e := .leftClick 2 3) (by
    intro m i o hf ho
    rw [e] at hf
    simp only [List.zipIdx_cons, List.find?_cons, hc, Option.some.injEq, Prod.mk.injEq] at hf
    obtain ⟨rfl, rfl⟩ := hf
    have ho' : o = 1 := by
      unfold TNode.selectedOutcome at ho
      rw [if_pos hc, pb, ep] at ho
      exact Option.some.inj (ho.symm.trans (by decide))
    subst ho'
    rw [hN]
    intro m hm _
    rw [e] at hm
    obtain rfl : p = m := Option.some.inj hm
    refine ⟨"y", by decide, by rw [ep]; rfl, ?_⟩
    rw [ep, st.ignorePolicies, st.evidence]
    have : pair.mass [] (pair.Agrees [("A", "y")]) ≠ 0 := by decide +kernel
    exact this)
  obtain ⟨t1, t2, t3⟩ := C71_click s1 (i := 0) (s := 1) (n := p) (by rw [e]; rfl) ((C67_contains _ _ _).1 hc)
    (fun j hj => absurd hj (by omega)) (by rw [ep]; decide) (o := "y") (by rw [ep]; rfl) (by rw [pb]; decide)
  rw [ep, st.evidence] at t1
  exact ⟨a0, a1, h0, s1, by rw [t1]; rfl, by rw [t1]; rfl, t2, t3⟩

end Ex

end Bbn
