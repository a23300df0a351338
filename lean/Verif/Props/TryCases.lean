import Verif.Props.NetTry
import Verif.Props.TuiCases

/-!
# Concrete networks and sessions that meet the conditions of C149
-/

set_option autoImplicit false

namespace Bbn

namespace Ex

/-- The decision of the umbrella network. -/
def umbDecision : NVar := ⟨"Umbrella", .decision, ["no", "yes"], (0, 0), "", some 2⟩

theorem badForecast_ok : umb.EvidenceOK [("Forecast", "bad")] := ⟨by decide, by decide⟩

/-- The condition of C149_one_decision holds for the umbrella network with the forecast that the decision knows: neither
option is worth more than what the solved network reports, and the options that the policy takes are worth as much. -/
example (sch sch₁ : NSched ℚ) (sch₂ : Nat → NSched ℚ) (stepwise ign : Bool) : ∃ t n',
    umb.solvePolicies sch stepwise = (.ok [("Umbrella", t)], n') ∧ ∃ x y z : ℚ,
      n'.Worth sch₁ [("Forecast", "bad")] "" ign x ∧
      n'.Worth (sch₂ 0) [("Umbrella", "no"), ("Forecast", "bad")] "" true y ∧ y ≤ x ∧
      n'.Worth (sch₂ 1) [("Umbrella", "yes"), ("Forecast", "bad")] "" true z ∧ z ≤ x ∧
      ∀ w, umb.Allowed w → umb.Agrees [("Forecast", "bad")] w → w "Umbrella" = 1 → umb.entry t w ≠ 0 → z = x := by
  obtain ⟨t, n', h1, h2⟩ := C149_one_decision sch sch₁ sch₂ umb_valid umb_solvable (d := umbDecision) (by decide) (by decide)
    (by decide) (by decide +kernel) (umb_matters "Umbrella" (by decide)) stepwise ign
  obtain ⟨x, y, b1, b2, b3⟩ := h2 _ badForecast_ok (by decide +kernel)
  exact ⟨t, n', h1, x, y 0, y 1, b1, (b2 0 (by decide)).1, (b2 0 (by decide)).2, (b2 1 (by decide)).1, (b2 1 (by decide)).2,
    fun w hw ha h hne => by rw [← b3 (by decide +kernel) w hw ha hne]; exact congrArg y h.symm⟩

/-- The conditions of C149_tried hold. -/
example (sch sch₁ : NSched ℚ) (sch₂ : Nat → NSched ℚ) (stepwise ign : Bool) : ∃ tables n' order,
    umb.solvePolicies sch stepwise = (.ok tables, n') ∧ order.Perm umb.decisions ∧ ∀ A B, order = A ++ "Umbrella" :: B →
      ∃ x : ℚ, ∃ y : Nat → ℚ, n'.Worth sch₁ [("Forecast", "bad")] "" ign x ∧
        n'.Worth (sch₂ 0) [("Umbrella", "no"), ("Forecast", "bad")] "" true (y 0) ∧ y 0 ≤ x := by
  obtain ⟨tables, n', order, h1, h2, _, h4⟩ := C149_tried sch sch₁ sch₂ umb_valid umb_solvable (by decide) (by decide +kernel)
    (matters_order umb_matters) (stepwise := stepwise) (fun _ => by decide) ign
  refine ⟨tables, n', order, h1, h2, fun A B hAB => ?_⟩
  obtain ⟨x, y, b1, b2, _⟩ := h4 umbDecision (by decide) (by decide) A B hAB _ badForecast_ok (fun e he => by
    obtain rfl := List.mem_singleton.1 he
    exact ⟨by decide, .inr ⟨⟨"Umbrella", ["Forecast"], none, [2], 2⟩, by decide +kernel, by simp [umbDecision], by simp⟩⟩)
  exact ⟨x, y, b1, b2 0 (by decide)⟩

/-- The conditions of C149_likely hold. -/
example (sch sch₁ : NSched ℚ) (sch₂ : Nat → NSched ℚ) (stepwise ign : Bool) : ∃ tables n',
    umb.solvePolicies sch stepwise = (.ok tables, n') ∧ ∃ p : ℚ, n'.Likely sch₁ [("Forecast", "bad")] ign p ∧
      n'.Likely (sch₂ 0) [("Umbrella", "no"), ("Forecast", "bad")] true p ∧
      n'.Likely (sch₂ 1) [("Umbrella", "yes"), ("Forecast", "bad")] true p := by
  obtain ⟨tables, n', h1, h2⟩ := C149_likely sch sch₁ sch₂ umb_valid umb_solvable umb_regular (rank := umbRank)
    (by decide +kernel) (by decide +kernel) (.inl (by decide)) stepwise ign
  obtain ⟨p, b1, b2⟩ := h2 umbDecision (by decide) rfl (by decide) _ badForecast_ok (by decide)
  exact ⟨tables, n', h1, p, b1, b2 0 (by decide), b2 1 (by decide)⟩

/-- A session with the umbrella network, started with a bad forecast. -/
def badStart : Except Fault (App ℚ) := startApp exactFm back (fun _ => back) umb [("Forecast", "bad")]

/-- Policies ignored, an option of the umbrella chosen. -/
def badTry (es : List Event) : Except Fault (App ℚ) := do App.run exactFm (fun _ _ => back) 0 es (← badStart)

theorem badTry_inv {es : List Event} {β : Type} {g : App ℚ → β} {r : β} (h : (badTry es).toOption.map g = some r) :
    ∃ a0 a, badStart = .ok a0 ∧ App.run exactFm (fun _ _ => back) 0 es a0 = .ok a ∧ g a = r := by
  unfold badTry at h
  match h0 : badStart with
  | .error e => rw [h0] at h; simp [bind, Except.bind, Except.toOption] at h
  | .ok a0 =>
    rw [h0, ok_bind] at h
    match h1 : App.run exactFm (fun _ _ => back) 0 es a0 with
    | .error e => rw [h1] at h; simp [Except.toOption] at h
    | .ok a => rw [h1] at h; exact ⟨a0, a, rfl, h1, by simpa [Except.toOption] using h⟩

/-- The conditions of C149_shown hold in a session that starts with a bad forecast, where the policies are then ignored and
the second option of the umbrella is chosen. -/
example : ∃ t, (umb.solvePolicies back true).1 = .ok [("Umbrella", t)] ∧ ∃ a0 a', badStart = .ok a0 ∧
    App.run exactFm (fun _ _ => back) 0 [.togglePolicies, .tab, .tab, .space, .enter] a0 = .ok a' ∧ ∃ x y : ℚ, y ≤ x ∧
      (∃ b b', mapGet a0.marginals "Effort" = some [b, some x] ∧ mapGet a'.marginals "Effort" = some [b', some y]) ∧
      ∀ w, umb.Allowed w → umb.Agrees [("Forecast", "bad")] w → w "Umbrella" = 1 → umb.entry t w ≠ 0 → y = x := by
  obtain ⟨a0, a', h0, h1, e1⟩ := badTry_inv (es := [.togglePolicies, .tab, .tab, .space, .enter])
    (g := fun a => (a.evidence, a.ignorePolicies)) (r := ([("Forecast", "bad"), ("Umbrella", "yes")], true)) (by decide +kernel)
  obtain ⟨e1, e2⟩ := Prod.mk.inj e1
  obtain ⟨a1, a, h0', h2, e3⟩ := badTry_inv (es := [])
    (g := fun a => (a.evidence, a.ignorePolicies)) (r := ([("Forecast", "bad")], false)) (by decide +kernel)
  rw [h0] at h0'
  obtain rfl := Except.ok.inj h0'
  obtain rfl : a0 = a := Except.ok.inj h2
  obtain ⟨e3, e4⟩ := Prod.mk.inj e3
  obtain ⟨t, k1, x, y, k2, k3, k4⟩ := C149_shown umb_ready umb_solvable (d := umbDecision) (by decide) (by decide) (by decide)
    (by decide +kernel) (umb_matters "Umbrella" (by decide)) umb_regular (rank := umbRank) (by decide +kernel)
    (by decide +kernel) badForecast_ok h0 (sch := fun _ _ => back) (i := 0) h2 h1 e2 (by rw [e3]; decide +kernel) (k := 1) (by decide)
    (by rw [e1, e3]; simp [umbDecision, or_comm]) (by rw [e3, e4]; decide +kernel)
  refine ⟨t, k1, a0, a', h0, h1, x, y, k3, ?_, fun w hw ha hk hne => k4 (by rw [e3]; decide +kernel) w hw (by rw [e3]; exact ha) hk hne⟩
  exact k2 ⟨"Effort", .utility, ["effort"], (0, 0), "", some 4⟩ (by decide)

/-- The numbers shown there: with policies `1760/41`, the umbrella left at home `1400/41`, the umbrella taken `1760/41`. -/
example : ((badTry []).toOption.map (fun a => mapGet a.marginals "Effort") = some (some [some (-5), some (1760 / 41)])) ∧
    ((badTry [.togglePolicies, .tab, .tab, .enter]).toOption.map (fun a => mapGet a.marginals "Effort") =
      some (some [some 0, some (1400 / 41)])) ∧
    ((badTry [.togglePolicies, .tab, .tab, .space, .enter]).toOption.map (fun a => mapGet a.marginals "Effort") =
      some (some [some (-5), some (1760 / 41)])) := by
  refine ⟨?_, ?_, ?_⟩ <;> decide +kernel

end Ex

end Bbn
