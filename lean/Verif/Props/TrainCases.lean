import Verif.Props.TrainExamples
import Verif.Props.TrainRepeat
import Verif.Props.TrainQuery

/-!
# The theorems about training, applied to the days of the umbrella network
-/

set_option autoImplicit false

namespace Bbn

namespace Ex

/-- C61: the entry for comfort in the sun without umbrella. -/
example : ∃ (n' : Net ℚ) (f : NFactor ℚ), f ∈ n'.factors ∧ f.forVar = "Comfort" ∧ n'.entry f (fun _ => 0) = 50 := by
  have h0 : (trainOn umb days).map (fun r => (r.2, r.1.factors[3]?)) =
    .ok (none, some ⟨"Comfort", ["Weather", "Umbrella"], some [50, 15, 0, 30], [2, 2], 1⟩) := by decide +kernel
  obtain ⟨⟨n', e⟩, h, hx⟩ := trainOn_map h0
  simp only [Prod.mk.injEq] at hx
  obtain ⟨rfl, h1⟩ := hx
  obtain ⟨t, h2, h3⟩ := trainOn_run h
  have hf := List.mem_of_getElem? h1
  refine ⟨n', _, hf, rfl, ?_⟩
  rw [C61_partial umb_trainable (by rw [samplesOf_adds]; exact days_ok) h2 h3 _ hf (by decide) (fun _ => 0) (by decide),
    samplesOf_adds]
  decide +kernel

/-- C62: the days in reverse order. -/
example : ∃ r, trainOn umb days = .ok r ∧ trainOn umb days.reverse = .ok r := by
  obtain ⟨r, h, _⟩ := trainOn_map days_trained
  exact ⟨r, h, (C62_order umb (List.reverse_perm days).symm r).1 h⟩

/-- C63, utilities: on the fifth day the comfort is not known. -/
example : ∃ n1 n2 n3 : Net ℚ, trainOn umb (days.take 4 ++ day 0 0 0 none (some 0) :: []) = .ok (n1, none) ∧
    trainOn umb (days.take 4 ++ []) = .ok (n2, none) ∧
    trainOn umb (days.take 4 ++ day 0 0 0 (some 110) (some 0) :: []) = .ok (n3, none) ∧
    n1.factors[3]? = n2.factors[3]? ∧ n1.factors[0]? = n3.factors[0]? := by
  have h1 : (trainOn umb (days.take 4 ++ day 0 0 0 none (some 0) :: [])).map (fun r => r.2) = .ok none := by decide +kernel
  have h2 : (trainOn umb (days.take 4 ++ [])).map (fun r => r.2) = .ok none := by decide +kernel
  have h3 : (trainOn umb (days.take 4 ++ day 0 0 0 (some 110) (some 0) :: [])).map (fun r => r.2) = .ok none := by decide +kernel
  obtain ⟨⟨n1, x1⟩, e1, g1⟩ := trainOn_map h1
  obtain ⟨⟨n2, x2⟩, e2, g2⟩ := trainOn_map h2
  obtain ⟨⟨n3, x3⟩, e3, g3⟩ := trainOn_map h3
  dsimp only at g1 g2 g3
  subst g1 g2 g3
  have key := C63_utility_partial umb_trainable (g := "Comfort") (l1 := days.take 4) (l2 := [])
    (s := day 0 0 0 none (some 0)) (s' := day 0 0 0 (some 110) (some 0))
    (fun x hx => days_ok x (by rw [List.append_nil] at hx; exact List.mem_of_mem_take hx))
    (day_ok (by decide) (by decide) (by decide) _ _) (day_ok (by decide) (by decide) (by decide) _ _) (by decide)
    (by decide) (fun x => rfl) (by
      intro x hx
      unfold Sample.gain
      have hp : umb.position x ≠ 4 := by
        intro hc
        apply hx
        have hlt : umb.position x < umb.variables.length := by rw [hc]; decide
        have := List.findIdx_getElem (xs := umb.variables) (p := fun v : NVar => v.name = x) (w := hlt)
        rw [decide_eq_true_eq] at this
        have h1 : umb.variables[umb.position x]?.map NVar.name = some x := by
          rw [List.getElem?_eq_getElem hlt]
          exact congrArg some this
        rw [hc] at h1
        injection h1 with h1
        exact h1.symm
      generalize umb.position x = k at hp
      match k with
      | 0 => rfl
      | 1 => rfl
      | 2 => rfl
      | 3 => rfl
      | 4 => exact absurd rfl hp
      | k + 5 => rfl) e1 e2 e3
  exact ⟨n1, n2, n3, e1, e2, e3,
    (key ⟨"Comfort", .utility, ["comfort"], (0, 0), "", some 3⟩ (by decide) (by decide) 3 _ rfl rfl).1 rfl,
    (key ⟨"Weather", .chance, ["sun", "rain"], (0, 0), "", some 0⟩ (by decide) (by decide) 0 _ rfl rfl).2 (by decide)⟩

/-- C64: with the first two days only, there is nothing to learn about rain. -/
example : ∃ (n' : Net ℚ) (e : Option String), trainOn umb (days.take 2) = .ok (n', e) ∧ e ≠ none := by
  have h0 : (trainOn umb (days.take 2)).map (fun r => r.2.isSome) = .ok true := by decide +kernel
  obtain ⟨⟨n', e⟩, h, hx⟩ := trainOn_map h0
  obtain ⟨t, h2, h3⟩ := trainOn_run h
  refine ⟨n', e, h, (C64_partial umb_trainable (by decide +kernel) (by decide +kernel) (by
    rw [samplesOf_adds]
    exact fun s hs => days_ok s (List.mem_of_mem_take hs)) h2 h3).1.2 ?_⟩
  rw [samplesOf_adds]
  exact ⟨⟨"Forecast", .chance, ["good", "bad"], (0, 0), "", some 1⟩, by decide, by decide,
    ⟨"Forecast", ["Weather"], some [8, 2, 1, 9], [2], 2⟩, by decide +kernel, rfl, fun _ => 1, by decide, by
      unfold Sample.CountsFor; decide +kernel⟩

/-- C126: a network that was trained before is trained like the one from the file. -/
example : ∃ m m1 n1 : Net ℚ, trainOn umb days = .ok (m, none) ∧ trainOn umb (days.take 4) = .ok (n1, none) ∧
    trainOn m (days.take 4) = .ok (m1, none) ∧ m1.factors[0]? = n1.factors[0]? := by
  obtain ⟨t, a1, a2, _⟩ := trainOn_calls umb_trainable days_ok
  obtain ⟨m, e, c1, c2, _⟩ := updateNetwork_spec umb_trainable a2
  have hm : (trainOn umb days).map (fun r => r.2) = .ok none := by decide +kernel
  obtain ⟨⟨m', e'⟩, hm', he'⟩ := trainOn_map hm
  have hx := hm'
  rw [a1, c1] at hx
  obtain ⟨rfl, rfl⟩ := Prod.mk.inj (Except.ok.inj hx)
  dsimp only at he'
  subst he'
  have hn : (trainOn umb (days.take 4)).map (fun r => r.2) = .ok none := by decide +kernel
  obtain ⟨⟨n1, e1⟩, hn1, he1⟩ := trainOn_map hn
  dsimp only at he1
  subst he1
  obtain ⟨m1, h1, _, h2⟩ := C126_forgets umb_trainable c2 (fun s hs => days_ok s (List.mem_of_mem_take hs)) hn1
  exact ⟨m, m1, n1, hm', hn1, h1,
    h2 ⟨"Weather", .chance, ["sun", "rain"], (0, 0), "", some 0⟩ (by decide) (by decide) 0 rfl⟩

end Ex

end Bbn
