import Verif.Spec.Gains
import Verif.Props.TrainRepeat
import Verif.Props.TrainFit

/-!
# Training with two data sets together (C165)
-/

set_option autoImplicit false

namespace Bbn

variable {α : Type}

/-- Samples that fit can be added, and the network can be updated. -/
theorem trainOn_ok [Field α] {n : Net α} (hn : n.Trainable) {l : List (Sample α)} (hl : ∀ s ∈ l, s.OK n) :
    ∃ r, trainOn n l = .ok r := by
  obtain ⟨t, n1, h, _, n', e, hu, _⟩ := C60_calls hn (l.map TrainCall.add) (by rw [samplesOf_adds]; exact hl)
  unfold trainRun at h
  obtain ⟨t0, e1, h⟩ := bind_inv h
  rw [adds_foldlM] at h
  obtain ⟨t', e2, h⟩ := bind_inv h
  cases h
  refine ⟨(n', e), ?_⟩
  unfold trainOn
  rw [e1, ok_bind, e2, ok_bind]
  exact hu

/-- **C165, enough.** If a data set is enough to train all tables, then so is every larger one. -/
theorem C165_enough [Field α] {n : Net α} (hn : n.Trainable) (hdup : ∀ f ∈ n.factors, f.given.Nodup)
    (hdec : ∀ v ∈ n.variables, v.nodeType = .decision → ∀ f ∈ n.factors, f.forVar = v.name → f.tab = [])
    {l l' : List (Sample α)} (hl : ∀ s ∈ l, s.OK n) (hl' : ∀ s ∈ l', s.OK n) {n1 : Net α}
    (h1 : trainOn n l = .ok (n1, none)) : ∃ m, trainOn n (l ++ l') = .ok (m, none) := by
  have hall : ∀ s ∈ l ++ l', s.OK n := fun s hs => (List.mem_append.1 hs).elim (hl s) (hl' s)
  obtain ⟨⟨m, e⟩, hm⟩ := trainOn_ok hn hall
  obtain ⟨t, r1, r2⟩ := trainOn_run hm
  obtain ⟨t1, q1, q2⟩ := trainOn_run h1
  have a := (C64_partial hn hdup hdec (by rw [samplesOf_adds]; exact hall) r1 r2).1
  have b := (C64_partial hn hdup hdec (by rw [samplesOf_adds]; exact hl) q1 q2).1
  rw [samplesOf_adds] at a b
  by_cases he : e = none
  · exact ⟨m, by rw [hm, he]⟩
  · obtain ⟨v, hv, hd, f, hf, hfv, w, hw, hno⟩ := a.1 he
    exact absurd rfl (b.2 ⟨v, hv, hd, f, hf, hfv, w, hw, fun s hs => hno s (List.mem_append_left _ hs)⟩)

/-- Tables for the same variable have the same parents. -/
theorem given_same {n k m : Net α} (hn : n.Trainable) (h : SameNetwork k m) {f1 f : NFactor α} (hf1 : f1 ∈ k.factors)
    (hf : f ∈ m.factors) (e : f1.forVar = f.forVar) (hk : SameNetwork n k) : f1.given = f.given := by
  obtain ⟨g, hg, tb, eg, _⟩ := h.2.mem hf
  have hnd := (hk.trainable hn).tables
  have : g = f1 := List.inj_on_of_nodup_map hnd hg hf1 (by rw [e, eg])
  rw [← this, eg]

section
variable [Field α] [LinearOrder α] [IsStrictOrderedRing α]

/-- **C165, probabilities.** After training with two data sets together, each probability is the average of the probabilities
after training with either, weighted with the number of samples that count for the row. -/
theorem C165_probabilities {n : Net α} (hn : n.Trainable) {l l' : List (Sample α)} (hl : ∀ s ∈ l, s.OK n)
    (hl' : ∀ s ∈ l', s.OK n) {n1 n2 m : Net α} (h1 : trainOn n l = .ok (n1, none)) (h2 : trainOn n l' = .ok (n2, none))
    (h : trainOn n (l ++ l') = .ok (m, none)) :
    ∀ f ∈ m.chanceTables, ∀ f1 ∈ n1.chanceTables, ∀ f2 ∈ n2.chanceTables, f1.forVar = f.forVar → f2.forVar = f.forVar →
      ∀ w : World, (∀ g ∈ f.dims, w g < n.count g) →
        ∃ a b : Nat, a = l.countP (fun s => s.InRow n f.given w ∧ s.known n f.forVar ≠ none) ∧
          b = l'.countP (fun s => s.InRow n f.given w ∧ s.known n f.forVar ≠ none) ∧ 0 < a ∧ 0 < b ∧
          m.entry f w = ((a : α) * n1.entry f1 w + (b : α) * n2.entry f2 w) / ((a : α) + (b : α)) := by
  intro f hf f1 hf1 f2 hf2 e1 e2 w hw
  have hall : ∀ s ∈ l ++ l', s.OK n := fun s hs => (List.mem_append.1 hs).elim (hl s) (hl' s)
  obtain ⟨t, r1, r2⟩ := trainOn_run h
  obtain ⟨t1, p1, p2⟩ := trainOn_run h1
  obtain ⟨t2, q1, q2⟩ := trainOn_run h2
  have hs0 : ∀ s ∈ samplesOf ((l ++ l').map TrainCall.add), s.OK n := by rw [samplesOf_adds]; exact hall
  have hs1 : ∀ s ∈ samplesOf (l.map TrainCall.add), s.OK n := by rw [samplesOf_adds]; exact hl
  have hs2 : ∀ s ∈ samplesOf (l'.map TrainCall.add), s.OK n := by rw [samplesOf_adds]; exact hl'
  have same := trained_same hn hs0 r1 r2
  have same1 := trained_same hn hs1 p1 p2
  have same2 := trained_same hn hs2 q1 q2
  have g1 := given_same hn (same1.symm.trans same) (mem_chanceTables.1 hf1).1 (mem_chanceTables.1 hf).1 e1 same1
  have g2 := given_same hn (same2.symm.trans same) (mem_chanceTables.1 hf2).1 (mem_chanceTables.1 hf).1 e2 same2
  have d1 : f1.dims = f.dims := by unfold NFactor.dims; rw [g1, e1]
  have d2 : f2.dims = f.dims := by unfold NFactor.dims; rw [g2, e2]
  obtain ⟨c, _⟩ := C60_relative_frequencies hn hs0 r1 r2 f hf w hw
  obtain ⟨c1, k1⟩ := C60_relative_frequencies hn hs1 p1 p2 f1 hf1 w (by rw [d1]; exact hw)
  obtain ⟨c2, k2⟩ := C60_relative_frequencies hn hs2 q1 q2 f2 hf2 w (by rw [d2]; exact hw)
  rw [samplesOf_adds] at c c1 c2 k1 k2
  rw [g1, e1] at c1 k1
  rw [g2, e2] at c2 k2
  rw [d1] at c1
  rw [d2] at c2
  rw [List.countP_append, List.countP_append] at c
  refine ⟨_, _, rfl, rfl, k1, k2, ?_⟩
  have n1 : ((l.countP (fun s => s.InRow n f.given w ∧ s.known n f.forVar ≠ none) : Nat) : α) ≠ 0 := by
    rw [Nat.cast_ne_zero]; exact k1.ne'
  have n2 : ((l'.countP (fun s => s.InRow n f.given w ∧ s.known n f.forVar ≠ none) : Nat) : α) ≠ 0 := by
    rw [Nat.cast_ne_zero]; exact k2.ne'
  rw [c, c1, c2, mul_div_cancel₀ _ n1, mul_div_cancel₀ _ n2]
  push_cast
  rfl

/-- **C165, utilities.** The same for the entries of the tables of utility variables, weighted with the number of utility
values. -/
theorem C165_utilities {n : Net α} (hn : n.Trainable) {l l' : List (Sample α)} (hl : ∀ s ∈ l, s.OK n)
    (hl' : ∀ s ∈ l', s.OK n) {n1 n2 m : Net α} (h1 : trainOn n l = .ok (n1, none)) (h2 : trainOn n l' = .ok (n2, none))
    (h : trainOn n (l ++ l') = .ok (m, none)) :
    ∀ f ∈ m.factors, n.isKind .utility f.forVar = true → ∀ f1 ∈ n1.factors, ∀ f2 ∈ n2.factors, f1.forVar = f.forVar →
      f2.forVar = f.forVar → ∀ w : World, (∀ g ∈ f.dims, w g < n.count g) →
        m.entry f w = (((gainsIn n l f.forVar f.given w).length : α) * n1.entry f1 w +
          ((gainsIn n l' f.forVar f.given w).length : α) * n2.entry f2 w) /
          (((gainsIn n l f.forVar f.given w).length : α) + ((gainsIn n l' f.forVar f.given w).length : α)) := by
  intro f hf hk f1 hf1 f2 hf2 e1 e2 w hw
  have hall : ∀ s ∈ l ++ l', s.OK n := fun s hs => (List.mem_append.1 hs).elim (hl s) (hl' s)
  obtain ⟨t, r1, r2⟩ := trainOn_run h
  obtain ⟨t1, p1, p2⟩ := trainOn_run h1
  obtain ⟨t2, q1, q2⟩ := trainOn_run h2
  have hs0 : ∀ s ∈ samplesOf ((l ++ l').map TrainCall.add), s.OK n := by rw [samplesOf_adds]; exact hall
  have hs1 : ∀ s ∈ samplesOf (l.map TrainCall.add), s.OK n := by rw [samplesOf_adds]; exact hl
  have hs2 : ∀ s ∈ samplesOf (l'.map TrainCall.add), s.OK n := by rw [samplesOf_adds]; exact hl'
  have same := trained_same hn hs0 r1 r2
  have same1 := trained_same hn hs1 p1 p2
  have same2 := trained_same hn hs2 q1 q2
  have g1 := given_same hn (same1.symm.trans same) hf1 hf e1 same1
  have g2 := given_same hn (same2.symm.trans same) hf2 hf e2 same2
  have d1 : f1.dims = f.dims := by unfold NFactor.dims; rw [g1, e1]
  have d2 : f2.dims = f.dims := by unfold NFactor.dims; rw [g2, e2]
  have c := C61_partial hn hs0 r1 r2 f hf hk w hw
  have c1 := C61_partial hn hs1 p1 p2 f1 hf1 (by rw [e1]; exact hk) w (by rw [d1]; exact hw)
  have c2 := C61_partial hn hs2 q1 q2 f2 hf2 (by rw [e2]; exact hk) w (by rw [d2]; exact hw)
  rw [samplesOf_adds] at c c1 c2
  rw [g1, e1] at c1
  rw [g2, e2] at c2
  rw [List.filter_append, List.filterMap_append] at c
  change m.entry f w = (if w f.forVar = 0 then (gainsIn n l f.forVar f.given w ++ gainsIn n l' f.forVar f.given w).sum else 0) /
    ((2 * (gainsIn n l f.forVar f.given w ++ gainsIn n l' f.forVar f.given w).length : Nat) : α) at c
  change n1.entry f1 w = (if w f.forVar = 0 then (gainsIn n l f.forVar f.given w).sum else 0) /
    ((2 * (gainsIn n l f.forVar f.given w).length : Nat) : α) at c1
  change n2.entry f2 w = (if w f.forVar = 0 then (gainsIn n l' f.forVar f.given w).sum else 0) /
    ((2 * (gainsIn n l' f.forVar f.given w).length : Nat) : α) at c2
  rw [c, c1, c2]
  have key : ∀ G : List α, (G.length : α) * ((if w f.forVar = 0 then G.sum else 0) / ((2 * G.length : Nat) : α)) =
      (if w f.forVar = 0 then G.sum else 0) / 2 := by
    intro G
    cases G with
    | nil => simp
    | cons x G =>
      have : (((x :: G).length : Nat) : α) ≠ 0 := by rw [Nat.cast_ne_zero]; simp
      push_cast
      field_simp
  rw [key, key, List.sum_append, List.length_append]
  push_cast
  by_cases h0 : w f.forVar = 0
  · rw [if_pos h0, if_pos h0, if_pos h0, ← add_div, div_div]
  · rw [if_neg h0, if_neg h0, if_neg h0]; simp

end

namespace Ex

/-- A second data set. -/
def moreDays : List (Sample ℚ) :=
  [day 0 1 0 (some 70) (some 0), day 0 0 1 (some 20) (some (-8)), day 1 0 0 (some 10) (some 0), day 1 1 1 (some 50) (some (-2)),
    day 0 1 1 (some 40) (some (-6))]

theorem moreDays_ok : ∀ s ∈ moreDays, s.OK umb := by
  intro s hs
  simp only [moreDays, List.mem_cons, List.not_mem_nil, or_false] at hs
  rcases hs with rfl | rfl | rfl | rfl | rfl <;> exact day_ok (by decide) (by decide) (by decide) _ _

theorem umb_noTable : ∀ v ∈ umb.variables, v.nodeType = .decision → ∀ f ∈ umb.factors, f.forVar = v.name → f.tab = [] := by
  decide +kernel

/-- The hypotheses of `C165_enough`, `C165_probabilities` and `C165_utilities` are met. -/
example : ∃ n1 n2 m, trainOn umb days = .ok (n1, none) ∧ trainOn umb moreDays = .ok (n2, none) ∧
    trainOn umb (days ++ moreDays) = .ok (m, none) ∧
    (∀ f ∈ m.chanceTables, ∀ f1 ∈ n1.chanceTables, ∀ f2 ∈ n2.chanceTables, f1.forVar = f.forVar → f2.forVar = f.forVar →
      ∀ w : World, (∀ g ∈ f.dims, w g < umb.count g) →
        ∃ a b : Nat, a = days.countP (fun s => s.InRow umb f.given w ∧ s.known umb f.forVar ≠ none) ∧
          b = moreDays.countP (fun s => s.InRow umb f.given w ∧ s.known umb f.forVar ≠ none) ∧ 0 < a ∧ 0 < b ∧
          m.entry f w = ((a : ℚ) * n1.entry f1 w + (b : ℚ) * n2.entry f2 w) / ((a : ℚ) + (b : ℚ))) ∧
    ∀ f ∈ m.factors, umb.isKind .utility f.forVar = true → ∀ f1 ∈ n1.factors, ∀ f2 ∈ n2.factors, f1.forVar = f.forVar →
      f2.forVar = f.forVar → ∀ w : World, (∀ g ∈ f.dims, w g < umb.count g) →
        m.entry f w = (((gainsIn umb days f.forVar f.given w).length : ℚ) * n1.entry f1 w +
          ((gainsIn umb moreDays f.forVar f.given w).length : ℚ) * n2.entry f2 w) /
          (((gainsIn umb days f.forVar f.given w).length : ℚ) + ((gainsIn umb moreDays f.forVar f.given w).length : ℚ)) := by
  have ha : (trainOn umb days).map (fun r => r.2) = .ok none := by decide +kernel
  have hb : (trainOn umb moreDays).map (fun r => r.2) = .ok none := by decide +kernel
  obtain ⟨⟨n1, e⟩, h1, hx⟩ := trainOn_map ha
  dsimp only at hx
  subst hx
  obtain ⟨⟨n2, e⟩, h2, hx⟩ := trainOn_map hb
  dsimp only at hx
  subst hx
  obtain ⟨m, h⟩ := C165_enough umb_trainable (by decide) umb_noTable days_ok moreDays_ok h1
  exact ⟨n1, n2, m, h1, h2, h, C165_probabilities umb_trainable days_ok moreDays_ok h1 h2 h,
    C165_utilities umb_trainable days_ok moreDays_ok h1 h2 h⟩

end Ex

end Bbn
