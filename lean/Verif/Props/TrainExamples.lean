import Verif.Props.TrainMissing
import Verif.Props.Xml
import Verif.Props.NetExamples

/-!
# Networks that can be trained, and what training gets wrong (C60 to C64, C76, C77)
-/

set_option autoImplicit false

namespace Bbn

variable {α : Type}

/-- **C76, partial.** A network that `New` returns can be trained (hypothesis of the other theorems on training, and
`NewTrainer` does not panic) if every variable has an outcome and exactly one table, of the right size unless the
variable is a decision. Missing: decisions without a table, see `C76_refuted`. -/
theorem C76_partial [Field α] {name info : String} {vars : List NVar} {factors : List (NFactor α)} {n : Net α}
    (hptr : ∀ v ∈ vars, v.factor = none) (h : newNet name info vars factors = .ok n)
    (hout : ∀ v ∈ vars, v.outcomes ≠ []) (htab : (factors.map NFactor.forVar).Nodup)
    (hhas : ∀ v ∈ vars, ∃ f ∈ factors, f.forVar = v.name)
    (hsize : ∀ v ∈ vars, v.nodeType ≠ .decision → ∀ f ∈ factors, f.forVar = v.name →
      f.tab.length = (f.given.map (fun g => (outcomeCount vars g).getD 0)).prod * v.outcomes.length) :
    n.Trainable ∧ ∃ t, newTrainer n = .ok t := by
  have hb := C35_new_result name info vars factors hptr h
  have hacc : Accepted vars factors := by
    rcases newNet_spec name info vars factors hptr with ⟨ha, _⟩ | ⟨_, h2⟩
    · exact ha
    · rcases h2 with ⟨m, h2⟩ | ⟨⟨m, h2⟩, _⟩ <;> rw [h] at h2 <;> cases h2
  have hcount : ∀ g, n.count g = (outcomeCount vars g).getD 0 := by
    intro g
    unfold Net.count
    rw [hb.links, outcomeCount_linked]
  have hlinkp : ∀ v : NVar, (linked factors v).name = v.name ∧ (linked factors v).nodeType = v.nodeType ∧
      (linked factors v).outcomes = v.outcomes := by
    intro v
    unfold linked; split <;> exact ⟨rfl, rfl, rfl⟩
  have hfors : n.factors.map NFactor.forVar = factors.map NFactor.forVar := by
    have h1 : ∀ l : List (NFactor α), l.map NFactor.forVar = (l.map NFactor.core).map NFactor.forVar := by
      intro l
      rw [List.map_map]
      rfl
    rw [h1 n.factors, h1 factors, hb.tables]
  -- a factor of the network comes from one of the given factors
  have hback : ∀ f ∈ n.factors, ∃ f0 ∈ factors, f0.forVar = f.forVar ∧ f0.given = f.given ∧ f0.tab = f.tab := by
    intro f hf
    have : f.core ∈ factors.map NFactor.core := by
      rw [← hb.tables]
      exact List.mem_map.2 ⟨f, hf, rfl⟩
    obtain ⟨f0, h0, e⟩ := List.mem_map.1 this
    exact ⟨f0, h0, core_parts e⟩
  have htf : ∀ f0 ∈ factors, ∀ v : NVar, f0.forVar = v.name → tableFor factors v = some f0 := by
    intro f0 h0 v e
    unfold tableFor
    cases hg : factors.find? (fun f => f.forVar = v.name) with
    | none =>
      rw [List.find?_eq_none] at hg
      exact absurd e (by simpa using hg f0 h0)
    | some g =>
      have h1 := List.mem_of_find?_eq_some hg
      have h2 := List.find?_some hg
      simp only [decide_eq_true_eq] at h2
      rw [List.inj_on_of_nodup_map htab h1 h0 (h2.trans e.symm)]
  have ht : n.Trainable := by
    constructor
    · rw [hb.links, linked_names]
      exact hacc.names
    · intro v hv
      rw [hb.links] at hv
      obtain ⟨u, hu, rfl⟩ := List.mem_map.1 hv
      rw [(hlinkp u).2.2]
      have := hout u hu
      exact List.length_pos_iff.2 this
    · rw [hfors]; exact htab
    · intro v hv
      rw [hb.links] at hv
      obtain ⟨u, hu, rfl⟩ := List.mem_map.1 hv
      obtain ⟨f0, hf0, e0⟩ := hhas u hu
      obtain ⟨i, hi⟩ : ∃ i, factors.findIdx? (fun f => f.forVar = u.name) = some i := by
        cases hi : factors.findIdx? (fun f => f.forVar = u.name) with
        | none =>
          rw [List.findIdx?_eq_none_iff] at hi
          have := hi f0 hf0
          simp [e0] at this
        | some i => exact ⟨i, rfl⟩
      obtain ⟨f, hf, hfo, hfc⟩ := hb.counts u hu i hi
      refine ⟨i, f, by unfold linked; rw [hi], hf, ?_, ?_, ?_⟩
      · obtain ⟨hlt, hp, _⟩ := List.findIdx?_eq_some_iff_getElem.1 hi
        have := congrArg (fun l => l[i]?) hfors
        simp only [List.getElem?_map, hf, Option.map_some, List.getElem?_eq_getElem hlt, Option.some.injEq] at this
        rw [this, (hlinkp u).1]
        simpa using hp
      · rw [hfo]
        apply List.map_congr_left
        intro g _
        rw [hcount]
      · rw [hfc, (hlinkp u).2.2]
    · intro v hv f hf e g hg
      rw [hb.links] at hv ⊢
      obtain ⟨u, hu, rfl⟩ := List.mem_map.1 hv
      obtain ⟨f0, h0, e1, e2, _⟩ := hback f hf
      rw [(hlinkp u).1] at e
      obtain ⟨x, hx, hxn⟩ := hacc.parents u hu f0 (htf f0 h0 u (e1.trans e)) g (by rw [e2]; exact hg)
      exact ⟨linked factors x, List.mem_map.2 ⟨x, hx, rfl⟩, by rw [(hlinkp x).1, hxn]⟩
    · intro v hv hd f hf e
      have hvn := hv
      rw [hb.links] at hv
      obtain ⟨u, hu, rfl⟩ := List.mem_map.1 hv
      obtain ⟨f0, h0, e1, e2, e3⟩ := hback f hf
      rw [(hlinkp u).1] at e
      rw [(hlinkp u).2.1] at hd
      rw [prod_dims, ← e3, hsize u hu hd f0 h0 (e1.trans e), e, e2]
      congr 1
      · congr 1
        apply List.map_congr_left
        intro g _
        rw [hcount]
      · have hnm : (n.variables.map NVar.name).Nodup := by
          rw [hb.links, linked_names]
          exact hacc.names
        have := count_at hnm hvn
        rw [(hlinkp u).1, (hlinkp u).2.2] at this
        rw [this]
  obtain ⟨t, e, _⟩ := newTrainer_spec ht
  exact ⟨ht, t, e⟩

/-- **C76, refuted.** `New` accepts a network with a decision that has no table; `NewTrainer` panics for it. -/
theorem C76_refuted : ∃ n : Net ℚ, newNet "n" "" [Ex.nv "Act" .decision ["no", "yes"]] [] = .ok n ∧
    Panics (newTrainer n) :=
  ⟨_, rfl, _, rfl⟩

namespace Ex

theorem umb_trainable : umb.Trainable :=
  (C76_partial (name := "umbrella") (info := "") (vars := umbVars) (factors := umbTables) (by decide) umb_new (by decide)
    (by decide) (by decide) (by decide +kernel)).1

/-- A sample for the umbrella network: weather, forecast, umbrella, and the three utility values (the first for the
total). -/
def day (w f u : Int) (c e : Option ℚ) : Sample ℚ := ⟨[w, f, u, 0, 0, 0], some [none, none, none, some 1, c, e]⟩

theorem day_ok {w f u : Int} (hw : w < 2) (hf : f < 2) (hu : u < 2) (c e : Option ℚ) : (day w f u c e).OK umb where
  values := rfl
  range := by
    intro i v k hv hk
    have hi : i < 6 := (List.getElem?_eq_some_iff.1 hk).1
    match i, hi with
    | 0, _ => cases hv; cases hk; exact hw
    | 1, _ => cases hv; cases hk; exact hf
    | 2, _ => cases hv; cases hk; exact hu
    | 3, _ => cases hv; cases hk; decide
    | 4, _ => cases hv; cases hk; decide
    | 5, _ => cases hv; cases hk; decide
  utility := by
    intro u hu
    simp only [day, Option.some.injEq] at hu
    subst hu
    rfl
  utilities := by simp [day]

/-- Five days; on the last the forecast is missing. -/
def days : List (Sample ℚ) :=
  [day 0 0 0 (some 90) (some 0), day 0 0 1 (some 30) (some (-4)), day 1 1 0 (some 0) (some 0),
    day 1 1 1 (some 60) (some (-6)), day 0 (-1) 0 (some 110) (some 0)]

theorem days_ok : ∀ s ∈ days, s.OK umb := by
  intro s hs
  simp only [days, List.mem_cons, List.not_mem_nil, or_false] at hs
  rcases hs with rfl | rfl | rfl | rfl | rfl <;> exact day_ok (by decide) (by decide) (by decide) _ _

theorem days_trained : (trainOn umb days).map (fun r => (r.1.factors.map NFactor.table, r.2)) =
    .ok ([some [3/5, 2/5], some [1, 0, 0, 1], none, some [50, 15, 0, 30], some [0, -5/2], some [1/2, 0]], none) := by
  decide +kernel

end Ex

theorem trainOn_map {β : Type} [Field α] {n : Net α} {l : List (Sample α)} {F : Net α × Option String → β} {x : β}
    (h : (trainOn n l).map F = .ok x) : ∃ r, trainOn n l = .ok r ∧ F r = x := by
  cases e : trainOn n l with
  | error y => rw [e] at h; cases h
  | ok r =>
    rw [e] at h
    injection h with h
    exact ⟨r, rfl, h⟩

/-- The hypotheses of C60 and C61 can be met; on three of the five days the sun shines. -/
example : ∃ (n' : Net ℚ) (f : NFactor ℚ), f ∈ n'.chanceTables ∧ n'.entry f (fun _ => 0) = 3 / 5 := by
  obtain ⟨⟨n', e⟩, h, hx⟩ := trainOn_map Ex.days_trained
  simp only [Prod.mk.injEq] at hx
  obtain ⟨h1, rfl⟩ := hx
  obtain ⟨t, h2, h3⟩ := trainOn_run h
  have key := C60_relative_frequencies Ex.umb_trainable (by rw [samplesOf_adds]; exact Ex.days_ok) h2 h3
  obtain ⟨_, _, e1, _, n'', _, e3, hsame⟩ := C60_calls Ex.umb_trainable (Ex.days.map .add)
    (by rw [samplesOf_adds]; exact Ex.days_ok)
  rw [h2] at e1
  cases e1
  rw [h3] at e3
  cases e3
  obtain ⟨tb, hf, _⟩ := hsame.2.2 0 ⟨"Weather", [], some [70, 30], [], 2⟩ rfl
  have hm : (⟨"Weather", [], tb, [], 2⟩ : NFactor ℚ) ∈ n'.chanceTables := by
    have hk : Ex.umb.isKind .chance "Weather" = true := by decide
    unfold Net.isKind at hk
    unfold Net.chanceTables Net.isKind
    rw [List.mem_filter, hsame.vars]
    exact ⟨List.mem_of_getElem? hf, hk⟩
  refine ⟨n', _, hm, ?_⟩
  rw [(key _ hm (fun _ => 0) (by
    intro g hg
    simp only [NFactor.dims, List.nil_append, List.mem_singleton] at hg
    subst hg
    decide)).1, samplesOf_adds]
  have hc : ((Ex.days.countP (fun s => s.InRow Ex.umb ["Weather"] (fun _ => 0)) : Nat) : ℚ) /
      ((Ex.days.countP (fun s => s.InRow Ex.umb [] (fun _ => 0) ∧ s.known Ex.umb "Weather" ≠ none) : Nat) : ℚ) = 3 / 5 := by
    decide +kernel
  exact hc

/-- **C61, refuted.** After training with the five days the comfort without umbrella when the sun shines is 50, while the
mean of the two samples, 90 and 110, is 100. -/
theorem C61_refuted : ∃ r, trainOn Ex.umb Ex.days = .ok r ∧ r.2 = none ∧ ∃ f, r.1.factors[3]? = some f ∧
    f.forVar = "Comfort" ∧ f.tab[0]? = some 50 ∧
    ((Ex.days.filter (fun s => s.InRow Ex.umb ["Weather", "Umbrella"] (fun _ => 0))).filterMap
      (fun s => s.gain Ex.umb "Comfort")) = [90, 110] := by
  have h : (trainOn Ex.umb Ex.days).map (fun r => (r.2, r.1.factors[3]?)) =
    .ok (none, some ⟨"Comfort", ["Weather", "Umbrella"], some [50, 15, 0, 30], [2, 2], 1⟩) := by decide +kernel
  obtain ⟨r, h1, h2⟩ := trainOn_map h
  simp only [Prod.mk.injEq] at h2
  exact ⟨r, h1, h2.1, _, h2.2, rfl, rfl, by decide +kernel⟩

/-- **C77, refuted.** Training replaces the weights (2, 1) of the total-utility node. -/
theorem C77_refuted : ∃ r, trainOn Ex.umb Ex.days = .ok r ∧ r.2 = none ∧ ∃ f f', Ex.umb.factors[5]? = some f ∧
    r.1.factors[5]? = some f' ∧ f.forVar = "Total" ∧ Ex.umb.totalUtility = some 3 ∧ f.tab = [2, 1] ∧
    f'.tab = [1/2, 0] := by
  have h : (trainOn Ex.umb Ex.days).map (fun r => (r.2, r.1.factors[5]?)) =
    .ok (none, some ⟨"Total", ["Effort", "Comfort"], some [1/2, 0], [1, 1], 2⟩) := by decide +kernel
  obtain ⟨r, h1, h2⟩ := trainOn_map h
  simp only [Prod.mk.injEq] at h2
  exact ⟨r, h1, h2.1, _, _, rfl, h2.2, rfl, rfl, rfl, rfl⟩

/-- **C63, refuted.** A sample without a value for the utility variable "Comfort" still counts for its child, the
total-utility node: without that sample the node's first entry becomes 1/2, with it 1. -/
theorem C63_refuted : ∃ (l : List (Sample ℚ)) (s : Sample ℚ), (∀ x ∈ l ++ [s], x.OK Ex.umb) ∧
    s.gain Ex.umb "Comfort" = none ∧
    ((trainOn Ex.umb l).map (fun r => (r.2, (r.1.factors[5]?).map NFactor.tab)) = .ok (none, some [1/2, 0])) ∧
    ((trainOn Ex.umb (l ++ [s])).map (fun r => (r.2, (r.1.factors[5]?).map NFactor.tab)) = .ok (none, some [1, 0])) := by
  refine ⟨Ex.days, ⟨[0, 0, 0, 0, 0, 0], some [none, none, none, some 7, none, some 0]⟩, ?_, ?_, ?_, ?_⟩
  · intro x hx
    rcases List.mem_append.1 hx with hx | hx
    · exact Ex.days_ok x hx
    · rw [List.mem_singleton] at hx
      subst hx
      refine ⟨rfl, (Ex.day_ok (w := 0) (f := 0) (u := 0) (by decide) (by decide) (by decide) none none).range, ?_, by simp⟩
      intro u hu
      simp only [Option.some.injEq] at hu
      subst hu
      rfl
  all_goals decide +kernel

/-- **C64, refuted.** Without a sample in which it rains the update fails, but has then replaced the weather's table. -/
theorem C64_refuted : ∃ (l : List (Sample ℚ)) (r : Net ℚ × Option String), (∀ s ∈ l, s.OK Ex.umb) ∧
    trainOn Ex.umb l = .ok r ∧ r.2 ≠ none ∧ ∃ f f', Ex.umb.factors[0]? = some f ∧ r.1.factors[0]? = some f' ∧
      f.tab = [70, 30] ∧ f'.tab = [1, 0] := by
  have h : (trainOn Ex.umb (Ex.days.take 2)).map (fun r => (r.2.isSome, r.1.factors[0]?)) =
    .ok (true, some ⟨"Weather", [], some [1, 0], [], 2⟩) := by decide +kernel
  obtain ⟨r, h1, h2⟩ := trainOn_map h
  simp only [Prod.mk.injEq] at h2
  refine ⟨_, r, fun s hs => Ex.days_ok s (List.mem_of_mem_take hs), h1, ?_, _, _, rfl, h2.2, rfl, rfl⟩
  intro hc
  rw [hc] at h2
  simp at h2

/-- The hypotheses of C64 can be met, and both cases occur. -/
example : (∀ f ∈ Ex.umb.factors, f.given.Nodup) ∧
    (∀ v ∈ Ex.umb.variables, v.nodeType = .decision → ∀ f ∈ Ex.umb.factors, f.forVar = v.name → f.tab = []) := by
  decide +kernel

/-- The hypotheses of C63 can be met: on the fifth day the forecast is missing. -/
example : ∃ n1 n2 n3, trainOn Ex.umb (Ex.days.take 4 ++ Ex.day 0 (-1) 0 (some 110) (some 0) :: []) = .ok (n1, none) ∧
    trainOn Ex.umb (Ex.days.take 4 ++ []) = .ok (n2, none) ∧
    trainOn Ex.umb (Ex.days.take 4 ++ Ex.day 0 1 0 (some 110) (some 0) :: []) = .ok (n3, none) ∧
    n1.factors[1]? = n2.factors[1]? ∧ n1.factors[3]? = n3.factors[3]? ∧ n1.factors[1]? ≠ n3.factors[1]? := by
  have h1 : (trainOn Ex.umb (Ex.days.take 4 ++ Ex.day 0 (-1) 0 (some 110) (some 0) :: [])).map (fun r => (r.2, r.1.factors[1]?)) =
    .ok (none, some ⟨"Forecast", ["Weather"], some [1, 0, 0, 1], [2], 2⟩) := by decide +kernel
  have h2 : (trainOn Ex.umb (Ex.days.take 4 ++ [])).map (fun r => r.2) = .ok none := by decide +kernel
  have h3 : (trainOn Ex.umb (Ex.days.take 4 ++ Ex.day 0 1 0 (some 110) (some 0) :: [])).map (fun r => (r.2, r.1.factors[1]?)) =
    .ok (none, some ⟨"Forecast", ["Weather"], some [2/3, 1/3, 0, 1], [2], 2⟩) := by decide +kernel
  obtain ⟨⟨n1, x1⟩, e1, g1⟩ := trainOn_map h1
  obtain ⟨⟨n2, x2⟩, e2, g2⟩ := trainOn_map h2
  obtain ⟨⟨n3, x3⟩, e3, g3⟩ := trainOn_map h3
  simp only [Prod.mk.injEq] at g1 g2 g3
  obtain ⟨rfl, g1⟩ := g1
  subst g2
  obtain ⟨rfl, g3⟩ := g3
  have key := C63_partial Ex.umb_trainable (g := "Forecast") (l1 := Ex.days.take 4) (l2 := [])
    (s := Ex.day 0 (-1) 0 (some 110) (some 0)) (s' := Ex.day 0 1 0 (some 110) (some 0))
    (fun x hx => Ex.days_ok x (by rw [List.append_nil] at hx; exact List.mem_of_mem_take hx))
    (Ex.day_ok (by decide) (by decide) (by decide) _ _) (Ex.day_ok (by decide) (by decide) (by decide) _ _) (by decide)
    (by decide) (by
      intro x hx
      unfold Sample.known
      have hp : Ex.umb.position x ≠ 1 := by
        intro hc
        apply hx
        have hlt : Ex.umb.position x < Ex.umb.variables.length := by rw [hc]; decide
        have := List.findIdx_getElem (xs := Ex.umb.variables) (p := fun v : NVar => v.name = x) (w := hlt)
        rw [decide_eq_true_eq] at this
        have h1 : Ex.umb.variables[Ex.umb.position x]?.map NVar.name = some x := by
          rw [List.getElem?_eq_getElem hlt]
          exact congrArg some this
        rw [hc] at h1
        injection h1 with h1
        exact h1.symm
      generalize Ex.umb.position x = k at hp
      match k with
      | 0 => rfl
      | 1 => exact absurd rfl hp
      | k + 2 => rfl)
    (fun x => rfl) e1 e2 e3
  refine ⟨n1, n2, n3, e1, e2, e3, ?_, ?_, ?_⟩
  · exact (key ⟨"Forecast", .chance, ["good", "bad"], (0, 0), "", some 1⟩ (by decide) (by decide) 1 _ rfl rfl).1 (.inl rfl)
  · exact (key ⟨"Comfort", .utility, ["comfort"], (0, 0), "", some 3⟩ (by decide) (by decide) 3 _ rfl rfl).2
      ⟨by decide, by decide⟩
  · rw [g1, g3]
    decide +kernel

end Bbn
