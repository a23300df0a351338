import Verif.Props.TrainFit
import Verif.Props.NetMarkov
import Verif.Props.NetRecall

/-!
# Queries to a trained network (C113)
-/

set_option autoImplicit false

namespace Bbn

open Finset

variable {α : Type}

/-- The weight of one world counts. -/
theorem mass_pos [Field α] [LinearOrder α] [IsStrictOrderedRing α] {n : Net α} (hn : n.Valid) {P : World → Prop} [DecidablePred P]
    (hP : ∀ w w' : World, (∀ v ∈ n.stateVars, w v.name = w' v.name) → P w → P w')
    (h0 : ∀ f ∈ n.chanceTables, ∀ w, n.Allowed w → 0 ≤ n.prob f w) {t : World} (ha : n.Allowed t) (ht : P t)
    (h : ∀ f ∈ n.chanceTables, 0 < n.prob f t) : 0 < n.mass [] P := by
  let t' : World := fun g => if g ∈ n.stateVars.map NVar.name then t g else 0
  have ht' : ∀ v ∈ n.stateVars, t' v.name = t v.name := fun v hv => if_pos (List.mem_map_of_mem hv)
  have hj : 0 < n.joint [] t' := by
    unfold Net.joint
    rw [List.map_nil, List.prod_nil, mul_one]
    apply List.prod_pos
    intro x hx
    obtain ⟨f, hf, rfl⟩ := List.mem_map.1 hx
    rw [prob_congr n f (w' := t) (fun g hg => ?_)]
    · exact h f hf
    · unfold NFactor.dims at hg
      rw [List.mem_append, List.mem_singleton] at hg
      rcases hg with hg | rfl
      · obtain ⟨v, hv, rfl, hu⟩ := hn.parents f (mem_chanceTables.1 hf).1 (chanceTables_notTotal hn hf) g hg
        exact ht' v (mem_stateVars.2 ⟨hv, hu⟩)
      · obtain ⟨v, hv, e, _⟩ := chanceTables_forVar hf
        rw [← e]
        exact ht' v hv
  refine lt_of_lt_of_le hj ?_
  classical
  have hs := sumWorlds_single (F := fun w => if w = t' then n.joint [] t' else 0) (t := t') n.stateVars (fun _ => 0)
    (stateVars_names hn) (fun v hv => by rw [ht' v hv]; exact ha v hv) (fun g hg => if_neg hg)
    (fun w _ _ hne => if_neg hne)
  rw [if_pos rfl] at hs
  rw [← hs]
  unfold Net.mass Net.total
  apply sumWorlds_le _ _ (stateVars_names hn)
  intro w hw _
  have hjw : 0 ≤ n.joint [] w := by
    unfold Net.joint
    rw [List.map_nil, List.prod_nil, mul_one]
    apply prod_nonneg'
    intro x hx
    obtain ⟨f, hf, rfl⟩ := List.mem_map.1 hx
    exact h0 f hf w hw
  dsimp only
  split_ifs with h1 h2 h2
  · rw [h1, mul_one]
  · exact absurd (hP t w (fun v hv => by rw [h1, ht' v hv]) ht) h2
  · rw [mul_one]; exact hjw
  · rw [mul_zero]

theorem trained_prob [Field α] [DecidableEq α] [CharZero α] {n : Net α} (hn : n.Valid) (ht : n.Trainable) {calls : List (TrainCall α)}
    (hs : ∀ s ∈ samplesOf calls, s.OK n) {t : Trainer α} {n1 n' : Net α} (h1 : trainRun n calls = .ok (t, n1))
    (h2 : updateNetwork t n1 = .ok (n', none)) {f : NFactor α} (hf : f ∈ n'.chanceTables) {w : World} (hw : n.Allowed w) :
    n'.prob f w = ((samplesOf calls).countP (fun s => s.InRow n f.dims w) : α) /
        ((samplesOf calls).countP (fun s => s.InRow n f.given w ∧ s.known n f.forVar ≠ none) : α) := by
  have hsame := trained_same ht hs h1 h2
  have hd := allowed_dims (hsame.valid hn) hf (hsame.allowed.2 hw)
  rw [hsame.count] at hd
  rw [← (C60_relative_frequencies ht hs h1 h2 f hf w hd).1]
  unfold Net.prob
  rw [trained_row hn ht hs h1 h2 hf hw, if_neg one_ne_zero, div_one]

/-- In a network trained with complete samples, what some sample shows is possible. -/
theorem trained_possible [Field α] [LinearOrder α] [IsStrictOrderedRing α] {n : Net α} (hn : n.Valid) (ht : n.Trainable)
    {calls : List (TrainCall α)} (hs : ∀ s ∈ samplesOf calls, s.OK n) (hc : ∀ s ∈ samplesOf calls, s.Complete n)
    {t : Trainer α} {n1 n' : Net α} (h1 : trainRun n calls = .ok (t, n1)) (h2 : updateNetwork t n1 = .ok (n', none))
    {evidence : List (String × String)} (hev : n.EvidenceOK evidence)
    (hseen : ∃ s ∈ samplesOf calls, n.Agrees evidence (s.world n)) : n'.mass [] (n'.Agrees evidence) ≠ 0 := by
  have hsame := trained_same ht hs h1 h2
  have hn' := hsame.valid hn
  obtain ⟨s, hsm, hag⟩ := hseen
  have h0 : ∀ f ∈ n'.chanceTables, ∀ w, n'.Allowed w → 0 ≤ n'.prob f w := by
    intro f hf w hw
    rw [trained_prob hn ht hs h1 h2 hf (hsame.allowed.1 hw)]
    exact div_nonneg (Nat.cast_nonneg _) (Nat.cast_nonneg _)
  have ha : n'.Allowed (s.world n) := hsame.allowed.2 (complete_allowed hn (hs s hsm))
  refine (mass_pos hn' (t := s.world n) ?_ h0 ha ?_ (fun f hf => ?_)).ne'
  · intro w w' hww h e he v hv hve
    rw [← h e he v hv hve]
    obtain ⟨u, hu, hue, hk, _⟩ := hev.known e he
    rw [← hue]
    exact (hww u (by rw [hsame.stateVars]; exact mem_stateVars.2 ⟨hu, hk⟩)).symm
  · intro e he v hv hve
    rw [hsame.vars] at hv
    exact hag e he v hv hve
  · refine lt_of_le_of_ne (h0 f hf _ ha) (Ne.symm ?_)
    obtain ⟨_, hpos⟩ := table_fit hn ht hs hc h1 h2 (m := { n' with factors := n.factors }) (f' := { f with table := none })
      (by rw [hsame.1]; exact SameNetwork.refl n) hf ⟨rfl, rfl⟩ (by simp [NFactor.tab])
    intro e
    exact hpos.ne' (List.prod_eq_zero (List.mem_map.2 ⟨s, hsm, e⟩))

/-- The tables that belong to each other. -/
theorem SameNetwork.below {n n' : Net α} (h : SameNetwork n n') {x y : String} (hb : n'.Below x y) : n.Below x y := by
  have key : ∀ f ∈ n'.chanceTables, ∃ f0 ∈ n.chanceTables, f0.forVar = f.forVar ∧ f0.given = f.given := by
    intro f hf
    obtain ⟨hf1, hf2⟩ := mem_chanceTables.1 hf
    obtain ⟨f0, hf0, tb, rfl, _⟩ := h.2.mem hf1
    rw [h.isKind] at hf2
    exact ⟨f0, mem_chanceTables.2 ⟨hf0, hf2⟩, rfl, rfl⟩
  induction hb with
  | child hf hx =>
    obtain ⟨f0, hf0, e1, e2⟩ := key _ hf
    rw [← e1]
    exact .child hf0 (by rw [e2]; exact hx)
  | step _ hf hy ih =>
    obtain ⟨f0, hf0, e1, e2⟩ := key _ hf
    rw [← e1]
    exact .step ih hf0 (by rw [e2]; exact hy)

theorem SameNetwork.acyclic {n n' : Net α} (h : SameNetwork n n') (ha : n.Acyclic) : n'.Acyclic := by
  obtain ⟨rank, hr⟩ := ha
  refine ⟨rank, fun f hf g hg => ?_⟩
  obtain ⟨hf1, hf2⟩ := mem_chanceTables.1 hf
  obtain ⟨f0, hf0, tb, rfl, _⟩ := h.2.mem hf1
  rw [h.isKind] at hf2
  exact hr f0 (mem_chanceTables.2 ⟨hf0, hf2⟩) g hg

/-- **C113.** After training with complete samples, if all parents of a chance variable are observed, but neither the
variable itself nor any of its descendants, and some sample agrees with the evidence, then `SolveQuery` returns
relative frequencies: of the samples with the parents' outcomes, the share with each outcome of the variable. What
else is observed does not matter. -/
theorem C113_frequencies [Field α] [LinearOrder α] [IsStrictOrderedRing α] (sch : NSched α) {n : Net α} (hn : n.Valid)
    (hpol : n.policies = []) (ht : n.Trainable) (ha : n.Acyclic) {calls : List (TrainCall α)}
    (hs : ∀ s ∈ samplesOf calls, s.OK n) (hc : ∀ s ∈ samplesOf calls, s.Complete n) {t : Trainer α} {n1 n' : Net α}
    (h1 : trainRun n calls = .ok (t, n1)) (h2 : updateNetwork t n1 = .ok (n', none))
    {evidence : List (String × String)} (hev : n.EvidenceOK evidence) {f : NFactor α} (hf : f ∈ n.chanceTables)
    (hpar : ∀ g ∈ f.given, g ∈ evidence.map Prod.fst) (hself : f.forVar ∉ evidence.map Prod.fst)
    (hdesc : ∀ e ∈ evidence, ¬ n.Below f.forVar e.1) (ign : Bool)
    (hseen : ∃ s ∈ samplesOf calls, n.Agrees evidence (s.world n)) :
    ∃ d fac m, n'.solveQuery sch evidence [f.forVar] ign = (.ok ([(f.forVar, d)], fac), m) ∧
      d.length = n.count f.forVar ∧ ∀ w, n.Allowed w → n.Agrees evidence w →
        d[w f.forVar]? = some (((samplesOf calls).countP (fun s => s.InRow n f.dims w) : α) /
          ((samplesOf calls).countP (fun s => s.InRow n f.given w) : α)) := by
  have hsame := trained_same ht hs h1 h2
  have hn' := hsame.valid hn
  obtain ⟨f', hf', e1, e2⟩ : ∃ f' ∈ n'.chanceTables, f'.forVar = f.forVar ∧ f'.given = f.given := by
    obtain ⟨hf1, hf2⟩ := mem_chanceTables.1 hf
    obtain ⟨f0, hf0, tb, rfl, _⟩ := hsame.symm.2.mem hf1
    rw [← hsame.isKind] at hf2
    exact ⟨f0, mem_chanceTables.2 ⟨hf0, hf2⟩, rfl, rfl⟩
  have hd : f'.dims = f.dims := by unfold NFactor.dims; rw [e1, e2]
  have hrow : ∀ g ∈ n'.chanceTables, ∀ w, n'.Allowed w → n'.rowSum g w = 1 := fun g hg w hw =>
    trained_row hn ht hs h1 h2 hg (hsame.allowed.1 hw)
  have hev' : n'.EvidenceOK evidence := ⟨hev.keys, by rw [hsame.vars]; exact hev.known⟩
  obtain ⟨d, fac, m, r1, r2, r3⟩ := C86_markov sch hn' (by rw [hsame.policies]; exact hpol) (hsame.acyclic ha)
    (fun g hg w hw => by rw [hrow g hg w hw]; exact one_ne_zero) hev' hf' (by rw [e2]; exact hpar) (by rw [e1]; exact hself)
    (fun e he hb => hdesc e he (by rw [← e1]; exact hsame.below hb)) ign (trained_possible hn ht hs hc h1 h2 hev hseen)
  rw [e1] at r1
  rw [e1, hsame.count] at r2
  refine ⟨d, fac, m, r1, r2, fun w hw hag => ?_⟩
  have hag' : n'.Agrees evidence w := by
    intro e he v hv hve
    rw [hsame.vars] at hv
    exact hag e he v hv hve
  rw [← e1, r3 w (hsame.allowed.2 hw) hag', hrow f' hf' w (hsame.allowed.2 hw), div_one]
  have hdim := allowed_dims hn' hf' (hsame.allowed.2 hw)
  rw [hsame.count] at hdim
  rw [(C60_relative_frequencies ht hs h1 h2 f' hf' w hdim).1, hd, e1, e2]
  congr 3
  apply List.countP_congr
  intro s hsm
  obtain ⟨v, hv, e, _⟩ := chanceTables_forVar hf
  simp only [decide_eq_true_eq]
  exact and_iff_left (by rw [← e]; exact hc s hsm v hv)

/-- **C113, parents.** If nothing but the parents is observed, some sample always agrees with the evidence: training
would have returned an error otherwise. -/
theorem C113_parents [Field α] [LinearOrder α] [IsStrictOrderedRing α] (sch : NSched α) {n : Net α} (hn : n.Valid)
    (hpol : n.policies = []) (ht : n.Trainable) (ha : n.Acyclic) {calls : List (TrainCall α)}
    (hs : ∀ s ∈ samplesOf calls, s.OK n) (hc : ∀ s ∈ samplesOf calls, s.Complete n) {t : Trainer α} {n1 n' : Net α}
    (h1 : trainRun n calls = .ok (t, n1)) (h2 : updateNetwork t n1 = .ok (n', none))
    {evidence : List (String × String)} (hev : n.EvidenceOK evidence) {f : NFactor α} (hf : f ∈ n.chanceTables)
    (hpar : ∀ g, g ∈ f.given ↔ g ∈ evidence.map Prod.fst) (ign : Bool) :
    ∃ d fac m, n'.solveQuery sch evidence [f.forVar] ign = (.ok ([(f.forVar, d)], fac), m) ∧
      d.length = n.count f.forVar ∧ ∀ w, n.Allowed w → n.Agrees evidence w →
        d[w f.forVar]? = some (((samplesOf calls).countP (fun s => s.InRow n f.dims w) : α) /
          ((samplesOf calls).countP (fun s => s.InRow n f.given w) : α)) := by
  have hsame := trained_same ht hs h1 h2
  have hn' := hsame.valid hn
  obtain ⟨rank, hr⟩ := ha
  have hbelow : ∀ {x y : String}, n.Below x y → rank x < rank y := by
    intro x y h
    induction h with
    | child hf hx => exact hr _ hf _ hx
    | step _ hf hy ih => exact ih.trans (hr _ hf _ hy)
  refine C113_frequencies sch hn hpol ht ⟨rank, hr⟩ hs hc h1 h2 hev hf (fun g hg => (hpar g).1 hg)
    (fun h => lt_irrefl _ (hr f hf _ ((hpar _).2 h)))
    (fun e he hb => absurd (hbelow hb) (not_lt.2 (hr f hf _ ((hpar _).2 (List.mem_map_of_mem he))).le)) ign ?_
  obtain ⟨f', hf', e1, e2⟩ : ∃ f' ∈ n'.chanceTables, f'.forVar = f.forVar ∧ f'.given = f.given := by
    obtain ⟨hf1, hf2⟩ := mem_chanceTables.1 hf
    obtain ⟨f0, hf0, tb, rfl, _⟩ := hsame.symm.2.mem hf1
    rw [← hsame.isKind] at hf2
    exact ⟨f0, mem_chanceTables.2 ⟨hf0, hf2⟩, rfl, rfl⟩
  let w : World := n.observe evidence (fun _ => 0)
  have hobs : ∀ e ∈ evidence, ∀ v ∈ n.variables, v.name = e.1 → w v.name = v.outcomes.idxOf e.2 :=
    fun e he v hv hve => observe_some hn hev.keys he hv hve _
  have hw : n.Allowed w := by
    intro v hv
    have hvm := (mem_stateVars.1 hv).1
    by_cases h : ∀ e ∈ evidence, e.1 ≠ v.name
    · show n.observe evidence (fun _ => 0) v.name < _
      rw [observe_none h]
      exact (hn.outcomes v hvm).1
    · simp only [not_forall, not_not, ne_eq] at h
      obtain ⟨e, he, h⟩ := h
      obtain ⟨u, hu, hue, _, ho⟩ := hev.known e he
      have := name_unique hn hu hvm (hue.trans h)
      subst this
      rw [hobs e he u hvm hue]
      exact List.idxOf_lt_length_iff.2 ho
  have hdim := allowed_dims hn' hf' (hsame.allowed.2 hw)
  rw [hsame.count] at hdim
  have hpos := (C60_relative_frequencies ht hs h1 h2 f' hf' w hdim).2
  rw [List.countP_pos_iff] at hpos
  obtain ⟨s, hsm, hin⟩ := hpos
  simp only [decide_eq_true_eq] at hin
  refine ⟨s, hsm, fun e he v hv hve => ?_⟩
  have hg : v.name ∈ f.given := (hpar _).2 (by rw [hve]; exact List.mem_map_of_mem he)
  have := hin.1 v.name (by rw [e2]; exact hg)
  rw [← hve, ← hobs e he v hv hve]
  unfold Sample.world
  rw [this]
  rfl

/-- Five complete days. -/
def Ex.fullDays : List (Sample ℚ) := Ex.day 0 1 0 (some 100) (some 0) :: Ex.days.take 4

/-- The hypotheses can be met: on one of the three days with sunshine the forecast was bad. -/
example (sch : NSched ℚ) : ∃ (n' : Net ℚ) (fac : Factor ℚ) (m : Net ℚ), trainOn Ex.umb Ex.fullDays = .ok (n', none) ∧
    n'.solveQuery sch [("Weather", "sun")] ["Forecast"] false = (.ok ([("Forecast", [2/3, 1/3])], fac), m) := by
  have htr : (trainOn Ex.umb Ex.fullDays).map (fun r => r.2) = .ok none := by decide +kernel
  obtain ⟨⟨n', e⟩, h, hx⟩ := trainOn_map htr
  dsimp only at hx
  subst hx
  obtain ⟨t, h2, h3⟩ := trainOn_run h
  obtain ⟨d, fac, m, r1, r2, r3⟩ := C113_parents sch Ex.umb_valid rfl Ex.umb_trainable
    ⟨fun s => if s = "Forecast" then 1 else 0, by decide +kernel⟩ (calls := Ex.fullDays.map .add)
    (by
      rw [samplesOf_adds]
      intro s hs
      rcases List.mem_cons.1 hs with rfl | hs
      · exact Ex.day_ok (by decide) (by decide) (by decide) _ _
      · exact Ex.days_ok s (List.mem_of_mem_take hs))
    (by rw [samplesOf_adds]; unfold Sample.Complete; decide +kernel) h2 h3 (evidence := [("Weather", "sun")])
    ⟨by decide, by decide⟩ (f := Ex.umb.factors[1]) (by decide +kernel)
    (fun g => by rw [show Ex.umb.factors[1].given = ["Weather"] from rfl]; rfl) false
  refine ⟨n', fac, m, h, ?_⟩
  have ha : ∀ k < 2, Ex.umb.Allowed (fun s => if s = "Forecast" then k else 0) ∧
      Ex.umb.Agrees [("Weather", "sun")] (fun s => if s = "Forecast" then k else 0) := by
    unfold Net.Allowed; decide
  have q0 := r3 _ (ha 0 (by decide)).1 (ha 0 (by decide)).2
  have q1 := r3 _ (ha 1 (by decide)).1 (ha 1 (by decide)).2
  rw [samplesOf_adds] at q0 q1
  have e0 : ((Ex.fullDays.countP (fun s => s.InRow Ex.umb Ex.umb.factors[1].dims (fun s => if s = "Forecast" then 0 else 0)) : Nat) : ℚ) /
      ((Ex.fullDays.countP (fun s => s.InRow Ex.umb Ex.umb.factors[1].given (fun s => if s = "Forecast" then 0 else 0)) : Nat) : ℚ) = 2 / 3 := by
    decide +kernel
  have e1 : ((Ex.fullDays.countP (fun s => s.InRow Ex.umb Ex.umb.factors[1].dims (fun s => if s = "Forecast" then 1 else 0)) : Nat) : ℚ) /
      ((Ex.fullDays.countP (fun s => s.InRow Ex.umb Ex.umb.factors[1].given (fun s => if s = "Forecast" then 1 else 0)) : Nat) : ℚ) = 1 / 3 := by
    decide +kernel
  rw [e0] at q0
  rw [e1] at q1
  have hd : d = [2/3, 1/3] := by
    have hl : d.length = 2 := r2
    match d, hl with
    | [a, b], _ => rw [show a = 2/3 from Option.some.inj q0, show b = 1/3 from Option.some.inj q1]
  rw [← hd]
  exact r1

end Bbn
