import Verif.Lemmas.Again

/-!
# C116: one solver object asked several times; C117: which questions are answered

A user of the package `ve` may keep the object that `New` gives and call `SolveQuery` on it more than once. The calls
work on the tables the call before has left behind.
-/

set_option autoImplicit false

namespace Bbn

variable {α : Type}

/-- Two tables say the same: the same variables and the same value at every assignment. -/
def SameTable [Zero α] (g g' : Factor α) : Prop :=
  (∀ v, v ∈ g.vars ↔ v ∈ g'.vars) ∧
    ∀ σ, Fits σ g.vars → g.get (ints (tupleOf g.vars σ)) = g'.get (ints (tupleOf g'.vars σ))

theorem askAll_spec [CommSemiring α] (sch : Sched α) {vs : Vs} {fs : List (Factor α)} {deps : List (Var × List Var)}
    (hp : Problem vs fs deps) (weights : Option (List α)) (asks : List Ask) : ∀ (ev : List Evid) (H : List Var) (st : VE α),
    Asked vs fs deps ev H st → (H.map Var.id).Nodup →
    (∀ a ∈ asks, EvidenceOK vs.variables a.evidence ∧ Consistent a.evidence) →
    (∀ a ∈ asks, ∀ v ∈ hidden vs.variables deps a.evidence a.query, ∃ f ∈ fs, f.isUtility = false ∧ v ∈ f.vars) →
    (∀ a ∈ asks.head?, (∀ e ∈ ev, e ∈ a.evidence) ∧ ∀ v ∈ H, v ∈ hidden vs.variables deps a.evidence a.query) →
    asks.IsChain (Narrows vs.variables deps) →
    ∃ gs st', st.askAll sch asks = .ok (gs, st') ∧
      List.Forall₂ (fun (a : Ask) g => ∀ sch' : Sched α, ∃ g' t',
        (VE.new vs fs deps weights).solveQuery sch' a.evidence a.query = .ok (g', t') ∧ SameTable g g') asks gs := by
  induction asks with
  | nil => intro ev H st _ _ _ _ _ _; exact ⟨[], st, rfl, .nil⟩
  | cons a asks ih =>
    intro ev H st hst hn hev hin hhd hch
    obtain ⟨h1, h2⟩ := hhd a (by simp)
    obtain ⟨e1, e2⟩ := hev a (by simp)
    obtain ⟨g, st1, k1, k2, k3, k4, k5, k6⟩ := asked_step sch hp hst hn e1 e2 h2 h1 (hin a (by simp))
    obtain ⟨gs, st', l1, l2⟩ := ih _ _ st1 k5 ((List.filter_sublist.map _).nodup hp.ids) (fun b hb => hev b (by simp [hb]))
      (fun b hb => hin b (by simp [hb])) (by
        intro b hb
        cases asks with
        | nil => simp at hb
        | cons c cs =>
          simp only [List.head?_cons, Option.mem_some_iff] at hb
          subst hb
          have := hch.rel_head
          exact ⟨this.evidence, this.summed⟩) hch.tail
    refine ⟨g :: gs, st', ?_, .cons ?_ l2⟩
    · simp only [VE.askAll, k1, ok_bind, l1]
      rfl
    · intro sch'
      obtain ⟨g', t', m1, m2, m3, m4⟩ := C23_solveQuery_exact sch' hp weights e1 a.query (hin a (by simp))
      have hv : ∀ v, v ∈ g.vars ↔ v ∈ g'.vars := by
        intro v
        rw [k3, m3]
        simp [tablesOfProb, and_assoc]
      refine ⟨g', t', m1, hv, ?_⟩
      intro σ hσ
      rw [get_eq_val k2 hσ, k4 σ hσ, m4 σ (fun v h => hσ v ((hv v).2 h))]
      rfl

/-- **C116, what holds.** A solver object is asked one question after the other, and each question repeats the
observations of the one before it and neither asks for nor observes a variable that the one before it summed out.
Then no call panics, and each answer is the one a new object would have given. For every iteration order of every
map, and for any number of questions. -/
theorem C116_asked_again_partial [CommSemiring α] (sch : Sched α) {vs : Vs} {fs : List (Factor α)}
    {deps : List (Var × List Var)} (hp : Problem vs fs deps) (weights : Option (List α)) {asks : List Ask}
    (hev : ∀ a ∈ asks, EvidenceOK vs.variables a.evidence ∧ Consistent a.evidence)
    (hin : ∀ a ∈ asks, ∀ v ∈ hidden vs.variables deps a.evidence a.query,
      ∃ f ∈ fs, f.isUtility = false ∧ v ∈ f.vars)
    (hch : asks.IsChain (Narrows vs.variables deps)) :
    ∃ gs st', (VE.new vs fs deps weights).askAll sch asks = .ok (gs, st') ∧
      List.Forall₂ (fun (a : Ask) g => ∀ sch' : Sched α, ∃ g' t',
        (VE.new vs fs deps weights).solveQuery sch' a.evidence a.query = .ok (g', t') ∧ SameTable g g') asks gs :=
  askAll_spec sch hp weights asks [] [] _ (asked_new hp weights) (by simp) hev hin (by simp) hch

/-- Three questions: weather and forecast; the weather if rain is forecast; how likely it is that rain is forecast. -/
def Ex.threeAsks : List Ask := [⟨[], [Ex.uW, Ex.uF]⟩, ⟨Ex.uev, [Ex.uW]⟩, ⟨Ex.uev, []⟩]

theorem Ex.threeAsks_narrow : Ex.threeAsks.IsChain (Narrows Ex.uvs.variables Ex.udeps) := by
  refine .cons_cons ⟨by decide, by decide⟩ (.cons_cons ⟨by decide, by decide⟩ (.singleton _))

theorem Ex.threeAsks_ok : ∀ a ∈ Ex.threeAsks, EvidenceOK Ex.uvs.variables a.evidence ∧ Consistent a.evidence := by
  unfold EvidenceOK Consistent
  decide

theorem Ex.threeAsks_in : ∀ a ∈ Ex.threeAsks, ∀ v ∈ hidden Ex.uvs.variables Ex.udeps a.evidence a.query,
    ∃ f ∈ Ex.ufs, f.isUtility = false ∧ v ∈ f.vars := by
  decide

example : ∃ gs st', (VE.new Ex.uvs Ex.ufs Ex.udeps none).askAll Ex.backwards Ex.threeAsks = .ok (gs, st') ∧ gs.length = 3 := by
  obtain ⟨gs, st', h1, h2⟩ := C116_asked_again_partial Ex.backwards Ex.umbrella none Ex.threeAsks_ok Ex.threeAsks_in
    Ex.threeAsks_narrow
  exact ⟨gs, st', h1, h2.length_eq.symm⟩

/-- **C116, dropped observations.** If the first question observes a chance variable and the second neither observes
nor asks for it, then the second call panics (unless the variable is known to an open decision). -/
theorem C116_dropped_observation_panics [CommSemiring α] (sch : Sched α) {vs : Vs} {fs : List (Factor α)}
    {deps : List (Var × List Var)} (hp : Problem vs fs deps) (weights : Option (List α)) {a b : Ask}
    (ha : EvidenceOK vs.variables a.evidence) (hac : Consistent a.evidence)
    (hin : ∀ v ∈ hidden vs.variables deps a.evidence a.query, ∃ f ∈ fs, f.isUtility = false ∧ v ∈ f.vars)
    (hb : EvidenceOK vs.variables b.evidence) {e : Evid} (he : e ∈ a.evidence)
    (hdrop : e.var ∈ hidden vs.variables deps b.evidence b.query) :
    (∃ g st', (VE.new vs fs deps weights).solveQuery sch a.evidence a.query = .ok (g, st') ∧
      Panics (st'.solveQuery sch b.evidence b.query)) ∧
    Panics ((VE.new vs fs deps weights).askAll sch [a, b]) := by
  obtain ⟨g, st', k1, k2, k3, k4, k5, k6⟩ := asked_step sch hp (asked_new hp weights) (by simp) ha hac (q := a.query)
    (by simp) (by simp) hin
  have hR : VarsOK vs.variables := ⟨hp.ids, hp.index⟩
  have hpan : Panics (st'.solveQuery sch b.evidence b.query) := by
    refine solveQuery_lost sch st' (by rw [k5.vars]; exact hR) (by rw [k5.deps]; exact hp.depKeys)
      (by rw [k5.deps, k5.vars]; exact hp.depVars) (by rw [k5.vars]; exact k5.len) _ (by rw [k5.vars]; exact k5.elim)
      (by rw [k5.vars]; exact k5.good) (by rw [k5.vars]; exact hb) b.query (v := e.var) ?_ ?_
    · rw [k5.vars, k5.deps]
      exact mem_hidden_append.2 ⟨hdrop, fun w hw h => (mem_hidden.1 hw).2.2.1 e he h.symm⟩
    · intro f hf hv
      exact ((k5.scope e.var).1 ⟨f, hf, hv⟩).2.1 e he rfl
  obtain ⟨m, hm⟩ := hpan
  refine ⟨⟨g, st', k1, m, hm⟩, m, ?_⟩
  simp only [VE.askAll, k1, ok_bind, hm]
  rfl

/-- **C116, variables summed out.** If the second question has the same observations and asks for variables that the
first has summed out, then the second call returns a table without these variables, while a new object returns a
table that has them. -/
theorem C116_summed_out_lost [CommSemiring α] (sch : Sched α) {vs : Vs} {fs : List (Factor α)}
    {deps : List (Var × List Var)} (hp : Problem vs fs deps) (weights : Option (List α)) {evidence : List Evid}
    (hev : EvidenceOK vs.variables evidence) (hc : Consistent evidence) {first second : List Var}
    (hin : ∀ v ∈ hidden vs.variables deps evidence first, ∃ f ∈ fs, f.isUtility = false ∧ v ∈ f.vars)
    (hin2 : ∀ v ∈ hidden vs.variables deps evidence second, ∃ f ∈ fs, f.isUtility = false ∧ v ∈ f.vars)
    {v : Var} (hv : v ∈ hidden vs.variables deps evidence first) (hv2 : v ∈ second) :
    ∃ g st' g2 st2 g' t', (VE.new vs fs deps weights).solveQuery sch evidence first = .ok (g, st') ∧
      st'.solveQuery sch evidence second = .ok (g2, st2) ∧ v ∉ g2.vars ∧
      (VE.new vs fs deps weights).solveQuery sch evidence second = .ok (g', t') ∧ v ∈ g'.vars := by
  obtain ⟨g, st', k1, k2, k3, k4, k5, k6⟩ := asked_step sch hp (asked_new hp weights) (by simp) hev hc (q := first)
    (by simp) (by simp) hin
  obtain ⟨g', t', m1, m2, m3, m4⟩ := C23_solveQuery_exact sch hp weights hev second hin2
  have hR : VarsOK vs.variables := ⟨hp.ids, hp.index⟩
  have key := solveQuery_again sch st' (by rw [k5.vars]; exact hR) (by rw [k5.deps]; exact hp.depKeys)
      (by rw [k5.deps, k5.vars]; exact hp.depVars) (by rw [k5.vars]; exact k5.len) _ (by rw [k5.vars]; exact k5.elim)
      (by rw [k5.vars]; exact k5.good) (ev := evidence) (by rw [k5.vars]; exact hev) second (by
        rw [k5.vars, k5.deps]
        intro w hw
        obtain ⟨h1, h2⟩ := mem_hidden_append.1 hw
        obtain ⟨f, hf, f1, f2⟩ := hin2 w h1
        exact (k5.scope w).2 ⟨⟨f, by simp [tablesOfProb, hf, f1], f2⟩, (mem_hidden.1 h1).2.2.1, fun h => h2 w h rfl⟩)
  obtain ⟨g2, st2, l1, _, l3, _⟩ := key
  refine ⟨g, st', g2, st2, g', t', k1, l1, ?_, m1, ?_⟩
  · intro h
    have := (l3 v).1 h
    exact ((k5.scope v).1 this.1).2.2 hv
  · rw [m3]
    exact ⟨hin v hv, (mem_hidden.1 hv).2.2.1, fun h => (mem_hidden.1 h).2.2.2.1 v hv2 rfl⟩

/-- **C116, utilities.** `SolveQuery` throws the utility tables away: a later `SolveUtility` for the total utility on
the same object panics. -/
theorem C116_utility_after_query_panics [CommSemiring α] (sch : Sched α) {vs : Vs} {fs : List (Factor α)}
    {deps : List (Var × List Var)} (hp : Problem vs fs deps) (weights : Option (List α)) {a b : Ask}
    (ha : EvidenceOK vs.variables a.evidence) (hac : Consistent a.evidence)
    (hin : ∀ v ∈ hidden vs.variables deps a.evidence a.query, ∃ f ∈ fs, f.isUtility = false ∧ v ∈ f.vars)
    (hb : EvidenceOK vs.variables b.evidence) (hu : utilities vs.variables ≠ []) :
    ∃ g st', (VE.new vs fs deps weights).solveQuery sch a.evidence a.query = .ok (g, st') ∧
      Panics (st'.solveUtility sch b.evidence b.query none) := by
  obtain ⟨g, st', k1, k2, k3, k4, k5, k6⟩ := asked_step sch hp (asked_new hp weights) (by simp) ha hac (q := a.query)
    (by simp) (by simp) hin
  refine ⟨g, st', k1, solveUtility_lost sch st' (by rw [k5.vars]; exact hp.ids) (by rw [k5.vars]; exact k5.good)
    (by rw [k5.vars]; exact hb) b.query (by rw [k5.vars]; exact hu) k6⟩

/-- The first question observes the weather, the second does not. -/
def Ex.sunAsk : Ask := ⟨[⟨Ex.uW, 0⟩], [Ex.uF]⟩

/-- The question for the forecast alone. -/
def Ex.forecastAsk : Ask := ⟨[], [Ex.uF]⟩

/-- The question for the weather alone. -/
def Ex.weatherAsk : Ask := ⟨[], [Ex.uW]⟩

/-- **C116 is refuted.** In the umbrella problem a new object answers how likely a rain forecast is, but an object that
was asked the same with the weather observed panics. An object that was asked for the forecast, and is then asked for
the weather, gives a table without the weather. And after a question for the forecast the object panics when it is
asked for the utility, which a new object gives. -/
theorem C116_refuted (sch : Sched ℚ) :
    ((∃ g t, (VE.new Ex.uvs Ex.ufs Ex.udeps none).solveQuery sch Ex.forecastAsk.evidence Ex.forecastAsk.query = .ok (g, t)) ∧
      Panics ((VE.new Ex.uvs Ex.ufs Ex.udeps none).askAll sch [Ex.sunAsk, Ex.forecastAsk])) ∧
    (∃ g g2 st2 g' t', (VE.new Ex.uvs Ex.ufs Ex.udeps none).askAll sch [Ex.forecastAsk, Ex.weatherAsk] = .ok ([g, g2], st2) ∧
      Ex.uW ∉ g2.vars ∧
      (VE.new Ex.uvs Ex.ufs Ex.udeps none).solveQuery sch Ex.weatherAsk.evidence Ex.weatherAsk.query = .ok (g', t') ∧
      Ex.uW ∈ g'.vars) ∧
    (∃ g st', (VE.new Ex.uvs Ex.ufs Ex.udeps (some [1, 2])).solveQuery sch [] [Ex.uF] = .ok (g, st') ∧
      Panics (st'.solveUtility sch [] [] none) ∧
      ∃ g' t', (VE.new Ex.uvs Ex.ufs Ex.udeps (some [1, 2])).solveUtility sch [] [] none = .ok (g', t')) := by
  refine ⟨⟨?_, ?_⟩, ?_, ?_⟩
  · obtain ⟨g, t, h, _⟩ := C23_solveQuery_exact sch Ex.umbrella none (evidence := []) (by unfold EvidenceOK; decide) [Ex.uF]
      (by decide)
    exact ⟨g, t, h⟩
  · exact (C116_dropped_observation_panics sch Ex.umbrella none (a := Ex.sunAsk) (b := Ex.forecastAsk)
      (by unfold EvidenceOK; decide) (by unfold Consistent; decide) (by decide) (by unfold EvidenceOK; decide)
      (e := ⟨Ex.uW, 0⟩) (by decide) (by decide)).2
  · obtain ⟨g, st', g2, st2, g', t', h1, h2, h3, h4, h5⟩ := C116_summed_out_lost sch Ex.umbrella none (evidence := [])
      (by unfold EvidenceOK; decide) (by unfold Consistent; decide) (first := [Ex.uF]) (second := [Ex.uW]) (by decide)
      (by decide) (v := Ex.uW) (by decide) (by decide)
    refine ⟨g, g2, st2, g', t', ?_, h3, h4, h5⟩
    simp only [VE.askAll, Ex.forecastAsk, Ex.weatherAsk, h1, h2, ok_bind]
    rfl
  · obtain ⟨g, st', h1, h2⟩ := C116_utility_after_query_panics sch Ex.umbrella (some [1, 2]) (a := ⟨[], [Ex.uF]⟩)
      (b := ⟨[], []⟩) (by unfold EvidenceOK; decide) (by unfold Consistent; decide) (by decide)
      (by unfold EvidenceOK; decide) (by decide)
    obtain ⟨g', t', h3, _⟩ := C25_solveUtility_total sch Ex.umbrella Ex.umbrella_utility (evidence := [])
      (by unfold EvidenceOK; decide) [] (by decide)
    exact ⟨g, st', h1, h2, g', t', h3⟩

/-- **C117.** `SolveQuery` on a new object answers exactly if every chance variable it has to sum out (not observed, not
asked for, not known to a decision) is in some probability table. Otherwise it panics: it returns no number that could
be mistaken for an answer. For every iteration order of every map. -/
theorem C117_answers_iff [CommSemiring α] (sch : Sched α) {vs : Vs} {fs : List (Factor α)}
    {deps : List (Var × List Var)} (hp : Problem vs fs deps) (weights : Option (List α)) {evidence : List Evid}
    (hev : EvidenceOK vs.variables evidence) (query : List Var) :
    ((∃ g st', (VE.new vs fs deps weights).solveQuery sch evidence query = .ok (g, st')) ↔
      ∀ v ∈ hidden vs.variables deps evidence query, ∃ f ∈ fs, f.isUtility = false ∧ v ∈ f.vars) ∧
    ((¬ ∀ v ∈ hidden vs.variables deps evidence query, ∃ f ∈ fs, f.isUtility = false ∧ v ∈ f.vars) →
      Panics ((VE.new vs fs deps weights).solveQuery sch evidence query)) := by
  have hlost : (¬ ∀ v ∈ hidden vs.variables deps evidence query, ∃ f ∈ fs, f.isUtility = false ∧ v ∈ f.vars) →
      Panics ((VE.new vs fs deps weights).solveQuery sch evidence query) := by
    intro h
    push Not at h
    obtain ⟨v, hv, h⟩ := h
    have k5 := asked_new hp weights
    have hR : VarsOK vs.variables := ⟨hp.ids, hp.index⟩
    refine solveQuery_lost sch _ (by rw [k5.vars]; exact hR) (by rw [k5.deps]; exact hp.depKeys)
      (by rw [k5.deps, k5.vars]; exact hp.depVars) (by rw [k5.vars]; exact k5.len) [] (by rw [k5.vars]; exact k5.elim)
      (by rw [k5.vars]; exact k5.good) (by rw [k5.vars]; exact hev) query (v := v) ?_ ?_
    · rw [k5.vars, k5.deps, List.append_nil]; exact hv
    · rw [(new_good hp weights).1]
      intro f hf
      simp only [tablesOfProb, List.mem_filter, Bool.not_eq_true'] at hf
      exact h f hf.1 hf.2
  refine ⟨⟨?_, ?_⟩, hlost⟩
  · rintro ⟨g, st', h⟩
    by_contra hc
    obtain ⟨m, hm⟩ := hlost hc
    rw [h] at hm
    cases hm
  · intro hin
    obtain ⟨g, st', h, _⟩ := C23_solveQuery_exact sch hp weights hev query hin
    exact ⟨g, st', h⟩

/-- Only the table of the weather. -/
theorem Ex.onlyWeather : Problem Ex.uvs [Ex.tW] [] where
  ids := Ex.umbrella.ids
  index := Ex.umbrella.index
  facIds := by decide
  facLt := by decide
  facWF := fun f hf => Ex.umbrella.facWF f (by simp at hf; simp [Ex.ufs, hf])
  facVars := by decide
  depKeys := by decide
  depVars := by decide

/-- The forecast has no table: asking for the weather panics, asking for both does not. -/
example (sch : Sched ℚ) : Panics ((VE.new Ex.uvs [Ex.tW] [] none).solveQuery sch [] [Ex.uW]) ∧
    ∃ g st', (VE.new Ex.uvs [Ex.tW] [] none).solveQuery sch [] [Ex.uW, Ex.uF] = .ok (g, st') :=
  ⟨(C117_answers_iff sch Ex.onlyWeather none (by unfold EvidenceOK; decide) [Ex.uW]).2 (by decide),
    (C117_answers_iff sch Ex.onlyWeather none (by unfold EvidenceOK; decide) [Ex.uW, Ex.uF]).1.2 (by decide)⟩

end Bbn
