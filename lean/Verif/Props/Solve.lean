import Verif.Lemmas.Utility
import Verif.Props.Ops
import Mathlib.Tactic.Ring

/-!
# C23-C27: queries to the solver
-/

set_option autoImplicit false

namespace Bbn

open Finset

variable {α : Type}

namespace Ex

theorem umbrella : Problem uvs ufs udeps where
  ids := by decide
  index := by
    intro i v h
    rcases i with _ | _ | _ | _ | _ | i <;> simp [uvs] at h <;> subst h <;> rfl
  facIds := by decide
  facLt := by decide
  facWF := by
    intro f hf
    simp only [ufs, List.mem_cons, List.not_mem_nil, or_false] at hf
    rcases hf with rfl | rfl | rfl | rfl <;> exact ⟨by decide, by decide⟩
  facVars := by decide
  depKeys := by decide
  depVars := by decide

theorem umbrella_utility : UtilityOK uvs.variables ufs (some [1, 2]) where
  one := by decide
  only := by decide
  has := by decide
  some := by decide
  weights := by intro ws h; simp at h; subst h; decide

/-- Rain is forecast. -/
def uev : List Evid := [⟨uF, 1⟩]

theorem uev_ok : EvidenceOK uvs.variables uev := by unfold EvidenceOK; decide

/-- The schedule that iterates over every map backwards. -/
def backwards : Sched ℚ where
  ord _ l := (List.range l.length).reverse
  var _ l := l.reverse
  dep _ l := l.reverse
  ord_perm _ l := List.reverse_perm _
  var_perm _ l := List.reverse_perm l
  dep_perm _ l := List.reverse_perm l

/-- Sunshine, no umbrella; the forecast is overridden by the evidence. -/
def uσ : Assignment := fun _ => 0

end Ex

theorem get_eq_val [Zero α] {g : Factor α} (h : g.WF) {σ : Assignment} (hσ : Fits σ g.vars) :
    g.get (ints (tupleOf g.vars σ)) = .ok (g.val σ) := val_eq_get h hσ

theorem keep_none {vars : List Var} {fs : List (Factor α)} (h : ∀ f ∈ fs, ∀ v ∈ f.vars, v ∈ vars) :
    fs.filter (fun f => !(utilities vars).any (fun u => notExcept none u ∧ u ∈ f.vars)) =
      fs.filter (fun f => !f.isUtility) := by
  apply List.filter_congr
  intro f hf
  rw [← mem_isUtility (h f hf)]
  simp [notExcept]

/-- **C23.** `SolveQuery`: the result is over exactly the non-observed, non-hidden variables of the probability
tables, and its value at each assignment of these is the sum, over all outcomes of all hidden variables, of the
product of all probability tables with the evidence plugged in. For every iteration order of every map. -/
theorem C23_solveQuery_exact [CommSemiring α] (sch : Sched α) {vs : Vs} {fs : List (Factor α)}
    {deps : List (Var × List Var)} (hp : Problem vs fs deps) (weights : Option (List α)) {evidence : List Evid}
    (hev : EvidenceOK vs.variables evidence) (query : List Var)
    (hin : ∀ v ∈ hidden vs.variables deps evidence query, ∃ f ∈ fs, f.isUtility = false ∧ v ∈ f.vars) :
    ∃ g st', (VE.new vs fs deps weights).solveQuery sch evidence query = .ok (g, st') ∧ g.WF ∧
      (∀ v, v ∈ g.vars ↔ (∃ f ∈ fs, f.isUtility = false ∧ v ∈ f.vars) ∧ (∀ e ∈ evidence, e.var.id ≠ v.id) ∧
        v ∉ hidden vs.variables deps evidence query) ∧
      ∀ σ, Fits σ g.vars → g.get (ints (tupleOf g.vars σ)) =
        .ok (sumOver (hidden vs.variables deps evidence query)
          (fun τ => ((fs.filter (fun f => !f.isUtility)).map (fun f => f.val (plug evidence τ))).prod) σ) := by
  obtain ⟨g, st', h1, h2, h3, h4, _⟩ := solve_remove_spec sch hp weights hev query none (keep_none hp.facVars).symm
    (fun v hv => by
      obtain ⟨f, hf, h1, h2⟩ := hin v hv
      exact ⟨f, by simp [hf, h1], h2⟩)
  refine ⟨g, st', h1, h2, ?_, ?_⟩
  · intro v
    rw [h3]
    simp [and_assoc]
  · intro σ hσ
    rw [get_eq_val h2 hσ, h4 σ hσ]; rfl

/-- The probability of sunshine and a rain forecast is 7/10 · 2/10. -/
example : ∃ g st', (VE.new Ex.uvs Ex.ufs Ex.udeps none).solveQuery Ex.backwards Ex.uev [Ex.uW] = .ok (g, st') ∧
    ∃ t, g.get t = .ok (14/100) := by
  obtain ⟨g, st', h1, _, h3, h4⟩ := C23_solveQuery_exact Ex.backwards Ex.umbrella none Ex.uev_ok [Ex.uW] (by decide)
  refine ⟨g, st', h1, _, (h4 Ex.uσ ?_).trans ?_⟩
  · intro v hv
    have := (h3 v).1 hv
    have hv2 : v ∈ Ex.uvs.variables := by
      obtain ⟨⟨f, hf, _, h⟩, _⟩ := this
      exact Ex.umbrella.facVars f hf v h
    exact (by decide : ∀ w ∈ Ex.uvs.variables, Ex.uσ w.id < w.outcomes) v hv2
  · decide +kernel

/-- **C24, order.** Whatever the iteration orders, the hidden variables are eliminated in one and the same order:
by their degree in the tables (without the observed variables), then by ID. -/
theorem C24_elimination_order [CommSemiring α] {vs : Vs} {fs : List (Factor α)}
    {deps : List (Var × List Var)} (hp : Problem vs fs deps) (weights : Option (List α)) {evidence : List Evid}
    (hev : EvidenceOK vs.variables evidence) (query : List Var)
    (hin : ∀ v ∈ hidden vs.variables deps evidence query, ∃ f ∈ fs, f.isUtility = false ∧ v ∈ f.vars) :
    ∃ order : List Var, order.Perm (hidden vs.variables deps evidence query) ∧
      order.Pairwise (DegreeThenId ((scopes (fs.filter (fun f => !f.isUtility))).map
        (fun s => s \ (evidence.map (fun e => e.var.id)).toFinset))) ∧
      ∀ sch : Sched α, ∃ g st', (VE.new vs fs deps weights).solveQuery sch evidence query = .ok (g, st') ∧
        st'.log = order.map Var.id := by
  have key := fun sch : Sched α => solve_remove_spec sch hp weights hev query none (keep_none hp.facVars).symm
    (fun v hv => by
      obtain ⟨f, hf, h1, h2⟩ := hin v hv
      exact ⟨f, by simp [hf, h1], h2⟩)
  let s0 : Sched α := ⟨fun _ l => List.range l.length, fun _ l => l, fun _ l => l, fun _ _ => .refl _, fun _ _ => .refl _, fun _ _ => .refl _⟩
  obtain ⟨_, _, _, _, _, _, order, _, o2, o3⟩ := key s0
  refine ⟨order, o2, o3, fun sch => ?_⟩
  obtain ⟨g, st', h1, _, _, _, hs, h5, h6, h7⟩ := key sch
  refine ⟨g, st', h1, ?_⟩
  rw [h5, order_unique (h6.trans o2.symm) h7 o3]

/-- **C24, values.** Whatever the iteration orders of the two runs, the results have the same variables and the same
value at every assignment. -/
theorem C24_same_values [CommSemiring α] (sch sch' : Sched α) {vs : Vs} {fs : List (Factor α)}
    {deps : List (Var × List Var)} (hp : Problem vs fs deps) (weights : Option (List α)) {evidence : List Evid}
    (hev : EvidenceOK vs.variables evidence) (query : List Var)
    (hin : ∀ v ∈ hidden vs.variables deps evidence query, ∃ f ∈ fs, f.isUtility = false ∧ v ∈ f.vars) :
    ∃ g t g' t', (VE.new vs fs deps weights).solveQuery sch evidence query = .ok (g, t) ∧
      (VE.new vs fs deps weights).solveQuery sch' evidence query = .ok (g', t') ∧
      (∀ v, v ∈ g.vars ↔ v ∈ g'.vars) ∧
      ∀ σ, Fits σ g.vars → g.get (ints (tupleOf g.vars σ)) = g'.get (ints (tupleOf g'.vars σ)) := by
  obtain ⟨g, t, h1, h2, h3, h4⟩ := C23_solveQuery_exact sch hp weights hev query hin
  obtain ⟨g', t', k1, k2, k3, k4⟩ := C23_solveQuery_exact sch' hp weights hev query hin
  have hv : ∀ v, v ∈ g.vars ↔ v ∈ g'.vars := fun v => (h3 v).trans (k3 v).symm
  exact ⟨g, t, g', t', h1, k1, hv, fun σ hσ => (h4 σ hσ).trans (k4 σ (fun v hv' => hσ v ((hv v).2 hv'))).symm⟩

/-- **C24, utility.** The same for the total utility: same order of elimination and same values. -/
theorem C24_same_utility [CommSemiring α] (sch sch' : Sched α) {vs : Vs} {fs : List (Factor α)}
    {deps : List (Var × List Var)} (hp : Problem vs fs deps) {weights : Option (List α)}
    (hu : UtilityOK vs.variables fs weights) {evidence : List Evid}
    (hev : EvidenceOK vs.variables evidence) (query : List Var)
    (hin : ∀ v ∈ hidden vs.variables deps evidence query, ∃ f ∈ fs, v ∈ f.vars) :
    ∃ g t g' t', (VE.new vs fs deps weights).solveUtility sch evidence query none = .ok (g, t) ∧
      (VE.new vs fs deps weights).solveUtility sch' evidence query none = .ok (g', t') ∧
      (∀ v, v ∈ g.vars ↔ v ∈ g'.vars) ∧ t.log = t'.log ∧
      ∀ σ, Fits σ g.vars → g.get (ints (tupleOf g.vars σ)) = g'.get (ints (tupleOf g'.vars σ)) := by
  obtain ⟨g, t, h1, h2, h3, h4, hs, h5, h6, h7⟩ := solve_total_spec sch hp hu hev query hin
  obtain ⟨g', t', k1, k2, k3, k4, ks, k5, k6, k7⟩ := solve_total_spec sch' hp hu hev query hin
  have hv : ∀ v, v ∈ g.vars ↔ v ∈ g'.vars := fun v => (h3 v).trans (k3 v).symm
  refine ⟨g, t, g', t', h1, k1, hv, ?_, ?_⟩
  · rw [h5, k5, order_unique (h6.trans k6.symm) h7 k7]
  · intro σ hσ
    have hσ' : Fits σ g'.vars := fun v hv' => hσ v ((hv v).2 hv')
    rw [get_eq_val h2 hσ, get_eq_val k2 hσ']
    -- the utility variables do not occur in the results, so they may be set to zero
    let τ : Assignment := fun i => if i ∈ (utilities vs.variables).map Var.id then 0 else σ i
    have hagree : ∀ v, v ∈ g.vars → τ v.id = σ v.id := by
      intro v hvg
      obtain ⟨⟨f, hf, hvf⟩, hnt, _⟩ := (h3 v).1 hvg
      have hvR := hp.facVars f hf v hvf
      have : v.id ∉ (utilities vs.variables).map Var.id := by
        intro h
        obtain ⟨w, hw, e⟩ := List.mem_map.1 h
        simp only [utilities, List.mem_filter, decide_eq_true_eq] at hw
        have := coherent_of_nodup hp.ids w hw.1 v hvR e
        exact hnt (this ▸ hw.2)
      simp only [τ, if_neg this]
    have hτ0 : ∀ u ∈ utilities vs.variables, τ u.id = 0 := by
      intro u hu'
      simp only [τ, if_pos (List.mem_map_of_mem (f := Var.id) hu')]
    have e1 : g.val σ = g.val τ := g.val_congr (fun v hv' => (hagree v hv').symm)
    have e2 : g'.val σ = g'.val τ := g'.val_congr (fun v hv' => (hagree v ((hv v).2 hv')).symm)
    have f1 : Fits τ g.vars := fun v hv' => by rw [hagree v hv']; exact hσ v hv'
    have f2 : Fits τ g'.vars := fun v hv' => by rw [hagree v ((hv v).2 hv')]; exact hσ' v hv'
    rw [e1, e2, h4 τ f1 hτ0, k4 τ f2 hτ0]

/-- The hypotheses of the three parts of **C24** hold for the umbrella problem: with the forecast observed, any two runs
eliminate the weather only, and find the same values. -/
example (sch sch' : Sched ℚ) : ∃ g t g' t' u s u' s',
    (VE.new Ex.uvs Ex.ufs Ex.udeps none).solveQuery sch Ex.uev [Ex.uW] = .ok (g, t) ∧
    (VE.new Ex.uvs Ex.ufs Ex.udeps none).solveQuery sch' Ex.uev [Ex.uW] = .ok (g', t') ∧ t.log = t'.log ∧
    (∀ σ, Fits σ g.vars → g.get (ints (tupleOf g.vars σ)) = g'.get (ints (tupleOf g'.vars σ))) ∧
    (VE.new Ex.uvs Ex.ufs Ex.udeps (some [1, 2])).solveUtility sch Ex.uev [Ex.uD] none = .ok (u, s) ∧
    (VE.new Ex.uvs Ex.ufs Ex.udeps (some [1, 2])).solveUtility sch' Ex.uev [Ex.uD] none = .ok (u', s') ∧ s.log = s'.log ∧
    hidden Ex.uvs.variables Ex.udeps Ex.uev [Ex.uD] = [Ex.uW] ∧
    ∀ σ, Fits σ u.vars → u.get (ints (tupleOf u.vars σ)) = u'.get (ints (tupleOf u'.vars σ)) := by
  obtain ⟨order, _, _, h1⟩ := C24_elimination_order Ex.umbrella none Ex.uev_ok [Ex.uW] (by decide)
  obtain ⟨g, t, g', t', h2, h3, _, h4⟩ := C24_same_values sch sch' Ex.umbrella none Ex.uev_ok [Ex.uW] (by decide)
  obtain ⟨u, s, u', s', k1, k2, _, k4, k5⟩ := C24_same_utility sch sch' Ex.umbrella Ex.umbrella_utility Ex.uev_ok [Ex.uD]
    (by decide)
  obtain ⟨_, _, a1, a2⟩ := h1 sch
  obtain ⟨_, _, b1, b2⟩ := h1 sch'
  rw [h2] at a1
  rw [h3] at b1
  obtain ⟨rfl, rfl⟩ := Prod.mk.inj (Except.ok.inj a1)
  obtain ⟨rfl, rfl⟩ := Prod.mk.inj (Except.ok.inj b1)
  exact ⟨g, t, g', t', u, s, u', s', h2, h3, a2.trans b2.symm, h4, k1, k2, k4, by decide, k5⟩

/-- **C25.** `SolveUtility` without a utility variable: the expected weighted utility. At each assignment of the
result's variables it is the sum, over all outcomes of the hidden variables, of the product of the probability
tables times the weighted sum of the utility tables, all with the evidence plugged in. -/
theorem C25_solveUtility_total [CommSemiring α] (sch : Sched α) {vs : Vs} {fs : List (Factor α)}
    {deps : List (Var × List Var)} (hp : Problem vs fs deps) {weights : Option (List α)}
    (hu : UtilityOK vs.variables fs weights) {evidence : List Evid}
    (hev : EvidenceOK vs.variables evidence) (query : List Var)
    (hin : ∀ v ∈ hidden vs.variables deps evidence query, ∃ f ∈ fs, v ∈ f.vars) :
    ∃ g st', (VE.new vs fs deps weights).solveUtility sch evidence query none = .ok (g, st') ∧ g.WF ∧
      (∀ v, v ∈ g.vars ↔ (∃ f ∈ fs, v ∈ f.vars) ∧ v.nodeType ≠ .utility ∧ (∀ e ∈ evidence, e.var.id ≠ v.id) ∧
        v ∉ hidden vs.variables deps evidence query) ∧
      ∀ σ, Fits σ g.vars → (∀ u ∈ utilities vs.variables, σ u.id = 0) → g.get (ints (tupleOf g.vars σ)) =
        .ok (sumOver (hidden vs.variables deps evidence query) (fun τ =>
          ((fs.filter (fun f => !f.isUtility)).map (fun f => f.val (plug evidence τ))).prod *
            totalUtility vs.variables fs weights (plug evidence τ)) σ) := by
  obtain ⟨g, st', h1, h2, h3, h4, _⟩ := solve_total_spec sch hp hu hev query hin
  refine ⟨g, st', h1, h2, h3, fun σ hσ h0 => ?_⟩
  rw [get_eq_val h2 hσ, h4 σ hσ h0]; rfl

/-- No umbrella under a rain forecast: 7/10 · 2/10 · 100 + 3/10 · 9/10 · 0. -/
example : ∃ g st', (VE.new Ex.uvs Ex.ufs Ex.udeps (some [1, 2])).solveUtility Ex.backwards Ex.uev [Ex.uD] none =
      .ok (g, st') ∧ ∃ t, g.get t = .ok 14 := by
  obtain ⟨g, st', h1, _, h3, h4⟩ := C25_solveUtility_total Ex.backwards Ex.umbrella Ex.umbrella_utility Ex.uev_ok
    [Ex.uD] (by decide)
  refine ⟨g, st', h1, _, (h4 Ex.uσ ?_ (fun _ _ => rfl)).trans ?_⟩
  · intro v hv
    have hv2 : v ∈ Ex.uvs.variables := by
      obtain ⟨⟨f, hf, h⟩, _⟩ := (h3 v).1 hv
      exact Ex.umbrella.facVars f hf v h
    exact (by decide : ∀ w ∈ Ex.uvs.variables, Ex.uσ w.id < w.outcomes) v hv2
  · decide +kernel

theorem single_keep {vars : List Var} {fs : List (Factor α)} (hid : (vars.map Var.id).Nodup)
    (hsub : ∀ f ∈ fs, ∀ v ∈ f.vars, v ∈ vars)
    (honly : ∀ f ∈ fs, ∀ u ∈ f.vars, ∀ w ∈ f.vars, u.nodeType = .utility → w.nodeType = .utility → u = w)
    {u : Var} (hu : u ∈ vars) (hut : u.nodeType = .utility) :
    (fs.filter (fun f => !(utilities vars).any (fun w => notExcept (some u) w ∧ w ∈ f.vars))) =
      fs.filter (fun f => !f.isUtility || decide (u ∈ f.vars)) := by
  apply List.filter_congr
  intro f hf
  rw [Bool.eq_iff_iff]
  simp only [Bool.not_eq_true', List.any_eq_false, decide_eq_true_eq, Bool.or_eq_true, utilities, List.mem_filter,
    notExcept, Factor.isUtility, not_and]
  constructor
  · intro h
    by_cases huf : u ∈ f.vars
    · exact .inr huf
    · refine .inl (fun w hw hwt => ?_)
      refine h w ⟨hsub f hf w hw, hwt⟩ ?_ hw
      intro e
      have := coherent_of_nodup hid w (hsub f hf w hw) u hu e
      exact huf (this ▸ hw)
  · rintro (h | h) w ⟨hwR, hwt⟩ hne hwf
    · exact h w hwf hwt
    · exact hne (by rw [honly f hf w hwf u h hwt hut])

theorem single_joint [CommSemiring α] {fs : List (Factor α)} {u : Var} (hut : u.nodeType = .utility) {fu : Factor α}
    (hfu : fs.filter (fun f => u ∈ f.vars) = [fu]) (σ : Assignment) :
    joint (fs.filter (fun f => !f.isUtility || decide (u ∈ f.vars))) σ =
      joint (fs.filter (fun f => !f.isUtility)) σ * fu.val σ := by
  have himp : ∀ f : Factor α, u ∈ f.vars → f.isUtility = true := by
    intro f h
    simp only [Factor.isUtility, List.any_eq_true, decide_eq_true_eq]
    exact ⟨u, h, hut⟩
  rw [joint_perm (filter_perm_split (fun f => !f.isUtility)), joint_append, List.filter_filter, List.filter_filter]
  congr 1
  · congr 1
    apply List.filter_congr
    intro f _
    cases f.isUtility <;> simp
  · have : fs.filter (fun f => !!f.isUtility && (!f.isUtility || decide (u ∈ f.vars))) = [fu] := by
      rw [← hfu]
      apply List.filter_congr
      intro f _
      by_cases h : u ∈ f.vars
      · simp [h, himp f h]
      · cases f.isUtility <;> simp [h]
    rw [this]
    simp [joint]

/-- **C26.** `SolveUtility` for one utility variable `u`: the same with only `u`'s table; the other utility tables do
not occur. -/
theorem C26_solveUtility_single [CommSemiring α] (sch : Sched α) {vs : Vs} {fs : List (Factor α)}
    {deps : List (Var × List Var)} (hp : Problem vs fs deps) (weights : Option (List α))
    (honly : ∀ f ∈ fs, ∀ u ∈ f.vars, ∀ w ∈ f.vars, u.nodeType = .utility → w.nodeType = .utility → u = w)
    {evidence : List Evid} (hev : EvidenceOK vs.variables evidence) (query : List Var)
    {u : Var} (hu : u ∈ vs.variables) (hut : u.nodeType = .utility) {fu : Factor α}
    (hfu : fs.filter (fun f => u ∈ f.vars) = [fu])
    (hin : ∀ v ∈ hidden vs.variables deps evidence query,
      (∃ f ∈ fs, f.isUtility = false ∧ v ∈ f.vars) ∨ v ∈ fu.vars) :
    ∃ g st', (VE.new vs fs deps weights).solveUtility sch evidence query (some u) = .ok (g, st') ∧ g.WF ∧
      (∀ v, v ∈ g.vars ↔ ((∃ f ∈ fs, f.isUtility = false ∧ v ∈ f.vars) ∨ v ∈ fu.vars) ∧
        (∀ e ∈ evidence, e.var.id ≠ v.id) ∧ v ∉ hidden vs.variables deps evidence query) ∧
      ∀ σ, Fits σ g.vars → g.get (ints (tupleOf g.vars σ)) =
        .ok (sumOver (hidden vs.variables deps evidence query) (fun τ =>
          ((fs.filter (fun f => !f.isUtility)).map (fun f => f.val (plug evidence τ))).prod *
            fu.val (plug evidence τ)) σ) := by
  have hmemfu : fu ∈ fs ∧ u ∈ fu.vars := by
    have : fu ∈ fs.filter (fun f => u ∈ f.vars) := by rw [hfu]; simp
    simpa using this
  have hkeep : ∀ v, (∃ f ∈ fs.filter (fun f => !f.isUtility || decide (u ∈ f.vars)), v ∈ f.vars) ↔
      ((∃ f ∈ fs, f.isUtility = false ∧ v ∈ f.vars) ∨ v ∈ fu.vars) := by
    intro v
    constructor
    · rintro ⟨f, hf, hv⟩
      obtain ⟨hf1, hf2⟩ := List.mem_filter.1 hf
      simp only [Bool.or_eq_true, Bool.not_eq_true', decide_eq_true_eq] at hf2
      rcases hf2 with h | h
      · exact .inl ⟨f, hf1, h, hv⟩
      · have : f ∈ fs.filter (fun f => u ∈ f.vars) := by simp [hf1, h]
        rw [hfu] at this
        simp only [List.mem_singleton] at this
        exact .inr (this ▸ hv)
    · rintro (⟨f, hf, h, hv⟩ | hv)
      · exact ⟨f, by simp [hf, h], hv⟩
      · exact ⟨fu, by simp [hmemfu], hv⟩
  obtain ⟨g, st', h1, h2, h3, h4, _⟩ := solve_remove_spec sch hp weights hev query (some u)
    (single_keep hp.ids hp.facVars honly hu hut).symm (fun v hv => (hkeep v).2 (hin v hv))
  refine ⟨g, st', h1, h2, ?_, ?_⟩
  · intro v
    rw [h3, hkeep]
  · intro σ hσ
    rw [get_eq_val h2 hσ, h4 σ hσ]
    congr 2
    funext τ
    rw [single_joint hut hfu]; rfl

/-- Comfort without an umbrella under a rain forecast, whatever the second utility. -/
example : ∃ g st', (VE.new Ex.uvs Ex.ufs Ex.udeps (some [1, 2])).solveUtility Ex.backwards Ex.uev [Ex.uD] (some Ex.uU) =
      .ok (g, st') ∧ ∃ t, g.get t = .ok 14 := by
  obtain ⟨g, st', h1, _, h3, h4⟩ := C26_solveUtility_single Ex.backwards Ex.umbrella (some [1, 2]) (by decide) Ex.uev_ok
    [Ex.uD] (u := Ex.uU) (by decide) rfl (fu := Ex.tU) rfl (by decide)
  refine ⟨g, st', h1, _, (h4 Ex.uσ ?_).trans ?_⟩
  · intro v hv
    have hv2 : v ∈ Ex.uvs.variables := by
      obtain ⟨h, _⟩ := (h3 v).1 hv
      rcases h with ⟨f, hf, _, h⟩ | h
      · exact Ex.umbrella.facVars f hf v h
      · exact Ex.umbrella.facVars Ex.tU (by decide) v h
    exact (by decide : ∀ w ∈ Ex.uvs.variables, Ex.uσ w.id < w.outcomes) v hv2
  · decide +kernel

/-- **C27.** The total utility is, at every assignment, the weighted sum of the single utilities. Every one of the
calls may see its own iteration orders. -/
theorem C27_total_is_weighted_sum [CommSemiring α] (sch : Sched α) (schs : Var → Sched α) {vs : Vs}
    {fs : List (Factor α)} {deps : List (Var × List Var)} (hp : Problem vs fs deps) {weights : Option (List α)}
    (hu : UtilityOK vs.variables fs weights)
    (table : Var → Factor α) (htable : ∀ u ∈ utilities vs.variables, fs.filter (fun f => u ∈ f.vars) = [table u])
    {evidence : List Evid} (hev : EvidenceOK vs.variables evidence) (query : List Var)
    (hin : ∀ v ∈ hidden vs.variables deps evidence query, ∃ f ∈ fs, f.isUtility = false ∧ v ∈ f.vars) :
    ∃ g st', (VE.new vs fs deps weights).solveUtility sch evidence query none = .ok (g, st') ∧
      ∃ single : Var → Factor α,
        (∀ u ∈ utilities vs.variables, ∃ st',
          (VE.new vs fs deps weights).solveUtility (schs u) evidence query (some u) = .ok (single u, st')) ∧
        ∀ σ, Fits σ g.vars → (∀ u ∈ utilities vs.variables, σ u.id = 0) →
          g.val σ = ((utilities vs.variables).map (fun u =>
            weightOf weights vs.variables u * (single u).val σ)).sum := by
  classical
  obtain ⟨g, st', h1, h2, h3, h4, _⟩ := solve_total_spec sch hp hu hev query
    (fun v hv => (hin v hv).imp (fun f hf => ⟨hf.1, hf.2.2⟩))
  refine ⟨g, st', h1, ?_⟩
  have hut : ∀ u ∈ utilities vs.variables, u ∈ vs.variables ∧ u.nodeType = .utility := by
    intro u hu'; simpa [utilities] using hu'
  have key : ∀ u ∈ utilities vs.variables, ∃ gu st',
      (VE.new vs fs deps weights).solveUtility (schs u) evidence query (some u) = .ok (gu, st') ∧
      ∀ σ, Fits σ g.vars → (∀ u ∈ utilities vs.variables, σ u.id = 0) → gu.val σ =
        sumOver (hidden vs.variables deps evidence query) (fun τ =>
          ((fs.filter (fun f => !f.isUtility)).map (fun f => f.val (plug evidence τ))).prod *
            (table u).val (plug evidence τ)) σ := by
    intro u hu'
    obtain ⟨hu1, hu2⟩ := hut u hu'
    obtain ⟨gu, st', k1, k2, k3, k4⟩ := C26_solveUtility_single (schs u) hp weights hu.only hev query hu1 hu2
      (htable u hu') (fun v hv => .inl (hin v hv))
    refine ⟨gu, st', k1, fun σ hσ h0 => ?_⟩
    have hfit : Fits σ gu.vars := by
      intro v hv
      obtain ⟨h, hv2, hv3⟩ := (k3 v).1 hv
      have hin2 : ∃ f ∈ fs, v ∈ f.vars := by
        rcases h with ⟨f, hf, _, h⟩ | h
        · exact ⟨f, hf, h⟩
        · have : table u ∈ fs.filter (fun f => u ∈ f.vars) := by rw [htable u hu']; simp
          exact ⟨table u, (List.mem_filter.1 this).1, h⟩
      obtain ⟨f, hf, hvf⟩ := hin2
      by_cases hvt : v.nodeType = .utility
      · have hvR := hp.facVars f hf v hvf
        rw [h0 v (by simp [utilities, hvR, hvt]), hu.one v hvR hvt]; omega
      · exact hσ v ((h3 v).2 ⟨⟨f, hf, hvf⟩, hvt, hv2, hv3⟩)
    have := k4 σ hfit
    rw [get_eq_val k2 hfit] at this
    exact Except.ok.inj this
  have : Nonempty (Factor α) := ⟨g⟩
  have : Nonempty (VE α) := ⟨st'⟩
  choose! single t hs1 hs2 using key
  refine ⟨single, fun u hu' => ⟨t u, hs1 u hu'⟩, fun σ hσ h0 => ?_⟩
  rw [h4 σ hσ h0]
  have e1 : ∀ τ, joint (fs.filter (fun f => !f.isUtility)) (plug evidence τ) *
      totalUtility vs.variables fs weights (plug evidence τ) =
      ((utilities vs.variables).map (fun u => weightOf weights vs.variables u *
        (((fs.filter (fun f => !f.isUtility)).map (fun f => f.val (plug evidence τ))).prod *
          (table u).val (plug evidence τ)))).sum := by
    intro τ
    unfold totalUtility
    rw [← List.sum_map_mul_left]
    congr 1
    apply List.map_congr_left
    intro u hu'
    rw [htable u hu']
    simp only [joint, List.map_cons, List.map_nil, List.sum_cons, List.sum_nil, add_zero]
    ring
  simp only [e1]
  rw [sumOver_list_sum]
  congr 1
  apply List.map_congr_left
  intro u hu'
  rw [sumOver_mul_left, hs2 u hu' σ hσ h0]

example : ∃ g st', (VE.new Ex.uvs Ex.ufs Ex.udeps (some [1, 2])).solveUtility Ex.backwards Ex.uev [Ex.uD] none =
      .ok (g, st') ∧ g.WF := by
  obtain ⟨g, st', h1, _⟩ := C27_total_is_weighted_sum Ex.backwards (fun _ => Ex.backwards) Ex.umbrella
    Ex.umbrella_utility (fun u => if u = Ex.uU then Ex.tU else Ex.tV) (by decide) Ex.uev_ok [Ex.uD] (by decide)
  obtain ⟨g', st'', h2, h3, _⟩ := C25_solveUtility_total Ex.backwards Ex.umbrella Ex.umbrella_utility Ex.uev_ok
    [Ex.uD] (by decide)
  exact ⟨g', st'', h2, h3⟩

end Bbn
