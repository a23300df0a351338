import Verif.Lemmas.NetUtility
import Verif.Props.NetExamples

/-!
# Expected utilities of networks
-/

set_option autoImplicit false

namespace Bbn

open Finset

variable {α : Type}

/-- **C75.** `SolveUtility` of a network: the result is over variables that are neither observed nor summed out, and its
entry for each world is the sum, over all outcomes of the hidden variables, of the weight of the world (with the
observed outcomes) times the utility asked for. For every iteration order of every map. -/
theorem C75_solveUtility_exact [Field α] [DecidableEq α] (sch : NSched α) {n : Net α} (hn : n.Valid) (hp : n.PoliciesOK)
    {evidence : List (String × String)} (hev : n.EvidenceOK evidence) {query : List String}
    (hq : ∀ q ∈ query, ∃ v ∈ n.stateVars, v.name = q) {u : String}
    (hu : u = "" ∧ n.utilityVars ≠ [] ∨ ∃ v ∈ n.utilityVars, v.name = u) (ign : Bool) :
    ∃ g n', n.solveUtility sch evidence query u ign = (.ok g, n') ∧
      (∀ x ∈ g.vars, ∃ v, n.variables[x.id]? = some v ∧ x.outcomes = v.outcomes.length ∧
        v ∉ n.hiddenVars evidence query ∧ (∀ e ∈ evidence, e.1 ≠ v.name) ∧ (v.nodeType = .utility → v.name = u)) ∧
      ∀ w, (∀ v ∈ n.variables, w v.name < v.outcomes.length) → g.get (ints (tupleOf g.vars (n.ids w))) =
        .ok (sumWorlds (n.hiddenVars evidence query) (fun w' =>
          n.joint (n.active evidence ign) (n.observe evidence w') * n.asked u (n.observe evidence w')) w) := by
  obtain ⟨g, vs', h1, h2, h3, h4⟩ := solve_utility sch hn hp hev hq hu ign
  refine ⟨g, _, h1, h3, fun w hw => ?_⟩
  have hfit : Fits (n.ids w) g.vars := by
    intro x hx
    obtain ⟨v, k1, k2, _⟩ := h3 x hx
    rw [k2]
    simp only [Net.ids, k1]
    exact hw v (List.mem_of_getElem? k1)
  rw [get_eq_val h2 hfit, h4 w hw]

theorem sumWorlds_list [AddCommMonoid α] {β : Type} (l : List NVar) (bs : List β) (F : β → World → α) (w : World) :
    sumWorlds l (fun w => (bs.map (fun b => F b w)).sum) w = (bs.map (fun b => sumWorlds l (F b) w)).sum := by
  induction l generalizing w with
  | nil => rfl
  | cons v l ih =>
    simp only [sumWorlds, ih]
    clear ih
    generalize range v.outcomes.length = S
    induction bs with
    | nil => simp
    | cons b bs ihb => simp only [List.map_cons, List.sum_cons, Finset.sum_add_distrib, ihb]

theorem sumWorlds_mul [Semiring α] (l : List NVar) (c : α) (F : World → α) (w : World) :
    sumWorlds l (fun w => c * F w) w = c * sumWorlds l F w := by
  induction l generalizing w with
  | nil => rfl
  | cons v l ih => simp only [sumWorlds, ih, Finset.mul_sum]

/-- **C43.** With a total-utility node, the total utility is the sum of the utilities, each weighted with the entry of
the node's table at the position of the utility in the node's parents. -/
theorem C43_weights_by_name [Field α] [DecidableEq α] (sch : NSched α) (schs : String → NSched α) {n : Net α}
    (hn : n.Valid) (hp : n.PoliciesOK) {evidence : List (String × String)} (hev : n.EvidenceOK evidence)
    {query : List String} (hq : ∀ q ∈ query, ∃ v ∈ n.stateVars, v.name = q) (hne : n.utilityVars ≠ [])
    {i : Nat} (hi : n.totalUtility = some i) {t : NVar} (ht : n.variables[i]? = some t)
    {f : NFactor α} (hf : f ∈ n.factors) (hft : f.forVar = t.name) (ign : Bool) :
    ∃ g n', n.solveUtility sch evidence query "" ign = (.ok g, n') ∧
      ∃ single : String → Factor α,
        (∀ u ∈ n.utilityVars, ∃ n', n.solveUtility (schs u.name) evidence query u.name ign = (.ok (single u.name), n')) ∧
        ∀ w, (∀ v ∈ n.variables, w v.name < v.outcomes.length) → g.val (n.ids w) =
          (n.utilityVars.map (fun u => f.tab.getD (f.given.idxOf u.name) 0 * (single u.name).val (n.ids w))).sum := by
  obtain ⟨g, vs', h1, h2, h3, h4⟩ := solve_utility sch hn hp hev hq (u := "") (.inl ⟨rfl, hne⟩) ign
  have key : ∀ s : String, ∃ r : Factor α, ∀ u ∈ n.utilityVars, u.name = s →
      (∃ n', n.solveUtility (schs s) evidence query s ign = (.ok r, n')) ∧
      ∀ w, n.FitsAll w → r.val (n.ids w) = sumWorlds (n.hiddenVars evidence query) (fun w' =>
          n.joint (n.active evidence ign) (n.observe evidence w') * n.asked s (n.observe evidence w')) w := by
    intro s
    by_cases hs : ∃ u ∈ n.utilityVars, u.name = s
    · obtain ⟨r, _, k1, _, _, k4⟩ := solve_utility (schs s) hn hp hev hq (u := s) (.inr hs) ign
      exact ⟨r, fun u hu e => ⟨⟨_, k1⟩, k4⟩⟩
    · exact ⟨g, fun u hu e => absurd ⟨u, hu, e⟩ hs⟩
  choose single hsingle using key
  refine ⟨g, _, h1, single, fun u hu => (hsingle u.name u hu rfl).1, fun w hw => ?_⟩
  rw [h4 w hw]
  have hw : ∀ s, n.weight s = f.tab.getD (f.given.idxOf s) 0 := by
    intro s
    unfold Net.weight
    rw [hi]
    have hname := Net.totalName_eq hi ht
    have : n.factors.find? (fun g => g.forVar = n.totalName) = some f := by
      cases hfd : n.factors.find? (fun g => g.forVar = n.totalName) with
      | none =>
        rw [List.find?_eq_none] at hfd
        have := hfd f hf
        simp [hft, hname] at this
      | some x =>
        have e : x.forVar = n.totalName := by simpa using List.find?_some hfd
        rw [List.inj_on_of_nodup_map hn.tables (List.mem_of_find?_eq_some hfd) hf (by rw [e, hft, hname])]
    rw [this]; rfl
  have e : (fun w' => n.joint (n.active evidence ign) (n.observe evidence w') * n.asked "" (n.observe evidence w')) =
      fun w' => (n.utilityVars.map (fun u => n.weight u.name * (n.joint (n.active evidence ign) (n.observe evidence w') *
        n.utilityIn u.name (n.observe evidence w')))).sum := by
    funext w'
    simp only [Net.asked, if_true, Net.totalIn]
    rw [← List.sum_map_mul_left]
    congr 1
    apply List.map_congr_left
    intro u _
    ring
  rw [e, sumWorlds_list]
  congr 1
  apply List.map_congr_left
  intro u hu
  rw [sumWorlds_mul, hw, (hsingle u.name u hu rfl).2 w ‹_›]
  have hun : u.name ≠ "" := hn.named u (List.mem_filter.1 hu).1
  simp only [Net.asked, if_neg hun]

/-- A sum over all worlds that agree with the evidence, as a sum over the variables that are not observed. -/
theorem total_observe [Field α] [DecidableEq α] (sch : NSched α) {n : Net α} (hn : n.Valid) (hp : n.PoliciesOK)
    {evidence : List (String × String)} (hev : n.EvidenceOK evidence) (ign : Bool) {F : World → α} {G : Assignment → α}
    (hG : ∀ w, n.FitsAll w → F w = G (n.ids w)) :
    n.total (n.active evidence ign) (fun w => if n.Agrees evidence w then F w else 0) =
      sumWorlds (n.stateVars.filter (fun v => ∀ e ∈ evidence, e.1 ≠ v.name)) (fun w' =>
          n.joint (n.active evidence ign) (n.observe evidence w') * F (n.observe evidence w')) (fun _ => 0) := by
  obtain ⟨vs, fs, ps, deps, h1, hS⟩ := toVE_spec sch 0 hn hp (if ign then evidence else [])
  have hl := sch.ev_perm evidence
  have hperm := active_perm sch 0 n evidence ign
  have hsub : ∀ p ∈ sch.active 0 n evidence ign, p ∈ n.policies := fun p h => active_sub p (hperm.subset h)
  have hSS : Solver n (sch.active 0 n evidence ign) vs fs ps deps := hS
  have hall : ∀ w : World, n.FitsWorld w → (∀ s, s ∉ n.stateVars.map NVar.name → w s = 0) → n.FitsAll w := by
    intro w hw h0 v hv
    by_cases hvu : v.nodeType = .utility
    · rw [h0]
      · exact (hn.outcomes v hv).1
      · intro hm
        obtain ⟨x, hx, e⟩ := List.mem_map.1 hm
        obtain ⟨k1, k2⟩ := mem_stateVars.1 hx
        exact k2 (name_unique hn k1 hv e ▸ hvu)
    · exact hw v (mem_stateVars.2 ⟨hv, hvu⟩)
  have htot : n.total (n.active evidence ign) = n.total (sch.active 0 n evidence ign) := by
    funext F
    unfold Net.total
    rw [joint_pols hperm]
  rw [htot, total_evidence hn hp hsub hSS (ev_state hn hev hl) (ev_nodup hn hev hl) (ev_agrees hn hev hl) (G := G)
    (p := fun _ => true) (fun w h h0 => hG w (hall w h h0)) (fun _ _ _ _ => rfl) (fun _ _ h => absurd h (by simp))]
  have e1 : n.stateSolver.filter (fun v => !true && decide (∀ e ∈ (sch.ev evidence).map n.solverEv, e.var.id ≠ v.id)) = [] := by
    simp
  rw [e1]
  simp only [size, Nat.cast_one, one_mul]
  symm
  have e2 : (n.stateVars.filter (fun v => ∀ e ∈ evidence, e.1 ≠ v.name)).map (fun v => n.varOf v.name) =
      n.stateSolver.filter (fun v => true && decide (∀ e ∈ (sch.ev evidence).map n.solverEv, e.var.id ≠ v.id)) := by
    unfold Net.stateSolver
    rw [List.filter_map]
    congr 1
    apply List.filter_congr
    intro v hv
    obtain ⟨hv1, hv2⟩ := mem_stateVars.1 hv
    rw [Bool.eq_iff_iff]
    simp only [Function.comp, Bool.true_and, decide_eq_true_eq]
    constructor
    · intro h e he hid
      obtain ⟨x, hx, rfl⟩ := List.mem_map.1 he
      obtain ⟨y, hy, k1, k2, _⟩ := hev.known x (hl.subset hx)
      refine h x (hl.subset hx) ?_
      simp only [Net.solverEv, ← k1] at hid
      rw [← k1]
      exact Net.IsVar.inj hn (isVar_state hn hy k2) (isVar_state hn hv1 hv2) hid
    · intro h e he hid
      exact h (n.solverEv e) (List.mem_map_of_mem (hl.symm.subset he)) (by simp [Net.solverEv, hid])
  rw [← e2]
  refine Eq.trans (sumWorlds_eq hn (G := fun τ => joint (probTables (fs ++ ps)) (plug ((sch.ev evidence).map n.solverEv) τ) *
    G (plug ((sch.ev evidence).map n.solverEv) τ)) _ _ ?_ ?_ ?_) ?_
  · intro v hv; exact mem_stateVars.1 (List.mem_filter.1 hv).1
  · exact (stateVars_names hn).sublist (List.filter_sublist.map _)
  · intro w' hw1 hw2
    have hw' : n.FitsAll w' := by
      intro v hv
      by_cases hm : v.name ∈ (n.stateVars.filter (fun v => ∀ e ∈ evidence, e.1 ≠ v.name)).map NVar.name
      · obtain ⟨x, hx, hxn⟩ := List.mem_map.1 hm
        have := name_unique hn (mem_stateVars.1 (List.mem_filter.1 hx).1).1 hv hxn
        exact this ▸ hw1 x hx
      · rw [hw2 _ hm]; exact (hn.outcomes v hv).1
    have hob := observe_fits hn hev hw'
    rw [plug_observe hn hev hl, hG _ hob, joint_world hn hp hsub hSS hob.state, joint_pols hperm]
  · have : n.ids (fun _ => 0) = fun _ => 0 := by
      funext i; simp only [Net.ids]; split <;> rfl
    rw [this]

theorem total_asked [Field α] [DecidableEq α] (sch : NSched α) {n : Net α} (hn : n.Valid) (hp : n.PoliciesOK)
    {evidence : List (String × String)} (hev : n.EvidenceOK evidence) {u : String}
    (hu : u = "" ∨ ∃ v ∈ n.utilityVars, v.name = u) (ign : Bool) :
    n.total (n.active evidence ign) (fun w => if n.Agrees evidence w then n.asked u w else 0) =
      sumWorlds (n.stateVars.filter (fun v => ∀ e ∈ evidence, e.1 ≠ v.name)) (fun w' =>
          n.joint (n.active evidence ign) (n.observe evidence w') * n.asked u (n.observe evidence w')) (fun _ => 0) := by
  obtain ⟨vs, fs, ps, deps, h1, hS⟩ := toVE_spec sch 0 hn hp (if ign then evidence else [])
  have hperm := active_perm sch 0 n evidence ign
  have hsub : ∀ p ∈ sch.active 0 n evidence ign, p ∈ n.policies := fun p h => active_sub p (hperm.subset h)
  have hSS : Solver n (sch.active 0 n evidence ign) vs fs ps deps := hS
  let G : Assignment → α := fun τ => if u = "" then totalUtility vs.variables (fs ++ ps) n.solverWeights τ
    else (((fs ++ ps).filter (fun f => n.varOf u ∈ f.vars)).map (fun f => f.val τ)).sum
  have hG : ∀ w, n.FitsAll w → n.asked u w = G (n.ids w) := by
    intro w hw
    simp only [G, Net.asked]
    split_ifs with h
    · rw [totalUtility_world hn hp hsub hSS hw]
    · rcases hu with rfl | ⟨v, hv, rfl⟩
      · exact absurd rfl h
      · simp only [Net.utilityVars, List.mem_filter, decide_eq_true_eq] at hv
        rw [utility_val hn hp hsub hSS ((mem_utilityNames hn).2 ⟨v, hv.1, rfl, hv.2.1, hv.2.2⟩) hw]
  exact total_observe sch hn hp hev ign hG

/-- **C75, a single number.** If nothing but evidence is left (for example, if all decisions are solved), `SolveUtility`
without query variables returns the sum, over all worlds that agree with the evidence, of weight times utility. -/
theorem C75_expected_utility [Field α] [DecidableEq α] (sch : NSched α) {n : Net α} (hn : n.Valid) (hp : n.PoliciesOK)
    {evidence : List (String × String)} (hev : n.EvidenceOK evidence) {u : String}
    (hu : u = "" ∧ n.utilityVars ≠ [] ∨ ∃ v ∈ n.utilityVars, v.name = u) (ign : Bool)
    (hall : ∀ v ∈ n.stateVars, (∀ e ∈ evidence, e.1 ≠ v.name) → v ∈ n.hiddenVars evidence []) :
    ∃ g n', n.solveUtility sch evidence [] u ign = (.ok g, n') ∧
      g.data = [n.total (n.active evidence ign) (fun w => if n.Agrees evidence w then n.asked u w else 0)] := by
  obtain ⟨g, vs', h1, h2, h3, h4⟩ := solve_utility sch hn hp hev (query := []) (by simp) hu ign
  refine ⟨g, _, h1, ?_⟩
  have hone : ∀ x ∈ g.vars, x.outcomes = 1 := by
    intro x hx
    obtain ⟨v, k1, k2, k3, k4, k5⟩ := h3 x hx
    have hv := List.mem_of_getElem? k1
    by_cases hvu : v.nodeType = .utility
    · rcases hu with ⟨rfl, _⟩ | ⟨y, hy, rfl⟩
      · exact absurd (k5 hvu) (hn.named v hv)
      · simp only [Net.utilityVars, List.mem_filter, decide_eq_true_eq] at hy
        rw [k2, hn.single v hv hvu (by rw [k5 hvu]; exact hy.2.2)]
    · exact absurd (hall v (mem_stateVars.2 ⟨hv, hvu⟩) k4) k3
  have hsize : ∀ l : List Var, (∀ x ∈ l, x.outcomes = 1) → size l = 1 := by
    intro l
    induction l with
    | nil => intro _; rfl
    | cons x l ih =>
      intro h
      simp only [size, h x List.mem_cons_self, ih (fun y hy => h y (List.mem_cons_of_mem _ hy))]
  have hlen : g.data.length = 1 := by rw [h2.len, hsize _ hone]
  have hval := h4 (fun _ => 0) (fun v hv => (hn.outcomes v hv).1)
  have hF : Fits (n.ids (fun _ => 0)) g.vars := by
    intro x hx
    rw [hone x hx]
    simp only [Net.ids]; split <;> decide
  have hidx : flatIndex g.vars (tupleOf g.vars (n.ids (fun _ => 0))) = 0 := by
    have := flatIndex_lt (tupleOf_inRange hF)
    rw [hsize _ hone] at this
    omega
  obtain ⟨x, hx⟩ := List.length_eq_one_iff.1 hlen
  have hx2 : g.val (n.ids (fun _ => 0)) = x := by
    unfold Factor.val
    rw [hidx, hx]; rfl
  rw [hx, ← hx2, hval, total_asked sch hn hp hev (hu.imp And.left id) ign]
  congr 2
  unfold Net.hiddenVars
  apply List.filter_congr
  intro v hv
  rw [Bool.eq_iff_iff]
  simp only [decide_eq_true_eq]
  constructor
  · rintro ⟨_, h, _⟩; exact h
  · intro h
    have := hall v hv h
    simp only [Net.hiddenVars, List.mem_filter, decide_eq_true_eq] at this
    exact this.2

/-- With the policy "take it if the forecast is bad", the expected total utility is 77.7 for comfort plus twice
-2.05 for effort. -/
example : ∃ g n', Ex.umbSolved.solveUtility Ex.back [] [] "" false = (.ok g, n') ∧ g.data = [736 / 10] := by
  obtain ⟨g, n', h1, h2⟩ := C75_expected_utility Ex.back Ex.umbSolved_valid Ex.umbSolved_policies (evidence := [])
    ⟨by decide, by decide⟩ (u := "") (.inl ⟨rfl, by decide⟩) false (by decide)
  refine ⟨g, n', h1, ?_⟩
  rw [h2]
  decide +kernel

/-- Rain, a good forecast and an umbrella: comfort 70, with probability 0.03. (The forecast is kept: it is known to the
decision, which is not solved.) -/
example : ∃ g n', Ex.umb.solveUtility Ex.back [("Umbrella", "yes")] ["Weather"] "Comfort" false = (.ok g, n') ∧
    g.get (ints (tupleOf g.vars (Ex.umb.ids (fun s => if s = "Weather" then 1 else 0)))) = .ok (3 / 10 * (1 / 10) * 70) := by
  obtain ⟨g, n', h1, _, h3⟩ := C75_solveUtility_exact Ex.back Ex.umb_valid (Ex.noPolicies rfl)
    (evidence := [("Umbrella", "yes")]) ⟨by decide, by decide⟩ (query := ["Weather"]) (by decide) (u := "Comfort")
    (.inr (by decide)) false
  refine ⟨g, n', h1, ?_⟩
  rw [h3 _ (by decide)]
  decide +kernel

/-- The weights of the umbrella network are listed in another order than the utilities. -/
example : ∃ g n', Ex.umb.solveUtility Ex.back [] ["Weather"] "" false = (.ok g, n') ∧
    ∃ single : String → Factor ℚ, ∀ w, (∀ v ∈ Ex.umb.variables, w v.name < v.outcomes.length) →
      g.val (Ex.umb.ids w) = 1 * (single "Comfort").val (Ex.umb.ids w) + 2 * (single "Effort").val (Ex.umb.ids w) := by
  obtain ⟨g, n', h1, single, _, h3⟩ := C43_weights_by_name Ex.back (fun _ => Ex.back) Ex.umb_valid (Ex.noPolicies rfl)
    (evidence := []) ⟨by decide, by decide⟩ (query := ["Weather"]) (by decide) (by decide) (i := 3) rfl rfl
    (f := ⟨"Total", ["Effort", "Comfort"], some [2, 1], [1, 1], 2⟩) (by decide) rfl false
  refine ⟨g, n', h1, single, fun w hw => ?_⟩
  rw [h3 w hw]
  have e : Ex.umb.utilityVars = [⟨"Comfort", .utility, ["comfort"], (0, 0), "", some 3⟩,
    ⟨"Effort", .utility, ["effort"], (0, 0), "", some 4⟩] := by decide
  rw [e]
  simp [NFactor.tab, List.idxOf_cons]

end Bbn
