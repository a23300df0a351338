import Verif.Lemmas.TuiReady
import Verif.Props.NetNew
import Verif.Props.NetUtility
import Verif.Props.NetPolicies

/-!
# The numbers shown by the terminal app: C72, C78
-/

set_option autoImplicit false

namespace Bbn

variable {α : Type}

/-! ## Networks made by `New` -/

theorem linked_factor {fs : List (NFactor α)} {v : NVar} {f : NFactor α} (hf : f ∈ fs) (e : f.forVar = v.name) :
    ∃ j g, (linked fs v).factor = some j ∧ fs[j]? = some g ∧ g.forVar = v.name := by
  unfold linked
  cases h : fs.findIdx? (fun f => f.forVar = v.name) with
  | none =>
    rw [List.findIdx?_eq_none_iff] at h
    exact absurd e (by simpa using h f hf)
  | some j =>
    obtain ⟨hj, hp, _⟩ := List.findIdx?_eq_some_iff_getElem.1 h
    exact ⟨j, fs[j], rfl, List.getElem?_eq_getElem hj, by simpa using hp⟩

/-- `New` makes sure that the total-utility node is as the app needs it. -/
theorem new_totalOK {name info : String} {vars : List NVar} {factors : List (NFactor α)} (h : WellFormed vars factors)
    {n : Net α} (hb : Built name info vars factors n) : n.TotalOK := by
  intro i hi f hf hft
  have hex : ∃ u ∈ vars, IsTotal vars factors u := by
    by_contra hno
    have := hb.noTotal (fun u hu hU => hno ⟨u, hu, hU⟩)
    rw [hi] at this; cases this
  obtain ⟨u, hu, hU⟩ := hex
  obtain ⟨j, hj⟩ := List.getElem?_of_mem hu
  have hji := hb.total j u hj hU
  rw [hi] at hji
  obtain rfl := Option.some.inj hji
  have hname : n.totalName = u.name := by
    unfold Net.totalName
    rw [hi, hb.links]
    simp [hj]
  have hcore : f.core ∈ factors.map NFactor.core := by rw [← hb.tables]; exact List.mem_map_of_mem hf
  obtain ⟨f0, hf0, e⟩ := List.mem_map.1 hcore
  have efor : f0.forVar = f.forVar := (congrArg NFactor.forVar e : f0.core.forVar = f.core.forVar)
  have egiven : f0.given = f.given := core_given e
  have htab : tableFor factors u = some f0 := tableFor_mem h hf0 (by rw [efor, hft, hname])
  obtain ⟨_, g0, hg0, hne, hall⟩ := hU
  rw [htab] at hg0
  obtain rfl := Option.some.inj hg0
  rw [egiven] at hne hall
  refine ⟨hne, ?_, ?_⟩
  · rw [← egiven, ← h.accepted.weights u hu ⟨‹_›, f0, htab, by rw [egiven]; exact hne, by rw [egiven]; exact hall⟩ f0 htab]
    rw [hname]
    unfold Net.count
    rw [hb.links, outcomeCount_linked]
    unfold outcomeCount
    have : vars.find? (fun v => v.name = u.name) = some u := by
      cases hfd : vars.find? (fun v => v.name = u.name) with
      | none => rw [List.find?_eq_none] at hfd; exact absurd (hfd u hu) (by simp)
      | some w =>
        have e1 : w.name = u.name := by simpa using List.find?_some hfd
        rw [List.inj_on_of_nodup_map h.accepted.names (List.mem_of_find?_eq_some hfd) hu e1]
    rw [this]; rfl
  · intro g hg
    obtain ⟨v, hv, e1, e2⟩ := hall g hg
    refine ⟨linked factors v, ?_, by rw [linked_name, e1]⟩
    unfold Net.utilityVars
    rw [List.mem_filter, hb.links]
    refine ⟨List.mem_map_of_mem hv, ?_⟩
    simp only [linked_type, linked_name, decide_eq_true_eq]
    refine ⟨e2, ?_⟩
    rw [hname, e1]
    rintro rfl
    have := h.dims f0 hf0
    rw [egiven, efor, hft, hname] at this
    exact (List.nodup_append.1 this).2.2 _ hg _ (by simp) rfl

/-- A network that `New` makes from a well-formed structure is ready for the app if its policies can be solved. -/
theorem new_appReady (name info : String) {vars : List NVar} {factors : List (NFactor α)}
    (hptr : ∀ v ∈ vars, v.factor = none) (h : WellFormed vars factors) {n : Net α}
    (hn : newNet name info vars factors = .ok n) (hs : (∃ s, n.isKind .decision s = true) → n.Feasible) : AppReady n := by
  obtain ⟨n', hn', hv, _⟩ := C35_new_valid name info hptr h
  rw [hn] at hn'
  obtain rfl := Except.ok.inj hn'
  have hb := C35_new_result name info vars factors hptr hn
  refine ⟨hv, hs, new_totalOK h hb, ?_⟩
  intro v' hv' hd
  rw [hb.links] at hv'
  obtain ⟨v, hv, rfl⟩ := List.mem_map.1 hv'
  rw [linked_type] at hd
  obtain ⟨f, hf, e⟩ := h.hasTable v hv hd
  obtain ⟨j, g, h1, h2, h3⟩ := linked_factor hf e
  have : (n.factors.map NFactor.core)[j]? = some g.core := by rw [hb.tables, List.getElem?_map, h2]; rfl
  rw [List.getElem?_map] at this
  obtain ⟨g', h4, h5⟩ := Option.map_eq_some_iff.1 this
  refine ⟨j, g', h1, h4, ?_⟩
  rw [linked_name, ← h3]
  exact (congrArg NFactor.forVar h5 : g'.core.forVar = g.core.forVar)

/-! ## C72: utilities -/

/-- The weighted expected utilities add up to the expected total. -/
theorem expected_sum [Field α] [DecidableEq α] (n : Net α) (evidence : List (String × String)) (ign : Bool)
    (hne : ∀ u ∈ n.utilityVars, u.name ≠ "") :
    (n.utilityVars.map (fun u => n.weight u.name * n.expected evidence ign u.name)).sum = n.expected evidence ign "" := by
  have h1 : ∀ u ∈ n.utilityVars, n.weight u.name * n.expected evidence ign u.name =
      sumWorlds n.stateVars (fun w => n.weight u.name * (n.joint (n.active evidence ign) w *
        (if n.Agrees evidence w then n.utilityIn u.name w else 0))) (fun _ => 0) *
      (n.mass (n.active evidence ign) (n.Agrees evidence))⁻¹ := by
    intro u hu
    unfold Net.expected Net.total Net.asked
    simp only [if_neg (hne u hu)]
    rw [sumWorlds_mul, div_eq_mul_inv, mul_assoc]
  rw [List.map_congr_left h1, List.sum_map_mul_right, ← sumWorlds_list]
  unfold Net.expected Net.total Net.asked
  rw [div_eq_mul_inv]
  congr 2
  funext w
  simp only [if_true]
  split
  · unfold Net.totalIn
    rw [← List.sum_map_mul_left]
    congr 1
    apply List.map_congr_left
    intro u _
    ring
  · simp

theorem given_perm {n : Net α} (hn : n.Valid) (ht : n.TotalOK) {i : Nat} (hi : n.totalUtility = some i) {f : NFactor α}
    (hf : f ∈ n.factors) (hft : f.forVar = n.totalName) : f.given.Perm (n.utilityVars.map NVar.name) := by
  obtain ⟨v, j, f', w1, w2, w3, w4, w5, w6, w7⟩ := hn.weights i hi
  have hname : v.name = n.totalName := (totalName_iff hn w1).2 hi
  have hff : f' = f := List.inj_on_of_nodup_map hn.tables (List.mem_of_getElem? w4) hf (by rw [w5, hname, hft])
  subst hff
  have hnd : (n.utilityVars.map NVar.name).Nodup := (List.filter_sublist.map NVar.name).nodup hn.names
  rw [List.perm_ext_iff_of_nodup (List.nodup_append.1 (hn.dims f' hf)).1 hnd]
  intro g
  constructor
  · intro hg
    obtain ⟨u, hu, e⟩ := (ht i hi f' hf hft).2.2 g hg
    exact e ▸ List.mem_map_of_mem hu
  · intro hg
    obtain ⟨u, hu, rfl⟩ := List.mem_map.1 hg
    unfold Net.utilityVars at hu
    rw [List.mem_filter] at hu
    have := hu.2
    simp only [decide_eq_true_eq] at this
    exact w7 u hu.1 this.1 (by rw [hname]; exact this.2)

/-- **C72**, single utilities. At any time of a session, if the evidence chosen has positive probability, the app shows
for each utility variable its expected utility given the evidence, and the expected total utility. -/
theorem C72_utilities [Field α] [LinearOrder α] [IsStrictOrderedRing α] {n : Net α} (hr : AppReady n) {fm : Fmt α}
    {sch0 : NSched α} {sch1 : Nat → NSched α} {sch : Nat → Nat → NSched α} {evidence : List (String × String)}
    (hev : n.EvidenceOK evidence) {a0 a : App α} (h0 : startApp fm sch0 sch1 n evidence = .ok a0) {es : List Event} {k : Nat}
    (h : App.run fm sch k es a0 = .ok a) {N : Net α} (hN : N = (n.solvePolicies sch0 true).2)
    (possible : N.mass (N.active a.evidence a.ignorePolicies) (N.Agrees a.evidence) ≠ 0)
    {u : NVar} (hu : u ∈ n.utilityVars) :
    mapGet a.marginals u.name =
      some [some (N.expected a.evidence a.ignorePolicies u.name), some (N.expected a.evidence a.ignorePolicies "")] := by
  subst hN
  have hl := run_live hr hev h0 h
  obtain ⟨tables, N, k1, _, _, _, _, _, _, _, _, _, k7⟩ := hr.solve sch0
  have := (hl.shows_ possible).utility u (by rw [k1, k7]; exact hu)
  exact this

/-- **C72**, the total-utility node. It shows, for each parent in their order, weight times expected utility, and then
the expected total utility; the former add up to the latter. -/
theorem C72_total [Field α] [LinearOrder α] [IsStrictOrderedRing α] {n : Net α} (hr : AppReady n) {fm : Fmt α}
    {sch0 : NSched α} {sch1 : Nat → NSched α} {sch : Nat → Nat → NSched α} {evidence : List (String × String)}
    (hev : n.EvidenceOK evidence) {a0 a : App α} (h0 : startApp fm sch0 sch1 n evidence = .ok a0) {es : List Event} {k : Nat}
    (h : App.run fm sch k es a0 = .ok a) {N : Net α} (hN : N = (n.solvePolicies sch0 true).2)
    (possible : N.mass (N.active a.evidence a.ignorePolicies) (N.Agrees a.evidence) ≠ 0)
    {i : Nat} (hi : n.totalUtility = some i) {t : NVar} (ht : n.variables[i]? = some t)
    {f : NFactor α} (hf : f ∈ n.factors) (hft : f.forVar = t.name) :
    mapGet a.marginals t.name = some (f.given.map (fun g => some
        (f.tab.getD (f.given.idxOf g) 0 * N.expected a.evidence a.ignorePolicies g)) ++
      [some (N.expected a.evidence a.ignorePolicies "")]) ∧
    (f.given.map (fun g => f.tab.getD (f.given.idxOf g) 0 * N.expected a.evidence a.ignorePolicies g)).sum =
      N.expected a.evidence a.ignorePolicies "" ∧
    ∀ u ∈ n.utilityVars, u.name ∈ f.given := by
  have hl := run_live hr hev h0 h
  obtain ⟨tables, M, k1, _, _, _, k2, _, _, vs, names, ps, k7⟩ := hr.solve sch0
  rw [k1] at hN hl
  dsimp only at hN hl
  subst hN
  have e1 : N.totalUtility = n.totalUtility := by rw [k7]
  have e2 : N.variables = n.variables := by rw [k7]
  have e3 : N.factors = n.factors := by rw [k7]
  have e4 : N.totalName = t.name := ((totalName_iff k2.valid (by rw [e2]; exact ht)).2 (by rw [e1]; exact hi)).symm
  have hw : ∀ g, N.weight g = f.tab.getD (f.given.idxOf g) 0 := by
    intro g
    exact weight_total k2.valid (by rw [e1]; exact hi) (by rw [e3]; exact hf) (by rw [e4]; exact hft) g
  have hp := given_perm k2.valid k2.total (by rw [e1]; exact hi) (by rw [e3]; exact hf) (by rw [e4]; exact hft)
  have hsum := expected_sum N a.evidence a.ignorePolicies (fun u hu => k2.valid.named u (List.mem_filter.1 hu).1)
  have htot := (hl.shows_ possible).total i (by rw [e1]; exact hi) f (by rw [e3]; exact hf) (by rw [e4]; exact hft)
  simp only [hw] at htot hsum
  rw [e4] at htot
  refine ⟨htot, ?_, ?_⟩
  · rw [← hsum, (hp.map _).sum_eq, List.map_map]
    rfl
  · intro u hu
    have : N.utilityVars = n.utilityVars := by rw [k7]; rfl
    exact hp.symm.subset (by rw [this]; exact List.mem_map_of_mem hu)

/-! ## C78: probabilities -/

/-- **C78**. At any time of a session, if the evidence chosen has positive probability, the app shows for each chance and
decision variable the posterior probabilities of its outcomes given the evidence, in the order of the outcomes. -/
theorem C78_probabilities [Field α] [LinearOrder α] [IsStrictOrderedRing α] {n : Net α} (hr : AppReady n) {fm : Fmt α}
    {sch0 : NSched α} {sch1 : Nat → NSched α} {sch : Nat → Nat → NSched α} {evidence : List (String × String)}
    (hev : n.EvidenceOK evidence) {a0 a : App α} (h0 : startApp fm sch0 sch1 n evidence = .ok a0) {es : List Event} {k : Nat}
    (h : App.run fm sch k es a0 = .ok a) {N : Net α} (hN : N = (n.solvePolicies sch0 true).2)
    (possible : N.mass (N.active a.evidence a.ignorePolicies) (N.Agrees a.evidence) ≠ 0)
    {v : NVar} (hv : v ∈ n.variables) (ht : v.nodeType ≠ .utility) :
    ∃ shown, mapGet a.marginals v.name = some shown ∧ shown.length = v.outcomes.length ∧
      ∀ k, k < v.outcomes.length → shown[k]? = some (some
        (N.mass (N.active a.evidence a.ignorePolicies) (fun w => N.Agrees a.evidence w ∧ w v.name = k) /
          N.mass (N.active a.evidence a.ignorePolicies) (N.Agrees a.evidence))) := by
  have hl := run_live hr hev h0 h
  obtain ⟨tables, M, k1, _, _, _, k2, _, _, vs, names, ps, k7⟩ := hr.solve sch0
  rw [k1] at hN hl
  dsimp only at hN hl
  subst hN
  have e2 : N.variables = n.variables := by rw [k7]
  have hv' : v ∈ N.variables := by rw [e2]; exact hv
  have hc : N.count v.name = v.outcomes.length := count_eq k2.valid hv'
  refine ⟨_, (hl.shows_ possible).state v (mem_stateVars.2 ⟨hv', ht⟩), ?_, ?_⟩
  · simp [Net.posterior, hc]
  · intro k hk
    simp [Net.posterior, hc, hk]

end Bbn
