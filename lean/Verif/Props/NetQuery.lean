import Verif.Lemmas.NetSolve
import Verif.Props.NetExamples
import Mathlib.Algebra.Order.Field.Basic
import Mathlib.Algebra.Order.BigOperators.Group.Finset

/-!
# C17, C31, C33, C40: queries to a network
-/

set_option autoImplicit false

namespace Bbn

open Finset

variable {α : Type}

/-- What may be asked: chance and decision variables that are not observed and occur in a probability table or a
policy. (Every chance variable occurs in its own table: `chance_occurs`.) -/
structure Net.QueryOK (n : Net α) (evidence : List (String × String)) (ign : Bool) (query : List String) : Prop where
  state : ∀ q ∈ query, ∃ v ∈ n.stateVars, v.name = q
  free : ∀ q ∈ query, ∀ e ∈ evidence, e.1 ≠ q
  occurs : ∀ q ∈ query, n.Occurs (n.active evidence ign) q

theorem chance_occurs {n : Net α} (hn : n.Valid) (pols : List (String × Factor α)) {v : NVar} (hv : v ∈ n.variables)
    (h : v.nodeType = .chance) : n.Occurs pols v.name := by
  obtain ⟨f, hf, e⟩ := hn.hasTable v hv (by rw [h]; decide)
  exact .inl ⟨f, List.mem_filter.2 ⟨hf, by rw [e]; exact (isKind_iff hn hv _).2 h⟩, by simp [NFactor.dims, e]⟩

theorem solveQuery_data [Field α] [CharZero α] [DecidableEq α] (sch : NSched α) {n : Net α} (hn : n.Valid)
    (hp : n.PoliciesOK) {evidence : List (String × String)} (hev : n.EvidenceOK evidence) {query : List String}
    (ign : Bool) (hq : n.QueryOK evidence ign query) :
    ∃ r f vs', n.solveQuery sch evidence query ign =
        (.ok (r, f), { n with vs := some vs', names := n.nameTable }) ∧ (r.map Prod.fst).Nodup ∧
      (∀ s, s ∈ r.map Prod.fst ↔ s ∈ query) ∧
      ∀ q ∈ query, ∃ (d : List α) (N : Nat → α) (C : α), (q, d) ∈ r ∧ C ≠ 0 ∧
        d = (List.range (n.count q)).map (fun k => N k / ∑ j ∈ range (n.count q), N j) ∧
        (∀ k < n.count q, n.mass (n.active evidence ign) (fun w => n.Agrees evidence w ∧ w q = k) = C * N k) ∧
        n.mass (n.active evidence ign) (n.Agrees evidence) = C * ∑ j ∈ range (n.count q), N j := by
  obtain ⟨vs, fs, ps, deps, g, vs1, h1, hS, hg, hgv, hgval⟩ := solve_query sch hn hp hev hq.state ign
  have hl := sch.ev_perm evidence
  have hperm := active_perm sch 0 n evidence ign
  have key : ∀ q ∈ query, ∃ v ∈ n.stateVars, v.name = q ∧ n.varOf q ∈ g.vars ∧ ∃ C : α, C ≠ 0 ∧
      (∀ k < v.outcomes.length, n.mass (n.active evidence ign) (fun w => n.Agrees evidence w ∧ w q = k) =
        C * margOf g (n.varOf q) k) ∧
      n.mass (n.active evidence ign) (n.Agrees evidence) =
        C * ∑ k ∈ range v.outcomes.length, margOf g (n.varOf q) k := by
    intro q hqm
    obtain ⟨v, hv, rfl⟩ := hq.state q hqm
    have hocc : n.Occurs (sch.active 0 n evidence ign) v.name := by
      rcases hq.occurs v.name hqm with h | ⟨p, hp1, h⟩
      · exact .inl h
      · exact .inr ⟨p, hperm.symm.subset hp1, h⟩
    obtain ⟨a, C, b1, b2, b3⟩ := posterior hn hp hev hl hperm hS hg hgv hgval hv (List.mem_map_of_mem hqm)
      (hq.free v.name hqm) hocc
    exact ⟨v, hv, rfl, a, C, b1, b2, b3⟩
  obtain ⟨r, vs', r1, r2, r3⟩ := queryLoop_spec hn hg query [] { n with vs := some vs1, names := n.nameTable } vs1 rfl rfl
    (fun q hqm => ⟨hq.state q hqm, by obtain ⟨_, _, _, h, _⟩ := key q hqm; exact h⟩)
  refine ⟨r, g, vs', ?_, r2 (by simp), ?_, ?_⟩
  · unfold Net.solveQuery
    rw [h1]
    dsimp only
    rw [r1]
  · intro s
    rw [← mapGet_isSome, r3]
    by_cases hs : s ∈ query
    · simp [hs]
    · simp [hs, mapGet]
  · intro q hqm
    obtain ⟨v, hv, rfl, hvg, C, b1, b2, b3⟩ := key q hqm
    have hv1 := mem_stateVars.1 hv
    have hcount := count_eq hn hv1.1
    have hout : (n.varOf v.name).outcomes = n.count v.name := (isVar_state hn hv1.1 hv1.2).outcomes hn
    refine ⟨postData g (n.varOf v.name), margOf g (n.varOf v.name), C, mapGet_some (by rw [r3, if_pos hqm]), b1, ?_,
      by rw [hcount]; exact b2, by rw [hcount]; exact b3⟩
    unfold postData
    rw [hout]

/-- **C31.** `Network.SolveQuery` returns, for each query variable `q` and outcome `k`, the total weight of the worlds
that agree with the evidence and have `q = k`, divided by the total weight of the worlds that agree with the evidence:
the posterior by full enumeration. For every iteration order of every map. -/
theorem C31_solveQuery_posterior [Field α] [CharZero α] [DecidableEq α] (sch : NSched α) {n : Net α} (hn : n.Valid)
    (hp : n.PoliciesOK) {evidence : List (String × String)} (hev : n.EvidenceOK evidence) {query : List String}
    (ign : Bool) (hq : n.QueryOK evidence ign query)
    (_possible : n.mass (n.active evidence ign) (n.Agrees evidence) ≠ 0) :
    ∃ r f n', n.solveQuery sch evidence query ign = (.ok (r, f), n') ∧ (r.map Prod.fst).Nodup ∧
      (∀ s, s ∈ r.map Prod.fst ↔ s ∈ query) ∧
      ∀ q ∈ query, ∃ d : List α, (q, d) ∈ r ∧ d.length = n.count q ∧ ∀ k < n.count q, d[k]? =
        some (n.mass (n.active evidence ign) (fun w => n.Agrees evidence w ∧ w q = k) /
          n.mass (n.active evidence ign) (n.Agrees evidence)) := by
  obtain ⟨r, f, vs', h1, h2, h3, h4⟩ := solveQuery_data sch hn hp hev ign hq
  refine ⟨r, f, _, h1, h2, h3, fun q hqm => ?_⟩
  obtain ⟨d, N, C, a1, a2, a3, a4, a5⟩ := h4 q hqm
  refine ⟨d, a1, by simp [a3], fun k hk => ?_⟩
  rw [a4 k hk, a5, mul_div_mul_left _ _ a2, a3]
  simp [hk]

/-- Rain given wet grass, with every map iterated backwards: P(Rain, wet) = 1/5 · (1/100 · 99/100 + 99/100 · 8/10). -/
example : ∃ r f n', Ex.spr.solveQuery Ex.back Ex.wet ["Rain"] false = (.ok (r, f), n') ∧
    ∃ d, ("Rain", d) ∈ r ∧ d[0]? = some (2673/7473 : ℚ) := by
  obtain ⟨r, f, n', h1, _, _, h4⟩ := C31_solveQuery_posterior Ex.back Ex.spr_valid (Ex.noPolicies rfl) Ex.wet_ok
    (query := ["Rain"]) false ⟨by decide, by decide, by
      intro q hq
      simp only [List.mem_singleton] at hq
      subst hq
      exact chance_occurs Ex.spr_valid _ (v := ⟨"Rain", .chance, ["yes", "no"], (0, 0), "", some 0⟩) (by decide) rfl⟩
    (by decide +kernel)
  obtain ⟨d, d1, _, d3⟩ := h4 "Rain" (by simp)
  refine ⟨r, f, n', h1, d, d1, (d3 0 (by decide)).trans ?_⟩
  decide +kernel

/-- For a Bayesian network (chance variables only) all unobserved variables may be asked for. -/
theorem C31_bayesian [Field α] [CharZero α] [DecidableEq α] (sch : NSched α) {n : Net α} (hn : n.Valid)
    (hchance : ∀ v ∈ n.variables, v.nodeType = .chance) (hpol : n.policies = [])
    {evidence : List (String × String)} (hev : n.EvidenceOK evidence) {query : List String}
    (hknown : ∀ q ∈ query, ∃ v ∈ n.variables, v.name = q) (hfree : ∀ q ∈ query, ∀ e ∈ evidence, e.1 ≠ q)
    (possible : n.mass [] (n.Agrees evidence) ≠ 0) :
    ∃ r f n', n.solveQuery sch evidence query false = (.ok (r, f), n') ∧ (r.map Prod.fst).Nodup ∧
      (∀ s, s ∈ r.map Prod.fst ↔ s ∈ query) ∧
      ∀ q ∈ query, ∃ d : List α, (q, d) ∈ r ∧ d.length = n.count q ∧ ∀ k < n.count q, d[k]? =
        some (n.mass [] (fun w => n.Agrees evidence w ∧ w q = k) / n.mass [] (n.Agrees evidence)) := by
  have hact : n.active evidence false = [] := by simp [Net.active, hpol]
  have := C31_solveQuery_posterior sch hn (by constructor <;> simp [hpol]) hev (query := query) false
    ⟨fun q hq => by
      obtain ⟨v, hv, e⟩ := hknown q hq
      exact ⟨v, mem_stateVars.2 ⟨hv, by rw [hchance v hv]; decide⟩, e⟩, hfree, fun q hq => by
      obtain ⟨v, hv, rfl⟩ := hknown q hq
      exact chance_occurs hn _ hv (hchance v hv)⟩
  rw [hact] at this
  exact this possible

/-- The hypotheses hold for the sprinkler network, which `New` accepts. -/
example : newNet "sprinkler" "" Ex.sprVars Ex.sprTables = .ok Ex.spr ∧
    ∃ r f n', Ex.spr.solveQuery Ex.back Ex.wet ["Rain", "Sprinkler"] false = (.ok (r, f), n') := by
  obtain ⟨r, f, n', h, _⟩ := C31_bayesian Ex.back Ex.spr_valid (by decide) rfl Ex.wet_ok
    (query := ["Rain", "Sprinkler"]) (by decide) (by decide) (by decide +kernel)
  exact ⟨Ex.spr_new, r, f, n', h⟩

theorem sumWorlds_nonneg [AddCommMonoid α] [PartialOrder α] [IsOrderedAddMonoid α] {F : World → α}
    (h : ∀ w, 0 ≤ F w) : ∀ (l : List NVar) (w : World), 0 ≤ sumWorlds l F w := by
  intro l
  induction l with
  | nil => intro w; exact h w
  | cons v l ih => intro w; exact Finset.sum_nonneg (fun k _ => ih _)

theorem getD_nonneg [Zero α] [Preorder α] {l : List α} (h : ∀ x ∈ l, 0 ≤ x) (i : Nat) : 0 ≤ l.getD i 0 := by
  rw [List.getD_eq_getElem?_getD]
  cases hi : l[i]? with
  | none => exact le_refl _
  | some x => exact h x (List.mem_of_getElem? hi)

/-- Chance tables and policies have no negative entries. -/
structure Net.Nonneg [Zero α] [LE α] (n : Net α) : Prop where
  tables : ∀ f ∈ n.chanceTables, ∀ x ∈ f.tab, 0 ≤ x
  policies : ∀ p ∈ n.policies, ∀ x ∈ p.2.data, 0 ≤ x

theorem prod_nonneg' [CommSemiring α] [PartialOrder α] [IsOrderedRing α] {l : List α} (h : ∀ x ∈ l, 0 ≤ x) :
    0 ≤ l.prod := by
  induction l with
  | nil => simp
  | cons x l ih =>
    rw [List.prod_cons]
    exact mul_nonneg (h x List.mem_cons_self) (ih (fun y hy => h y (List.mem_cons_of_mem _ hy)))

theorem joint_nonneg_world [Field α] [LinearOrder α] [IsStrictOrderedRing α] {n : Net α} (h : n.Nonneg)
    {pols : List (String × Factor α)} (hsub : ∀ p ∈ pols, p ∈ n.policies) (w : World) : 0 ≤ n.joint pols w := by
  unfold Net.joint
  apply mul_nonneg
  · apply prod_nonneg'
    intro x hx
    obtain ⟨f, hf, rfl⟩ := List.mem_map.1 hx
    have hentry : ∀ w, 0 ≤ n.entry f w := fun w => getD_nonneg (h.tables f hf) _
    unfold Net.prob
    split_ifs
    · exact hentry w
    · exact div_nonneg (hentry w) (Finset.sum_nonneg (fun k _ => hentry _))
  · apply prod_nonneg'
    intro x hx
    obtain ⟨p, hp, rfl⟩ := List.mem_map.1 hx
    exact getD_nonneg (h.policies p (hsub p hp)) _

theorem mass_nonneg [Field α] [LinearOrder α] [IsStrictOrderedRing α] {n : Net α} (h : n.Nonneg)
    {pols : List (String × Factor α)} (hsub : ∀ p ∈ pols, p ∈ n.policies) (P : World → Prop) [DecidablePred P] :
    0 ≤ n.mass pols P := by
  unfold Net.mass Net.total
  apply sumWorlds_nonneg
  intro w
  apply mul_nonneg (joint_nonneg_world h hsub w)
  dsimp only
  split_ifs
  · exact zero_le_one
  · exact le_refl _

/-- **C33.** With non-negative tables and possible evidence, each answer is a probability distribution over the
outcomes of its variable. -/
theorem C33_distributions [Field α] [LinearOrder α] [IsStrictOrderedRing α] (sch : NSched α) {n : Net α} (hn : n.Valid)
    (hp : n.PoliciesOK) (hnn : n.Nonneg) {evidence : List (String × String)} (hev : n.EvidenceOK evidence)
    {query : List String} (ign : Bool) (hq : n.QueryOK evidence ign query)
    (possible : n.mass (n.active evidence ign) (n.Agrees evidence) ≠ 0) :
    ∃ r f n', n.solveQuery sch evidence query ign = (.ok (r, f), n') ∧
      ∀ q ∈ query, ∃ d : List α, (q, d) ∈ r ∧ d.length = n.count q ∧ (∀ x ∈ d, 0 ≤ x ∧ x ≤ 1) ∧ d.sum = 1 := by
  obtain ⟨r, f, vs', h1, h2, h3, h4⟩ := solveQuery_data sch hn hp hev ign hq
  refine ⟨r, f, _, h1, fun q hqm => ?_⟩
  obtain ⟨d, N, C, a1, a2, a3, a4, a5⟩ := h4 q hqm
  have hsum : d.sum = 1 := by
    have hne : ∑ j ∈ range (n.count q), N j ≠ 0 := by
      intro e
      rw [a5, e, mul_zero] at possible
      exact possible rfl
    rw [a3]
    have : ∀ (m : Nat) (g : Nat → α), ((List.range m).map g).sum = ∑ k ∈ range m, g k := by
      intro m g
      induction m with
      | zero => simp
      | succ m ih => rw [List.range_succ, List.map_append, List.sum_append, ih, Finset.sum_range_succ]; simp
    rw [this, ← Finset.sum_div, div_self hne]
  have hnonneg : ∀ x ∈ d, 0 ≤ x := by
    intro x hx
    rw [a3] at hx
    obtain ⟨k, hk, rfl⟩ := List.mem_map.1 hx
    rw [← mul_div_mul_left _ _ a2, ← a4 k (by simpa using hk), ← a5]
    exact div_nonneg (mass_nonneg hnn active_sub _) (mass_nonneg hnn active_sub _)
  refine ⟨d, a1, by simp [a3], fun x hx => ⟨hnonneg x hx, ?_⟩, hsum⟩
  rw [← hsum]
  exact List.single_le_sum hnonneg x hx

example : ∃ r f n', Ex.spr.solveQuery Ex.back Ex.wet ["Rain"] false = (.ok (r, f), n') ∧
    ∃ d, ("Rain", d) ∈ r ∧ d.sum = 1 := by
  obtain ⟨r, f, n', h1, h2⟩ := C33_distributions Ex.back Ex.spr_valid (Ex.noPolicies rfl)
    ⟨by decide +kernel, by simp [Ex.spr]⟩ Ex.wet_ok (query := ["Rain"]) false ⟨by decide, by decide, by
      intro q hq
      simp only [List.mem_singleton] at hq
      subst hq
      exact chance_occurs Ex.spr_valid _ (v := ⟨"Rain", .chance, ["yes", "no"], (0, 0), "", some 0⟩) (by decide) rfl⟩
    (by decide +kernel)
  obtain ⟨d, d1, _, _, d4⟩ := h2 "Rain" (by simp)
  exact ⟨r, f, n', h1, d, d1, d4⟩

/-- **C40.** Evidence on solved decisions. With `ignorePolicies` the answer is the posterior of the joint distribution
without the policies of the observed decisions (an intervention); without it, of the joint distribution with all the
policies (the observation that the decision was taken). -/
theorem C40_intervention [Field α] [CharZero α] [DecidableEq α] (sch sch' : NSched α) {n : Net α} (hn : n.Valid)
    (hp : n.PoliciesOK) {evidence : List (String × String)} (hev : n.EvidenceOK evidence) {query : List String}
    (hq : ∀ ign, n.QueryOK evidence ign query)
    (possible : n.mass (n.policies.filter (fun p => ∀ e ∈ evidence, e.1 ≠ p.1)) (n.Agrees evidence) ≠ 0)
    (possible' : n.mass n.policies (n.Agrees evidence) ≠ 0) :
    (∃ r f n', n.solveQuery sch evidence query true = (.ok (r, f), n') ∧
      ∀ q ∈ query, ∃ d : List α, (q, d) ∈ r ∧ ∀ k < n.count q, d[k]? =
        some (n.mass (n.policies.filter (fun p => ∀ e ∈ evidence, e.1 ≠ p.1)) (fun w => n.Agrees evidence w ∧ w q = k) /
          n.mass (n.policies.filter (fun p => ∀ e ∈ evidence, e.1 ≠ p.1)) (n.Agrees evidence))) ∧
    (∃ r f n', n.solveQuery sch' evidence query false = (.ok (r, f), n') ∧
      ∀ q ∈ query, ∃ d : List α, (q, d) ∈ r ∧ ∀ k < n.count q, d[k]? =
        some (n.mass n.policies (fun w => n.Agrees evidence w ∧ w q = k) / n.mass n.policies (n.Agrees evidence))) := by
  constructor
  · obtain ⟨r, f, n', h1, _, _, h4⟩ := C31_solveQuery_posterior sch hn hp hev true (hq true) possible
    exact ⟨r, f, n', h1, fun q hqm => (h4 q hqm).imp (fun d hd => ⟨hd.1, hd.2.2⟩)⟩
  · obtain ⟨r, f, n', h1, _, _, h4⟩ := C31_solveQuery_posterior sch' hn hp hev false (hq false) possible'
    exact ⟨r, f, n', h1, fun q hqm => (h4 q hqm).imp (fun d hd => ⟨hd.1, hd.2.2⟩)⟩

/-- Seeing someone with an umbrella makes rain likelier; taking one does not. -/
example : (∃ r f n', Ex.umbSolved.solveQuery Ex.back Ex.taken ["Weather"] true = (.ok (r, f), n') ∧
      ∃ d, ("Weather", d) ∈ r ∧ d[1]? = some (3/10 : ℚ)) ∧
    (∃ r f n', Ex.umbSolved.solveQuery Ex.back Ex.taken ["Weather"] false = (.ok (r, f), n') ∧
      ∃ d, ("Weather", d) ∈ r ∧ d[1]? = some (27/41 : ℚ)) := by
  have hocc : ∀ pols, Ex.umbSolved.Occurs pols "Weather" := fun pols =>
    chance_occurs Ex.umbSolved_valid pols (v := ⟨"Weather", .chance, ["sun", "rain"], (0, 0), "", some 0⟩) (by decide) rfl
  obtain ⟨⟨r, f, n', h1, h2⟩, ⟨r', f', n'', k1, k2⟩⟩ := C40_intervention Ex.back Ex.back Ex.umbSolved_valid
    Ex.umbSolved_policies Ex.taken_ok (query := ["Weather"])
    (fun ign => ⟨by decide, by decide, by intro q hq; simp only [List.mem_singleton] at hq; subst hq; exact hocc _⟩)
    (by decide +kernel) (by decide +kernel)
  obtain ⟨d, d1, d2⟩ := h2 "Weather" (by simp)
  obtain ⟨d', e1, e2⟩ := k2 "Weather" (by simp)
  refine ⟨⟨r, f, n', h1, d, d1, (d2 1 (by decide)).trans ?_⟩, ⟨r', f', n'', k1, d', e1, (e2 1 (by decide)).trans ?_⟩⟩
  · decide +kernel
  · decide +kernel

/-- **C17.** `NormalizeUtility(u, p)` is, at every assignment with `p ≠ 0`, the quotient `u / p`. It is over the
variables of both factors. (`p = 0` gives NaN or an infinity in Go.) -/
theorem C17_normalizeUtility [Field α] {n : Net α} {vs : Vs} (hvs : n.vs = some vs) {u p : Factor α} (hu : u.WF)
    (hp : p.WF) (hc : CoherentFs [u, p]) :
    ∃ g n', n.normalizeUtility u p = (.ok g, n') ∧ g.WF ∧ (∀ v, v ∈ g.vars ↔ v ∈ u.vars ∨ v ∈ p.vars) ∧
      ∀ σ, Fits σ g.vars → p.val σ ≠ 0 → g.get (ints (tupleOf g.vars σ)) = .ok (u.val σ / p.val σ) := by
  obtain ⟨i, i1, i2, i3, i4, i5⟩ := invert_spec vs p hp
  have hc' : CoherentFs [u, i] := by
    have : scopeUnion [u, i] = scopeUnion [u, p] := by simp [scopeUnion, i4]
    simpa [CoherentFs, this, i4] using hc
  obtain ⟨g, g1, g2, g3, g4, g5⟩ := product_spec { vs with factorCounter := vs.factorCounter + 1 } [u, i]
    (by intro f hf; simp at hf; rcases hf with rfl | rfl <;> assumption) hc'
  have hmem : ∀ v, v ∈ g.vars ↔ v ∈ u.vars ∨ v ∈ p.vars := by
    intro v
    rw [g4, mem_scopeUnion]
    simp [i4]
  refine ⟨g, { n with vs := some { vs with factorCounter := vs.factorCounter + 1 + 1 } }, ?_, g2, hmem, ?_⟩
  · unfold Net.normalizeUtility Net.withVs
    rw [hvs]
    dsimp only
    rw [i1, ok_bind]
    dsimp only
    rw [g1]
  · intro σ hσ _
    rw [get_eq_val g2 hσ, g5 σ hσ]
    simp only [List.map_cons, List.map_nil, List.prod_cons, List.prod_nil, mul_one]
    rw [i5 σ (fun v hv => hσ v ((hmem v).2 (.inr hv)))]
    rw [mul_one_div]

example : ∃ g n', ({ Ex.spr with vs := some Ex.vs3 } : Net ℚ).normalizeUtility Ex.fAB Ex.fA = (.ok g, n') ∧ g.WF := by
  obtain ⟨g, n', h1, h2, _⟩ := C17_normalizeUtility (n := { Ex.spr with vs := some Ex.vs3 }) rfl Ex.fAB_wf Ex.fA_wf
    (by unfold CoherentFs Coherent; decide)
  exact ⟨g, n', h1, h2⟩

end Bbn
