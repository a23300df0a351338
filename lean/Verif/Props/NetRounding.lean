import Verif.Lemmas.RoundingNet
import Verif.Props.NetBayes
import Mathlib.Data.Int.Log
import Mathlib.Data.Rat.Floor
import Mathlib.Algebra.Order.Round
import Mathlib.Tactic.FieldSimp
import Mathlib.Tactic.NormNum
import Mathlib.Algebra.Order.Ring.Pow

/-!
# C93: queries with rounded arithmetic
-/

set_option autoImplicit false
set_option linter.unusedSectionVars false

namespace Bbn

open Finset

variable {β K : Type} [Zero β] [One β] [Add β] [Mul β] [Div β] [DecidableEq β] [Field K] [LinearOrder K]
  [IsStrictOrderedRing K] {val : β → K} {u : K}

theorem solveQuery_graded (h : Grading β K) (sch : NSched β) {n : Net β} {b : String → Nat} (st : Start h val b n)
    (hn : (n.mapNum val).Valid)
    (hp : (n.mapNum val).PoliciesOK) (h0 : (n.mapNum val).Nonneg) {evidence : List (String × String)}
    (hev : (n.mapNum val).EvidenceOK evidence) {query : List String} (ign : Bool)
    (hq : (n.mapNum val).QueryOK evidence ign query)
    (possible : (n.mapNum val).mass ((n.mapNum val).active evidence ign) ((n.mapNum val).Agrees evidence) ≠ 0) :
    ∃ r f n', n.solveQuery sch evidence query ign = (.ok (r, f), n') ∧ (r.map Prod.fst).Nodup ∧
      (∀ s, s ∈ r.map Prod.fst ↔ s ∈ query) ∧
      (∀ q ∈ query, ∃ d : List β, (q, d) ∈ r ∧ d.length = n.count q ∧ ∀ k < n.count q, ∃ x, d[k]? = some x ∧
        h.N (4 * n.outcomeTotal + 8 * n.variables.length + 4 * n.bitTotal b + 2 * f.data.length + n.count q + 1)
          (x, (n.mapNum val).mass ((n.mapNum val).active evidence ign)
              (fun w => (n.mapNum val).Agrees evidence w ∧ w q = k) /
            (n.mapNum val).mass ((n.mapNum val).active evidence ign) ((n.mapNum val).Agrees evidence))) ∧
      ((∀ v ∈ n.variables, v.nodeType = .chance) → query.Nodup → f.data.length = (query.map n.count).prod) := by
  obtain ⟨vs, fs, ps, deps, f, vs1, h1, hS, hf, hfv, hfval, hpos, hnear⟩ :=
    solve_rounded h sch st hn hp h0 hev hq.state ign
  have hl : (sch.ev evidence).Perm evidence := sch.ev_perm evidence
  have hperm := active_perm (sch.cast K) 0 (n.mapNum val) evidence ign
  have key : ∀ q ∈ query, ∃ v ∈ (n.mapNum val).stateVars, v.name = q ∧ (n.mapNum val).varOf q ∈ f.vars ∧
      ∃ C : K, C ≠ 0 ∧
      (∀ k < v.outcomes.length, (n.mapNum val).mass ((n.mapNum val).active evidence ign)
        (fun w => (n.mapNum val).Agrees evidence w ∧ w q = k) =
        C * margOf (f.mapNum Prod.snd) ((n.mapNum val).varOf q) k) ∧
      (n.mapNum val).mass ((n.mapNum val).active evidence ign) ((n.mapNum val).Agrees evidence) =
        C * ∑ k ∈ range v.outcomes.length, margOf (f.mapNum Prod.snd) ((n.mapNum val).varOf q) k := by
    intro q hqm
    obtain ⟨v, hv, rfl⟩ := hq.state q hqm
    have hocc : (n.mapNum val).Occurs ((sch.cast K).active 0 (n.mapNum val) evidence ign) v.name := by
      rcases hq.occurs v.name hqm with h | ⟨p, hp1, h⟩
      · exact .inl h
      · exact .inr ⟨p, hperm.symm.subset hp1, h⟩
    obtain ⟨a, C, b1, b2, b3⟩ := posterior hn hp hev hl hperm hS hf hfv hfval hv (List.mem_map_of_mem hqm)
      (hq.free v.name hqm) hocc
    exact ⟨v, hv, rfl, a, C, b1, b2, b3⟩
  have hout : ∀ v ∈ (n.mapNum val).stateVars, ((n.mapNum val).varOf v.name).outcomes = v.outcomes.length := by
    intro v hv
    have hv1 := mem_stateVars.1 hv
    rw [← count_eq hn hv1.1]
    exact (isVar_state hn hv1.1 hv1.2).outcomes hn
  have hsum : ∀ q ∈ query, ∑ k ∈ range ((n.mapNum val).varOf q).outcomes,
      margOf (f.mapNum Prod.snd) ((n.mapNum val).varOf q) k ≠ 0 := by
    intro q hqm e
    obtain ⟨v, hv, rfl, _, C, _, _, b3⟩ := key q hqm
    rw [hout v hv] at e
    rw [e, mul_zero] at b3
    exact possible b3
  obtain ⟨r, n', r1, r2, r3, r4⟩ := queryLoop_rounded h hn hf hpos hnear query []
    { n.paired val with vs := some vs1, names := (n.mapNum val).nameTable } vs1 rfl rfl
    (fun q hqm => ⟨hq.state q hqm, by obtain ⟨_, _, _, h, _⟩ := key q hqm; exact h, hsum q hqm⟩)
  have hsolve := solve_map (rounded_embeds h) sch (n.paired val) (paired_entries st hn h0) evidence query false "" ign
  rw [paired_fst, h1] at hsolve
  refine ⟨r, f.mapNum Prod.fst, n', ?_, r2 (by simp), ?_, ?_, ?_⟩
  · unfold Net.solveQuery
    rw [hsolve]
    dsimp only [callMap, Except.map]
    rw [r1]
  · intro s
    rw [← mapGet_isSome]
    by_cases hs : s ∈ query
    · obtain ⟨d, hd, _⟩ := r4 s hs
      simp [hs, hd]
    · rw [r3 s hs]
      simp [hs, mapGet]
  · intro q hqm
    obtain ⟨v, hv, rfl, hvf, C, b1, b2, b3⟩ := key q hqm
    obtain ⟨d, d1, d2, d3⟩ := r4 v.name hqm
    have hv1 := mem_stateVars.1 hv
    have hcount : n.count v.name = v.outcomes.length := count_eq hn hv1.1
    have hlen : d.length = v.outcomes.length := by
      have := congrArg List.length d2
      rw [List.length_map] at this
      rw [this, ← hout v hv]
      simp [postData]
    refine ⟨d.map Prod.fst, mapGet_some d1, by rw [List.length_map, hlen, hcount], fun k hk => ?_⟩
    rw [hcount] at hk
    have hkd : k < d.length := by rw [hlen]; exact hk
    refine ⟨(d[k]).1, by simp [hkd], ?_⟩
    obtain ⟨e1, e2⟩ := d3 d[k] (List.getElem_mem hkd)
    have e3 : (d[k]).2 = margOf (f.mapNum Prod.snd) ((n.mapNum val).varOf v.name) k /
        ∑ j ∈ range v.outcomes.length, margOf (f.mapNum Prod.snd) ((n.mapNum val).varOf v.name) j := by
      have : (d.map Prod.snd)[k]? = some (d[k]).2 := by simp [hkd]
      rw [d2] at this
      unfold postData at this
      rw [hout v hv] at this
      simp only [List.getElem?_map, List.getElem?_range hk, Option.map_some, Option.some.injEq] at this
      exact this.symm
    have e4 : h.N _ ((d[k]).1, (d[k]).2) := e1
    rw [e3, ← mul_div_mul_left _ _ b1, ← b2 k hk, ← b3, hout v hv] at e4
    have e5 : (n.mapNum val).outcomeTotal = n.outcomeTotal := rfl
    have e6 : (f.mapNum (Prod.fst : β × K → β)).data.length = f.data.length := by simp [Factor.mapNum]
    rw [e5] at e4
    rw [e6, hcount]
    refine (by ring : 2 * (2 * n.outcomeTotal + 4 * n.variables.length + 2 * n.bitTotal b) + 2 * f.data.length +
      v.outcomes.length + 1 = 4 * n.outcomeTotal + 8 * n.variables.length + 4 * n.bitTotal b + 2 * f.data.length +
      v.outcomes.length + 1) ▸ e4
  · intro hch hqn
    have hvars : f.vars.Perm (query.map (n.mapNum val).varOf) := by
      refine (List.perm_ext_iff_of_nodup (List.Nodup.of_map _ hf.nodup) (List.Nodup.of_map _ (nodup_varOf hn (fun s hs => by
        obtain ⟨v, hv, rfl⟩ := hq.state s hs
        exact isVar_state hn (mem_stateVars.1 hv).1 (mem_stateVars.1 hv).2) hqn))).2 ?_
      intro w
      constructor
      · intro hw
        obtain ⟨⟨g, hg, hwg⟩, w2, w3⟩ := (hfv w).1 hw
        have hwR := hS.problem.facVars g (List.mem_filter.1 hg).1 w hwg
        obtain ⟨v, v1, v2, v3⟩ := hS.vars.mem.1 hwR
        have hvc := hch v (List.mem_of_getElem? v1)
        by_contra hno
        apply w3
        unfold hidden
        refine List.mem_filter.2 ⟨hwR, ?_⟩
        rw [decide_eq_true_eq]
        refine ⟨?_, w2, ?_, ?_⟩
        · rw [v3]
          unfold Net.solverVar Net.solverType
          simp [hvc]
        · intro q hqm hid
          obtain ⟨s, hs, rfl⟩ := List.mem_map.1 hqm
          obtain ⟨x, hx, rfl⟩ := hq.state s hs
          have hxR := (isVar_state hn (mem_stateVars.1 hx).1 (mem_stateVars.1 hx).2).varOf_mem hS.vars hn
          exact hno (List.inj_on_of_nodup_map hS.problem.ids hxR hwR hid ▸ hqm)
        · intro e he _
          rw [hS.deps_eq] at he
          obtain ⟨g, hg, rfl⟩ := List.mem_map.1 he
          have hd := (List.mem_filter.1 hg).2
          simp only [Net.isOpen, decide_eq_true_eq] at hd
          obtain ⟨x, hx, _, x2⟩ := isKind_mem.1 hd.1
          rw [hch x hx] at x2
          cases x2
      · intro hw
        obtain ⟨s, hs, rfl⟩ := List.mem_map.1 hw
        obtain ⟨_, _, _, h, _⟩ := key s hs
        exact h
    have hl2 : f.data.length = size f.vars := by
      have := hf.len
      simpa [Factor.mapNum] using this
    have e6 : (f.mapNum (Prod.fst : β × K → β)).data.length = f.data.length := by simp [Factor.mapNum]
    have hsz : ∀ l : List Var, size l = (l.map Var.outcomes).prod := by
      intro l
      induction l with
      | nil => rfl
      | cons v l ih => rw [size, ih, List.map_cons, List.prod_cons]
    rw [e6, hl2, hsz, (hvars.map _).prod_eq, List.map_map]
    congr 1
    apply List.map_congr_left
    intro s hs
    obtain ⟨v, hv, rfl⟩ := hq.state s hs
    rw [Function.comp_apply, hout v hv]
    exact (count_eq hn (mem_stateVars.1 hv).1).symm

theorem solveQuery_rounded (h : Rounding val u) (sch : NSched β) {n : Net β} (hn : (n.mapNum val).Valid)
    (hp : (n.mapNum val).PoliciesOK) (h0 : (n.mapNum val).Nonneg) {evidence : List (String × String)}
    (hev : (n.mapNum val).EvidenceOK evidence) {query : List String} (ign : Bool)
    (hq : (n.mapNum val).QueryOK evidence ign query)
    (possible : (n.mapNum val).mass ((n.mapNum val).active evidence ign) ((n.mapNum val).Agrees evidence) ≠ 0) :
    ∃ r f n', n.solveQuery sch evidence query ign = (.ok (r, f), n') ∧ (r.map Prod.fst).Nodup ∧
      (∀ s, s ∈ r.map Prod.fst ↔ s ∈ query) ∧
      (∀ q ∈ query, ∃ d : List β, (q, d) ∈ r ∧ d.length = n.count q ∧ ∀ k < n.count q, ∃ x, d[k]? = some x ∧
        Within u (4 * n.outcomeTotal + 8 * n.variables.length + 2 * f.data.length + n.count q + 1) (val x)
          ((n.mapNum val).mass ((n.mapNum val).active evidence ign)
              (fun w => (n.mapNum val).Agrees evidence w ∧ w q = k) /
            (n.mapNum val).mass ((n.mapNum val).active evidence ign) ((n.mapNum val).Agrees evidence))) ∧
      ((∀ v ∈ n.variables, v.nodeType = .chance) → query.Nodup → f.data.length = (query.map n.count).prod) := by
  obtain ⟨r, f, n', h1, h2, h3, h4, h5⟩ := solveQuery_graded h.grading sch (h.start n) hn hp h0 hev ign hq possible
  refine ⟨r, f, n', h1, h2, h3, fun q hqm => ?_, h5⟩
  obtain ⟨d, d1, d2, d3⟩ := h4 q hqm
  refine ⟨d, d1, d2, fun k hk => ?_⟩
  obtain ⟨x, x1, x2⟩ := d3 k hk
  refine ⟨x, x1, ?_⟩
  have e : n.bitTotal (fun _ => 0) = 0 := by simp [Net.bitTotal]
  rw [e] at x2
  exact x2 (div_nonneg (mass_nonneg h0 active_sub _) (mass_nonneg h0 active_sub _))

/-- **C93.** `Network.SolveQuery` with rounded numbers: every returned probability is the exact posterior (by full
enumeration, over the exact values of the numbers in the tables) after at most
`4 · (all outcomes) + 8 · (variables) + 2 · (entries of the returned table) + (outcomes of the variable) + 1` roundings.
For every iteration order of every map. -/
theorem C93_rounding (h : Rounding val u) (sch : NSched β) {n : Net β} (hn : (n.mapNum val).Valid)
    (hp : (n.mapNum val).PoliciesOK) (h0 : (n.mapNum val).Nonneg) {evidence : List (String × String)}
    (hev : (n.mapNum val).EvidenceOK evidence) {query : List String} (ign : Bool)
    (hq : (n.mapNum val).QueryOK evidence ign query)
    (possible : (n.mapNum val).mass ((n.mapNum val).active evidence ign) ((n.mapNum val).Agrees evidence) ≠ 0) :
    ∃ r f n', n.solveQuery sch evidence query ign = (.ok (r, f), n') ∧ (r.map Prod.fst).Nodup ∧
      (∀ s, s ∈ r.map Prod.fst ↔ s ∈ query) ∧
      ∀ q ∈ query, ∃ d : List β, (q, d) ∈ r ∧ d.length = n.count q ∧ ∀ k < n.count q, ∃ x, d[k]? = some x ∧
        Within u (4 * n.outcomeTotal + 8 * n.variables.length + 2 * f.data.length + n.count q + 1) (val x)
          ((n.mapNum val).mass ((n.mapNum val).active evidence ign)
              (fun w => (n.mapNum val).Agrees evidence w ∧ w q = k) /
            (n.mapNum val).mass ((n.mapNum val).active evidence ign) ((n.mapNum val).Agrees evidence)) := by
  obtain ⟨r, f, n', h1, h2, h3, h4, _⟩ := solveQuery_rounded h sch hn hp h0 hev ign hq possible
  exact ⟨r, f, n', h1, h2, h3, h4⟩

/-- A number of roundings as a relative error. -/
theorem Within.relative {k : Nat} {x y : K} (hu0 : 0 ≤ u) (hu1 : u < 1) (hy : 0 ≤ y) (hw : Within u k x y)
    (hk : k * u < 1) : |x - y| ≤ k * u / (1 - k * u) * y := by
  have hx : 0 ≤ x := hw.pos hu1 hy
  have hb : 1 - k * u ≤ (1 - u) ^ k := by
    have := one_add_mul_le_pow (a := -u) (by linarith) k
    rw [sub_eq_add_neg 1 u]
    linarith
  have h1 : y * (1 - k * u) ≤ x := (mul_le_mul_of_nonneg_left hb hy).trans hw.1
  have h2 : x * (1 - k * u) ≤ y := (mul_le_mul_of_nonneg_left hb hx).trans hw.2
  have hpos : 0 < 1 - k * u := by linarith
  have hku : 0 ≤ (k : K) * u := mul_nonneg (Nat.cast_nonneg k) hu0
  rw [div_mul_eq_mul_div, le_div_iff₀ hpos]
  have hyk : 0 ≤ k * u * y := mul_nonneg hku hy
  rcases le_total x y with hxy | hxy
  · rw [abs_of_nonpos (by linarith)]
    have : (y - x) * (1 - k * u) ≤ y - x := by
      have := mul_nonneg (sub_nonneg.2 hxy) hku
      nlinarith
    nlinarith
  · rw [abs_of_nonneg (by linarith)]
    nlinarith

/-- The same for a Bayesian network: the relative error of every returned probability is at most `E u / (1 - E u)`,
where `E` depends only on the numbers of variables, outcomes and query variables. A returned probability is exactly 0
if and only if the exact one is 0. -/
theorem C93_bayesian (h : Rounding val u) (sch : NSched β) {n : Net β} (hn : (n.mapNum val).Valid)
    (hchance : ∀ v ∈ n.variables, v.nodeType = .chance) (hpol : n.policies = [])
    (h0 : ∀ f ∈ n.factors, ∀ x ∈ f.tab, 0 ≤ val x) {evidence : List (String × String)}
    (hev : (n.mapNum val).EvidenceOK evidence) {query : List String}
    (hknown : ∀ q ∈ query, ∃ v ∈ n.variables, v.name = q) (hfree : ∀ q ∈ query, ∀ e ∈ evidence, e.1 ≠ q)
    (hqn : query.Nodup) (possible : (n.mapNum val).mass [] ((n.mapNum val).Agrees evidence) ≠ 0) :
    ∃ r f n', n.solveQuery sch evidence query false = (.ok (r, f), n') ∧ (r.map Prod.fst).Nodup ∧
      (∀ s, s ∈ r.map Prod.fst ↔ s ∈ query) ∧
      ∀ q ∈ query, ∃ d : List β, (q, d) ∈ r ∧ d.length = n.count q ∧ ∀ k < n.count q, ∃ x p, d[k]? = some x ∧
        p = (n.mapNum val).mass [] (fun w => (n.mapNum val).Agrees evidence w ∧ w q = k) /
            (n.mapNum val).mass [] ((n.mapNum val).Agrees evidence) ∧ (x = 0 ↔ p = 0) ∧
        ∀ E : Nat, E = 4 * n.outcomeTotal + 8 * n.variables.length + 2 * (query.map n.count).prod + n.count q + 1 →
          E * u < 1 → |val x - p| ≤ E * u / (1 - E * u) * p := by
  have hpol' : (n.mapNum val).policies = [] := by simp [Net.mapNum, hpol]
  have hact : (n.mapNum val).active evidence false = [] := by simp [Net.active, hpol']
  have hnon : (n.mapNum val).Nonneg := by
    refine ⟨fun f hf x hx => ?_, by simp [hpol']⟩
    obtain ⟨g, hg, rfl⟩ := List.mem_map.1 (List.mem_filter.1 hf).1
    rw [NFactor.tab_mapNum] at hx
    obtain ⟨y, hy, rfl⟩ := List.mem_map.1 hx
    exact h0 g hg y hy
  obtain ⟨r, f, n', h1, h2, h3, h4, h5⟩ := solveQuery_rounded h sch hn (by constructor <;> simp [hpol']) hnon hev
    (query := query) false
    ⟨fun q hq => by
      obtain ⟨v, hv, e⟩ := hknown q hq
      exact ⟨v, mem_stateVars.2 ⟨hv, by rw [hchance v hv]; decide⟩, e⟩, hfree, fun q hq => by
      obtain ⟨v, hv, rfl⟩ := hknown q hq
      exact chance_occurs hn _ hv (hchance v hv)⟩ (by rw [hact]; exact possible)
  refine ⟨r, f, n', h1, h2, h3, fun q hq => ?_⟩
  obtain ⟨d, d1, d2, d3⟩ := h4 q hq
  refine ⟨d, d1, d2, fun k hk => ?_⟩
  obtain ⟨x, x1, x2⟩ := d3 k hk
  rw [hact, h5 hchance hqn] at x2
  have hp0 : 0 ≤ (n.mapNum val).mass [] (fun w => (n.mapNum val).Agrees evidence w ∧ w q = k) /
      (n.mapNum val).mass [] ((n.mapNum val).Agrees evidence) :=
    div_nonneg (mass_nonneg hnon (by simp) _) (mass_nonneg hnon (by simp) _)
  refine ⟨x, _, x1, rfl, ?_, fun E hE hk' => ?_⟩
  · have := x2.zero_iff h.lt_one hp0
    rw [← this]
    exact ⟨fun e => by rw [e, h.zero], h.eq_zero x⟩
  · rw [← hE] at x2
    exact x2.relative h.nonneg h.lt_one hp0 hk'

/-! An instance: numbers with 53 significant bits, as Go's `float64`, but without limits to the exponent. -/

/-- The nearest number with 53 significant bits. -/
def Ex.nearest (x : ℚ) : ℚ := (round (x / 2 ^ (Int.log 2 |x| - 52)) : ℚ) * 2 ^ (Int.log 2 |x| - 52)

theorem Ex.nearest_error (x : ℚ) : ∃ d : ℚ, |d| ≤ 1 / 2 ^ 53 ∧ Ex.nearest x = x * (1 + d) := by
  rcases eq_or_ne x 0 with rfl | hx0
  · exact ⟨0, by norm_num, by simp [Ex.nearest]⟩
  · have hx : 0 < |x| := abs_pos.2 hx0
    refine ⟨Ex.nearest x / x - 1, ?_, by field_simp; ring⟩
    set e := Int.log 2 |x| - 52 with he
    have h2e : (0 : ℚ) < 2 ^ e := zpow_pos (by norm_num) e
    have h1 : |x / 2 ^ e - round (x / 2 ^ e)| ≤ 1 / 2 := abs_sub_round _
    have h2 : (2 : ℚ) ^ Int.log 2 |x| ≤ |x| := by exact_mod_cast Int.zpow_log_le_self (b := 2) (by norm_num) hx
    have h3 : (2 : ℚ) ^ e = 2 ^ Int.log 2 |x| / 2 ^ 52 := by
      rw [he, zpow_sub₀ (by norm_num)]
      norm_num
    have h4 : Ex.nearest x = (round (x / 2 ^ e) : ℚ) * 2 ^ e := rfl
    have h5 : |Ex.nearest x - x| ≤ 1 / 2 * 2 ^ e := by
      have : Ex.nearest x - x = -((x / 2 ^ e - round (x / 2 ^ e)) * 2 ^ e) := by
        rw [h4]
        field_simp
        ring
      rw [this, abs_neg, abs_mul, abs_of_pos h2e]
      exact mul_le_mul_of_nonneg_right h1 h2e.le
    have h6 : Ex.nearest x / x - 1 = (Ex.nearest x - x) / x := by field_simp
    rw [h6, abs_div, div_le_iff₀ hx]
    refine h5.trans ?_
    rw [h3]
    linarith

/-- Numbers with rounded arithmetic. -/
structure Ex.Dbl where
  val : ℚ
  deriving DecidableEq

instance Ex.Dbl.instZero : Zero Ex.Dbl := ⟨⟨0⟩⟩
instance Ex.Dbl.instOne : One Ex.Dbl := ⟨⟨1⟩⟩
instance Ex.Dbl.instAdd : Add Ex.Dbl := ⟨fun a b => ⟨Ex.nearest (a.val + b.val)⟩⟩
instance Ex.Dbl.instMul : Mul Ex.Dbl := ⟨fun a b => ⟨Ex.nearest (a.val * b.val)⟩⟩
instance Ex.Dbl.instDiv : Div Ex.Dbl := ⟨fun a b => ⟨Ex.nearest (a.val / b.val)⟩⟩

theorem Ex.dbl_rounding : Rounding Ex.Dbl.val (1 / 2 ^ 53 : ℚ) where
  nonneg := by norm_num
  lt_one := by norm_num
  zero := rfl
  one := rfl
  eq_zero x h := by
    cases x
    cases h
    rfl
  add _ _ _ _ := Ex.nearest_error _
  mul _ _ _ _ := Ex.nearest_error _
  div _ _ _ _ := Ex.nearest_error _

/-- Rain given wet grass, in 53 bit arithmetic, for all iteration orders: exact to more than 13 digits. -/
example (sch : NSched Ex.Dbl) : ∃ r f n', (Ex.spr.mapNum Ex.Dbl.mk).solveQuery sch Ex.wet ["Rain"] false =
      (.ok (r, f), n') ∧ ∃ d x, ("Rain", d) ∈ r ∧ d[0]? = some x ∧ |x.val - 2673 / 7473| ≤ 1 / 10 ^ 14 := by
  have e : (Ex.spr.mapNum Ex.Dbl.mk).mapNum Ex.Dbl.val = Ex.spr := (Net.mapNum_mapNum _ _ _).trans Ex.spr.mapNum_id
  have hpos : ∀ f ∈ Ex.spr.factors, ∀ x ∈ f.tab, 0 ≤ x := by decide +kernel
  obtain ⟨r, f, n', h1, _, _, h4⟩ := C93_bayesian Ex.dbl_rounding sch (n := Ex.spr.mapNum Ex.Dbl.mk)
    (by rw [e]; exact Ex.spr_valid) (by decide) rfl (by
      intro f hf x hx
      obtain ⟨g, hg, rfl⟩ := List.mem_map.1 hf
      rw [NFactor.tab_mapNum] at hx
      obtain ⟨y, hy, rfl⟩ := List.mem_map.1 hx
      exact hpos g hg y hy) (evidence := Ex.wet) (by rw [e]; exact Ex.wet_ok) (query := ["Rain"]) (by decide) (by decide)
    (by decide) (by rw [e]; decide +kernel)
  obtain ⟨d, d1, _, d3⟩ := h4 "Rain" (by simp)
  obtain ⟨x, p, x1, x2, _, x3⟩ := d3 0 (by decide)
  refine ⟨r, f, n', h1, d, x, d1, x1, ?_⟩
  rw [e] at x2
  have hp : p = 2673 / 7473 := by rw [x2]; decide +kernel
  have := x3 55 (by decide) (by norm_num)
  rw [hp] at this
  refine this.trans ?_
  norm_num

end Bbn
