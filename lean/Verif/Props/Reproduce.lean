import Verif.Lemmas.Worlds
import Verif.Props.PolicyRounding

/-!
# C118, C119: the same call again, with rounded arithmetic

The iteration orders of Go's maps differ from run to run, and with them the order in which numbers are multiplied.
-/

set_option autoImplicit false

namespace Bbn

section Query

variable {β K : Type} [Zero β] [One β] [Add β] [Mul β] [Div β] [DecidableEq β] [Field K] [LinearOrder K]
  [IsStrictOrderedRing K] {val : β → K} {u : K}

omit [DecidableEq β] in
theorem Within.symm {k : Nat} {x y : K} (h : Within u k x y) : Within u k y x := ⟨h.2, h.1⟩

omit [DecidableEq β] in
theorem Within.trans {k l : Nat} {x y z : K} (h1 : u < 1) (h : Within u k x y) (h' : Within u l y z) :
    Within u (k + l) x z := by
  constructor
  · rw [pow_add, mul_comm ((1 - u) ^ k), ← mul_assoc]
    exact (mul_le_mul_of_nonneg_right h'.1 (pow_pos' h1 k).le).trans h.1
  · rw [pow_add, ← mul_assoc]
    exact (mul_le_mul_of_nonneg_right h.2 (pow_pos' h1 l).le).trans h'.2

/-- **C118, partial.** Two runs of `Network.SolveQuery` on the same network, evidence and query, with any iteration orders
of the maps and rounded numbers: both answer, with the same variables, and each probability of the one is the probability
of the other after at most as many roundings as both make together. In particular one is 0 only if the other is. -/
theorem C118_close_partial (h : Rounding val u) (sch sch' : NSched β) {n : Net β} (hn : (n.mapNum val).Valid)
    (hp : (n.mapNum val).PoliciesOK) (h0 : (n.mapNum val).Nonneg) {evidence : List (String × String)}
    (hev : (n.mapNum val).EvidenceOK evidence) {query : List String} (ign : Bool)
    (hq : (n.mapNum val).QueryOK evidence ign query)
    (possible : (n.mapNum val).mass ((n.mapNum val).active evidence ign) ((n.mapNum val).Agrees evidence) ≠ 0) :
    ∃ r f n₁ r' f' n₂, n.solveQuery sch evidence query ign = (.ok (r, f), n₁) ∧
      n.solveQuery sch' evidence query ign = (.ok (r', f'), n₂) ∧ (r.map Prod.fst).Nodup ∧ (r'.map Prod.fst).Nodup ∧
      (∀ s, s ∈ r.map Prod.fst ↔ s ∈ query) ∧ (∀ s, s ∈ r'.map Prod.fst ↔ s ∈ query) ∧
      ∀ q ∈ query, ∃ d d' : List β, (q, d) ∈ r ∧ (q, d') ∈ r' ∧ d.length = n.count q ∧ d'.length = n.count q ∧
        ∀ k < n.count q, ∃ x x', d[k]? = some x ∧ d'[k]? = some x' ∧ (x = 0 ↔ x' = 0) ∧
          Within u (8 * n.outcomeTotal + 16 * n.variables.length + 2 * (f.data.length + f'.data.length) + 2 * n.count q + 2)
            (val x) (val x') := by
  obtain ⟨r, f, n₁, a1, a2, a3, a4⟩ := C93_rounding h sch hn hp h0 hev ign hq possible
  obtain ⟨r', f', n₂, b1, b2, b3, b4⟩ := C93_rounding h sch' hn hp h0 hev ign hq possible
  refine ⟨r, f, n₁, r', f', n₂, a1, b1, a2, b2, a3, b3, fun q hqm => ?_⟩
  obtain ⟨d, c1, c2, c3⟩ := a4 q hqm
  obtain ⟨d', e1, e2, e3⟩ := b4 q hqm
  refine ⟨d, d', c1, e1, c2, e2, fun k hk => ?_⟩
  obtain ⟨x, x1, x2⟩ := c3 k hk
  obtain ⟨y, y1, y2⟩ := e3 k hk
  have hw := x2.trans h.lt_one y2.symm
  refine ⟨x, y, x1, y1, ?_, ?_⟩
  · have hact : ∀ p ∈ (n.mapNum val).active evidence ign, p ∈ (n.mapNum val).policies := by
      intro p hp
      unfold Net.active at hp
      split_ifs at hp
      · exact (List.mem_filter.1 hp).1
      · exact hp
    have hy : 0 ≤ val y := y2.pos h.lt_one (div_nonneg (mass_nonneg h0 hact _) (mass_nonneg h0 hact _))
    have := hw.zero_iff h.lt_one hy
    constructor
    · intro e
      rw [e, h.zero] at this
      exact h.eq_zero y (this.1 rfl)
    · intro e
      rw [e, h.zero] at this
      exact h.eq_zero x (this.2 rfl)
  · convert hw using 1
    ring

/-- **C118, partial, Bayesian networks.** The relative difference of two runs is at most `2 E u / (1 - 2 E u)`, where `E`
depends only on the numbers of variables, outcomes and query variables. -/
theorem C118_bayesian_partial (h : Rounding val u) (sch sch' : NSched β) {n : Net β} (hn : (n.mapNum val).Valid)
    (hchance : ∀ v ∈ n.variables, v.nodeType = .chance) (hpol : n.policies = [])
    (h0 : ∀ f ∈ n.factors, ∀ x ∈ f.tab, 0 ≤ val x) {evidence : List (String × String)}
    (hev : (n.mapNum val).EvidenceOK evidence) {query : List String}
    (hknown : ∀ q ∈ query, ∃ v ∈ n.variables, v.name = q) (hfree : ∀ q ∈ query, ∀ e ∈ evidence, e.1 ≠ q)
    (hqn : query.Nodup) (possible : (n.mapNum val).mass [] ((n.mapNum val).Agrees evidence) ≠ 0) :
    ∃ r f n₁ r' f' n₂, n.solveQuery sch evidence query false = (.ok (r, f), n₁) ∧
      n.solveQuery sch' evidence query false = (.ok (r', f'), n₂) ∧
      ∀ q ∈ query, ∃ d d' : List β, (q, d) ∈ r ∧ (q, d') ∈ r' ∧ d.length = n.count q ∧ d'.length = n.count q ∧
        ∀ k < n.count q, ∃ x x', d[k]? = some x ∧ d'[k]? = some x' ∧ 0 ≤ val x' ∧
          ∀ E : Nat, E = 4 * n.outcomeTotal + 8 * n.variables.length + 2 * (query.map n.count).prod + n.count q + 1 →
            (2 * E : Nat) * u < 1 → |val x - val x'| ≤ (2 * E : Nat) * u / (1 - (2 * E : Nat) * u) * val x' := by
  have hpol' : (n.mapNum val).policies = [] := by simp [Net.mapNum, hpol]
  have hact : (n.mapNum val).active evidence false = [] := by simp [Net.active, hpol']
  have hnon : (n.mapNum val).Nonneg := by
    refine ⟨fun f hf x hx => ?_, by simp [hpol']⟩
    obtain ⟨g, hg, rfl⟩ := List.mem_map.1 (List.mem_filter.1 hf).1
    rw [NFactor.tab_mapNum] at hx
    obtain ⟨y, hy, rfl⟩ := List.mem_map.1 hx
    exact h0 g hg y hy
  have hq : (n.mapNum val).QueryOK evidence false query := ⟨fun q hq => by
      obtain ⟨v, hv, e⟩ := hknown q hq
      exact ⟨v, mem_stateVars.2 ⟨hv, by rw [hchance v hv]; decide⟩, e⟩, hfree, fun q hq => by
      obtain ⟨v, hv, rfl⟩ := hknown q hq
      exact chance_occurs hn _ hv (hchance v hv)⟩
  have hpo : (n.mapNum val).PoliciesOK := by constructor <;> simp [hpol']
  obtain ⟨r, f, n₁, a1, _, _, a4, a5⟩ := solveQuery_rounded h sch hn hpo hnon hev false hq (by rw [hact]; exact possible)
  obtain ⟨r', f', n₂, b1, _, _, b4, b5⟩ := solveQuery_rounded h sch' hn hpo hnon hev false hq (by rw [hact]; exact possible)
  refine ⟨r, f, n₁, r', f', n₂, a1, b1, fun q hqm => ?_⟩
  obtain ⟨d, c1, c2, c3⟩ := a4 q hqm
  obtain ⟨d', e1, e2, e3⟩ := b4 q hqm
  refine ⟨d, d', c1, e1, c2, e2, fun k hk => ?_⟩
  obtain ⟨x, x1, x2⟩ := c3 k hk
  obtain ⟨y, y1, y2⟩ := e3 k hk
  rw [hact, a5 hchance hqn] at x2
  rw [hact, b5 hchance hqn] at y2
  have hy : 0 ≤ val y := y2.pos h.lt_one (div_nonneg (mass_nonneg hnon (by simp) _) (mass_nonneg hnon (by simp) _))
  refine ⟨x, y, x1, y1, hy, fun E hE hu => ?_⟩
  rw [← hE] at x2 y2
  have hw := x2.trans h.lt_one y2.symm
  rw [← two_mul] at hw
  exact hw.relative h.nonneg h.lt_one hy hu

end Query

namespace Ex

/-- All maps are iterated in the order of their entries, or all in the reverse order. -/
def order {α : Type} (r : Bool) : Sched α where
  ord _ l := if r then (List.range l.length).reverse else List.range l.length
  var _ l := if r then l.reverse else l
  dep _ l := if r then l.reverse else l
  ord_perm _ _ := by cases r <;> simp [List.reverse_perm]
  var_perm _ _ := by cases r <;> simp [List.reverse_perm]
  dep_perm _ _ := by cases r <;> simp [List.reverse_perm]

/-- The same for the maps of a network. -/
def norder {α : Type} (r : Bool) : NSched α where
  ve _ := order r
  polOrd _ l := if r then (List.range l.length).reverse else List.range l.length
  ev l := if r then l.reverse else l
  names _ l := if r then l.reverse else l
  polOrd_perm _ _ := by cases r <;> simp [List.reverse_perm]
  ev_perm _ := by cases r <;> simp [List.reverse_perm]
  names_perm _ _ := by cases r <;> simp [List.reverse_perm]

/-- The number with 53 bits that is nearest, as the Go compiler and `encoding` packages read a literal. -/
def near (x : ℚ) : Dbl := ⟨nearest x⟩

/-- A disease with two symptoms. -/
def flu : Net ℚ where
  name := "flu"
  info := ""
  «variables» := [⟨"Flu", .chance, ["yes", "no"], (0, 0), "", some 0⟩, ⟨"Fever", .chance, ["yes", "no"], (0, 0), "", some 1⟩,
    ⟨"Cough", .chance, ["yes", "no"], (0, 0), "", some 2⟩]
  factors := [⟨"Flu", [], some [1/10, 9/10], [], 2⟩, ⟨"Fever", ["Flu"], some [9/10, 1/10, 1/10, 9/10], [2], 2⟩,
    ⟨"Cough", ["Flu"], some [9/10, 1/10, 1/10, 9/10], [2], 2⟩]
  policies := []
  vs := none
  names := []
  totalUtility := none

theorem flu_new : newNet "flu" "" [nv "Flu" .chance ["yes", "no"], nv "Fever" .chance ["yes", "no"],
    nv "Cough" .chance ["yes", "no"]] [nf "Flu" [] [1/10, 9/10], nf "Fever" ["Flu"] [9/10, 1/10, 1/10, 9/10],
    nf "Cough" ["Flu"] [9/10, 1/10, 1/10, 9/10]] = .ok flu := rfl

theorem flu_valid : flu.Valid where
  names := by decide
  named := by decide
  few := by decide
  outcomes := by decide
  tables := by decide
  hasTable := by decide
  known := by decide
  dims := by decide
  parents := by decide
  size := by
    have key : ∀ f ∈ flu.factors, f.table = some f.tab ∧ f.tab.length = (f.dims.map flu.count).prod := by
      decide +kernel
    exact fun f hf _ _ => ⟨f.tab, key f hf⟩
  single := by decide
  weights := by intro i h; cases h

/-- Both symptoms. -/
def ill : List (String × String) := [("Fever", "yes"), ("Cough", "yes")]

/-- What `SolveQuery` says about the disease given both symptoms, in 53 bit arithmetic. -/
def fluAnswer (sch : NSched Dbl) : Option (List (String × List Dbl)) :=
  match ((flu.mapNum near).solveQuery sch ill ["Flu"] false).1 with
  | .ok r => some r.1
  | .error _ => none

end Ex

/-- **C118, refuted as stated.** The probability of no flu given fever and cough differs in the last bit between two
iteration orders of the maps. -/
theorem C118_refuted : ¬ ∀ sch sch' : NSched Ex.Dbl, Ex.fluAnswer sch = Ex.fluAnswer sch' := by
  intro h
  have key : Ex.fluAnswer (Ex.norder true) ≠ Ex.fluAnswer (Ex.norder false) := by decide +kernel
  exact key (h _ _)

/-- What the two runs return. -/
example : Ex.fluAnswer (Ex.norder true) = some [("Flu", [⟨2026619832316723 / 2251799813685248⟩,
      ⟨3602879701896397 / 36028797018963968⟩])] ∧
    Ex.fluAnswer (Ex.norder false) = some [("Flu", [⟨2026619832316723 / 2251799813685248⟩,
      ⟨900719925474099 / 9007199254740992⟩])] := by decide +kernel

/-- The same network meets the hypotheses of the theorems above: any two runs differ by less than `10⁻¹³` of the value. -/
example (sch sch' : NSched Ex.Dbl) : ∃ r f n₁ r' f' n₂,
    (Ex.flu.mapNum Ex.near).solveQuery sch Ex.ill ["Flu"] false = (.ok (r, f), n₁) ∧
    (Ex.flu.mapNum Ex.near).solveQuery sch' Ex.ill ["Flu"] false = (.ok (r', f'), n₂) ∧
    ∃ d d', ("Flu", d) ∈ r ∧ ("Flu", d') ∈ r' ∧ ∃ x x', d[1]? = some x ∧ d'[1]? = some x' ∧
      |x.val - x'.val| ≤ 1 / 10 ^ 13 * x'.val := by
  have hpos : ∀ f ∈ Ex.flu.factors, ∀ x ∈ f.tab, 0 ≤ Ex.nearest x := by decide +kernel
  obtain ⟨r, f, n₁, r', f', n₂, a1, a2, a3⟩ := C118_bayesian_partial Ex.dbl_rounding sch sch' (n := Ex.flu.mapNum Ex.near)
    (Valid.mapNum (Valid.mapNum Ex.flu_valid _) _) (by decide) rfl (by
      intro f hf x hx
      obtain ⟨g, hg, rfl⟩ := List.mem_map.1 hf
      rw [NFactor.tab_mapNum] at hx
      obtain ⟨y, hy, rfl⟩ := List.mem_map.1 hx
      exact hpos g hg y hy) (evidence := Ex.ill) ⟨by decide, by decide⟩ (query := ["Flu"]) (by decide) (by decide)
    (by decide) (by decide +kernel)
  obtain ⟨d, d', b1, b2, _, _, b3⟩ := a3 "Flu" (by simp)
  obtain ⟨x, x', c1, c2, c3, c4⟩ := b3 1 (by decide)
  refine ⟨r, f, n₁, r', f', n₂, a1, a2, d, d', b1, b2, x, x', c1, c2, (c4 55 (by decide) (by norm_num)).trans ?_⟩
  exact mul_le_mul_of_nonneg_right (by norm_num) c3

/-! ## Policies -/

section Policies

variable {β K : Type} [Zero β] [One β] [Add β] [Mul β] [Div β] [NatCast β] [LinearOrder β] [Field K] [LinearOrder K]
  [IsStrictOrderedRing K] {val : β → K} {u : K}

theorem prod_scaled (v : K) (f : String → K) (l : List String) :
    (l.map (fun e => v * f e)).prod = v ^ l.length * (l.map f).prod := by
  induction l with
  | nil => simp
  | cons e l ih => rw [List.map_cons, List.prod_cons, ih, List.map_cons, List.prod_cons, List.length_cons, pow_succ]; ring

/-- What later decisions taken almost certainly are worth. -/
theorem worlds_scaled {N : Net K} (hn : N.Valid) {later : List String} {d : String} (v : K) {δ δ' : String → World → K}
    (F : World → K) (h : ∀ e ∈ later, ∀ w, N.FitsAll w → δ e w = v * δ' e w) {w : World} (hw : N.FitsAll w) :
    sumWorlds (N.hiddenFrom later d) (fun w => (N.chanceTables.map (fun f => N.prob f w)).prod *
        (later.map (fun e => δ e w)).prod * F w) w =
      v ^ later.length * sumWorlds (N.hiddenFrom later d) (fun w => (N.chanceTables.map (fun f => N.prob f w)).prod *
        (later.map (fun e => δ' e w)).prod * F w) w := by
  rw [← sumWorlds_mul]
  apply sumWorlds_congr
  · exact hn.names.sublist (List.filter_sublist.map _)
  intro w' h1 h2
  have hw' : N.FitsAll w' := by
    intro x hx
    by_cases hu : x.name ∈ (N.hiddenFrom later d).map NVar.name
    · obtain ⟨y, hy1, hy2⟩ := List.mem_map.1 hu
      have := name_unique hn (List.mem_filter.1 hy1).1 hx hy2
      exact this ▸ h1 y hy1
    · rw [h2 _ hu]; exact hw x hx
  have : later.map (fun e => δ e w') = later.map (fun e => v * δ' e w') :=
    List.map_congr_left (fun e he => h e he w' hw')
  rw [this, prod_scaled]
  ring

/-- **C119, partial.** `SolvePolicies` one decision after another, with rounded numbers, for decisions that are listed in
the declared order: in each situation in which one outcome is clearly better than the others (by more than `E u / (1 - E u)`
times the magnitudes of what is compared, in exact arithmetic, the later decisions taken as they clearly should be), the
policy takes this outcome, for every iteration order of every map. -/
theorem C119_clear_partial (h : OrderedRounding val u) (sch : NSched β) {n : Net β} (hn : n.Valid) (hs : n.Solvable)
    (hd : n.decisions ≠ []) (hord : n.Ordered n.decisions) (hmat : ∀ d ∈ n.decisions, n.Matters [d] d)
    (h0 : ∀ f ∈ (n.mapNum val).chanceTables, ∀ x ∈ f.tab, 0 ≤ x)
    (E : Nat) (hE : E = 2 * n.outcomeTotal + 6 * n.variables.length + 1) (hEu : E * u < 1) (c : String → World → Nat) :
    ∃ tables n', n.solvePolicies sch true = (.ok tables, n') ∧
      ∀ A d B, n.decisions = A ++ d :: B →
        (∀ A' e B', B = A' ++ e :: B' → ∀ w, n.FitsAll w → (n.mapNum val).ClearAt (E * u / (1 - E * u)) c B' e w) →
        ∀ w, n.FitsAll w → (n.mapNum val).ClearAt (E * u / (1 - E * u)) c B d w →
          ∀ k < n.count d, n.byTables tables d (w.set d k) = if k = c d w then 1 / ((1 : Nat) : β) else 0 := by
  obtain ⟨tables, n', order, k1, k2, _, k4, k5, k6⟩ := C115_rounding h sch hn hs hd h0 E hE hEu
  obtain rfl := k4 hord
  have hN := Valid.mapNum hn val
  have hv0 : 0 < val (1 / ((1 : Nat) : β)) := by
    have := (share_within h (c := 1) one_ne_zero).2.1
    rw [Nat.cast_one, one_mul, one_mul] at this
    exact lt_of_lt_of_le (pow_pos' h.lt_one 2) this
  have hset : ∀ w, n.FitsAll w → ∀ d k, k < n.count d → n.FitsAll (w.set d k) := by
    intro w hw d k hk x hx
    unfold World.set
    split_ifs with e
    · rw [← count_eq hn hx, e]; exact hk
    · exact hw x hx
  refine ⟨tables, n', k1, ?_⟩
  suffices hall : ∀ (m : Nat) (A : List String) (d : String) (B : List String), B.length = m → n.decisions = A ++ d :: B →
      (∀ A' e B', B = A' ++ e :: B' → ∀ w, n.FitsAll w → (n.mapNum val).ClearAt (E * u / (1 - E * u)) c B' e w) →
      ∀ w, n.FitsAll w → (n.mapNum val).ClearAt (E * u / (1 - E * u)) c B d w →
        ∀ k < n.count d, n.byTables tables d (w.set d k) = if k = c d w then 1 / ((1 : Nat) : β) else 0 from
    fun A d B => hall B.length A d B rfl
  intro m
  induction m using Nat.strong_induction_on with
  | _ m ih =>
    intro A d B hm e hB w hw hclear
    -- the later decisions
    have hlater : ∀ e ∈ B, ∀ w, (n.mapNum val).FitsAll w →
        val (n.byTables tables e w) = val (1 / ((1 : Nat) : β)) * certainly c e w := by
      intro f hf w hw
      obtain ⟨A', B', rfl⟩ := List.append_of_mem hf
      have hfd : n.isKind .decision f = true := mem_decisions.1 (by rw [e]; simp)
      obtain ⟨x, hx, rfl, _⟩ := isKind_mem.1 hfd
      have := ih B'.length (by rw [← hm]; simp; omega) (A ++ d :: A') x.name B' rfl (by rw [e]; simp)
        (fun A'' g B'' e' => hB (A' ++ x.name :: A'') g B'' (by rw [e']; simp)) w hw (hB A' x.name B' rfl w hw) (w x.name)
        (by rw [count_eq hn hx]; exact hw x hx)
      rw [World.set_self] at this
      rw [this]
      unfold certainly
      split_ifs
      · rw [mul_one]
      · rw [mul_zero, h.zero]
    have hworth : ∀ w, n.FitsAll w → (n.mapNum val).worthTo (fun e w => val (n.byTables tables e w)) B d w =
        val (1 / ((1 : Nat) : β)) ^ B.length * (n.mapNum val).worthTo (certainly c) B d w := fun w hw =>
      worlds_scaled hN _ _ hlater hw
    have hsize : ∀ w, n.FitsAll w → (n.mapNum val).worthSizeTo (fun e w => val (n.byTables tables e w)) B d w =
        val (1 / ((1 : Nat) : β)) ^ B.length * (n.mapNum val).worthSizeTo (certainly c) B d w := fun w hw =>
      worlds_scaled hN _ _ hlater hw
    obtain ⟨S, s1, s2, s3, s4⟩ := (k5 A d B e).2.2 w (fun x hx => hw x (mem_stateVars.1 hx).1)
    obtain ⟨hc, hbest⟩ := hclear
    have hsub : ∀ j ∈ S, j = c d w := by
      intro j hj
      by_contra hne
      have hjd := s3 j hj
      have hwj := hset w hw d j hjd
      have hwc := hset w hw d (c d w) hc
      have hnz : n.byTables tables d (w.set d j) ≠ 0 := by
        rw [s4 j hjd, if_pos hj]
        intro e0
        have := (share_within h (c := S.length) (by simpa using s1)).2.1
        rw [e0, h.zero, mul_zero, one_mul] at this
        exact absurd this (not_le.2 (pow_pos' h.lt_one 2))
      have := k6 A d B e (hmat d (by rw [e]; simp)) (w.set d j) hwj hnz (c d w) hc
      rw [World.set_set, hworth _ hwc, hworth _ hwj, hsize _ hwc, hsize _ hwj] at this
      have hb := hbest j hjd hne
      have hpos : 0 < val (1 / ((1 : Nat) : β)) ^ B.length := pow_pos hv0 _
      have := mul_lt_mul_of_pos_left hb hpos
      rw [mul_add] at this
      linarith
    obtain rfl : S = [c d w] := by
      cases S with
      | nil => exact absurd rfl s1
      | cons a l =>
        cases l with
        | nil => rw [hsub a (by simp)]
        | cons b l =>
          have e1 := hsub a (by simp)
          have e2 := hsub b (by simp)
          rw [e1, e2] at s2
          simp at s2
    intro k hk
    rw [s4 k hk]
    simp

/-- **C119, partial, two runs.** If one outcome is clearly better in every situation of every decision, all runs return
the same policies. -/
theorem C119_same_partial (h : OrderedRounding val u) (sch sch' : NSched β) {n : Net β} (hn : n.Valid) (hs : n.Solvable)
    (hd : n.decisions ≠ []) (hord : n.Ordered n.decisions) (hmat : ∀ d ∈ n.decisions, n.Matters [d] d)
    (h0 : ∀ f ∈ (n.mapNum val).chanceTables, ∀ x ∈ f.tab, 0 ≤ x)
    (E : Nat) (hE : E = 2 * n.outcomeTotal + 6 * n.variables.length + 1) (hEu : E * u < 1) (c : String → World → Nat)
    (hclear : ∀ A d B, n.decisions = A ++ d :: B → ∀ w, n.FitsAll w →
      (n.mapNum val).ClearAt (E * u / (1 - E * u)) c B d w) :
    ∃ tables n₁ tables' n₂, n.solvePolicies sch true = (.ok tables, n₁) ∧ n.solvePolicies sch' true = (.ok tables', n₂) ∧
      ∀ d ∈ n.decisions, ∀ w, n.FitsAll w → n.byTables tables d w = n.byTables tables' d w := by
  obtain ⟨tables, n₁, a1, a2⟩ := C119_clear_partial h sch hn hs hd hord hmat h0 E hE hEu c
  obtain ⟨tables', n₂, b1, b2⟩ := C119_clear_partial h sch' hn hs hd hord hmat h0 E hE hEu c
  refine ⟨tables, n₁, tables', n₂, a1, b1, fun d hdm w hw => ?_⟩
  obtain ⟨A, B, e⟩ := List.append_of_mem hdm
  obtain ⟨x, hx, rfl, _⟩ := isKind_mem.1 (mem_decisions.1 hdm)
  have hk : w x.name < n.count x.name := by rw [count_eq hn hx]; exact hw x hx
  have hB : ∀ A' e B', B = A' ++ e :: B' → ∀ w, n.FitsAll w → (n.mapNum val).ClearAt (E * u / (1 - E * u)) c B' e w :=
    fun A' f B' e' => hclear (A ++ x.name :: A') f B' (by rw [e, e']; simp)
  have k1 := a2 A x.name B e hB w hw (hclear A _ B e w hw) _ hk
  have k2 := b2 A x.name B e hB w hw (hclear A _ B e w hw) _ hk
  rw [World.set_self] at k1 k2
  rw [k1, k2]

end Policies

namespace Ex

/-- The disease, and whether to rest. -/
def rest : Net ℚ where
  name := "rest"
  info := ""
  «variables» := [⟨"Flu", .chance, ["yes", "no"], (0, 0), "", some 0⟩, ⟨"Fever", .chance, ["yes", "no"], (0, 0), "", some 1⟩,
    ⟨"Cough", .chance, ["yes", "no"], (0, 0), "", some 2⟩, ⟨"Rest", .decision, ["yes", "no"], (0, 0), "", some 3⟩,
    ⟨"Gain", .utility, ["gain"], (0, 0), "", some 4⟩]
  factors := [⟨"Flu", [], some [1/10, 9/10], [], 2⟩, ⟨"Fever", ["Flu"], some [9/10, 1/10, 1/10, 9/10], [2], 2⟩,
    ⟨"Cough", ["Flu"], some [9/10, 1/10, 1/10, 9/10], [2], 2⟩, ⟨"Rest", ["Fever", "Cough"], none, [2, 2], 2⟩,
    ⟨"Gain", ["Flu", "Rest"], some [9, 0, 0, 1], [2, 2], 1⟩]
  policies := []
  vs := none
  names := []
  totalUtility := none

theorem rest_new : newNet "rest" "" [nv "Flu" .chance ["yes", "no"], nv "Fever" .chance ["yes", "no"],
    nv "Cough" .chance ["yes", "no"], nv "Rest" .decision ["yes", "no"], nv "Gain" .utility ["gain"]]
    [nf "Flu" [] [1/10, 9/10], nf "Fever" ["Flu"] [9/10, 1/10, 1/10, 9/10], nf "Cough" ["Flu"] [9/10, 1/10, 1/10, 9/10],
    ⟨"Rest", ["Fever", "Cough"], none, [], 0⟩, nf "Gain" ["Flu", "Rest"] [9, 0, 0, 1]] = .ok rest := rfl

/-- How likely the policies returned by `SolvePolicies` make it to rest, given the outcomes of fever and cough, in 53 bit
arithmetic. -/
def resting (stepwise : Bool) (sch : NSched Dbl) (fever cough : Nat) : Option Dbl :=
  match ((rest.mapNum near).solvePolicies sch stepwise).1 with
  | .ok l => some ((rest.mapNum near).byTables l "Rest" (fun s => if s = "Fever" then fever else if s = "Cough" then cough else 0))
  | .error _ => none

end Ex

/-- **C119, refuted as stated.** In 53 bit arithmetic, whether to rest in case of cough without fever depends on the
iteration orders of the maps, in both ways of solving. -/
theorem C119_refuted (stepwise : Bool) :
    ¬ ∀ sch sch' : NSched Ex.Dbl, Ex.resting stepwise sch 1 0 = Ex.resting stepwise sch' 1 0 := by
  intro h
  have key : ∀ b, Ex.resting b (Ex.norder true) 1 0 ≠ Ex.resting b (Ex.norder false) 1 0 := by decide +kernel
  exact key stepwise (h _ _)

/-- What the two runs say. -/
example : Ex.resting true (Ex.norder true) 1 0 = some ⟨1 / 2⟩ ∧ Ex.resting true (Ex.norder false) 1 0 = some ⟨1⟩ := by
  decide +kernel

theorem Ex.rest_valid : Ex.rest.Valid where
  names := by decide
  named := by decide
  few := by decide
  outcomes := by decide
  tables := by decide
  hasTable := by decide
  known := by decide
  dims := by decide
  parents := by decide
  size := by
    have key : ∀ f ∈ rest.factors, rest.isKind .decision f.forVar = false → f.table = some f.tab ∧
        f.tab.length = (f.dims.map rest.count).prod := by decide +kernel
    exact fun f hf _ h => ⟨f.tab, key f hf h⟩
  single := by decide
  weights := by intro i h; cases h

theorem Ex.rest_solvable : Ex.rest.Solvable where
  utility := by decide
  used := by decide
  acyclic := by
    have hno : ∀ p d, ¬ Ex.rest.DecisionParent p d := by
      rintro p d ⟨h1, h2, f, hf, rfl, h3⟩
      have : ∀ f ∈ Ex.rest.factors, Ex.rest.isKind .decision f.forVar = true →
          ∀ p ∈ f.given, Ex.rest.isKind .decision p = false := by decide
      rw [this f hf h2 p h3] at h1
      exact absurd h1 (by simp)
    intro s h
    obtain ⟨_, h, _⟩ := Relation.TransGen.head'_iff.1 h
    exact hno _ _ h

/-- A network with a single decision lists it in order. -/
theorem Ex.single_ordered {A : Type} {n : Net A} {d : String} (hs : n.Solvable) (h : n.decisions = [d]) :
    n.Ordered n.decisions := by
  intro A e B he p hp
  rw [h] at he
  have hpd : p ∈ n.decisions := mem_decisions.2 hp.1
  rw [h, List.mem_singleton] at hpd
  have hed : e ∈ n.decisions := by rw [h, he]; simp
  rw [h, List.mem_singleton] at hed
  exact absurd (.single (hpd.trans hed.symm ▸ hp)) (hs.acyclic e)

/-- With both symptoms all runs rest, although they differ elsewhere. -/
example (sch : NSched Ex.Dbl) : Ex.resting true sch 0 0 = some ⟨1⟩ := by
  have hE : 2 * (Ex.rest.mapNum Ex.near).outcomeTotal + 6 * (Ex.rest.mapNum Ex.near).variables.length + 1 = 49 := by decide
  have hd : (Ex.rest.mapNum Ex.near).decisions = ["Rest"] := by decide
  have hs := Solvable.mapNum Ex.rest_solvable Ex.near
  obtain ⟨tables, n', k1, k2⟩ := C119_clear_partial Ex.dbl_ordered sch (Valid.mapNum Ex.rest_valid Ex.near) hs
    (by rw [hd]; simp) (Ex.single_ordered hs hd) (by
      intro d hdm
      rw [hd, List.mem_singleton] at hdm
      rw [hdm]
      exact matters_mapNum _ (.utility (f := ⟨"Gain", ["Flu", "Rest"], some [9, 0, 0, 1], [2, 2], 1⟩) (by simp [Ex.rest])
        (by decide) (by decide) (by decide)))
    (by decide +kernel) 49 hE.symm (by norm_num) (fun _ _ => 0)
  have hclear : ((Ex.rest.mapNum Ex.near).mapNum Ex.Dbl.val).ClearAt
      (((49 : ℕ) : ℚ) * (1 / 2 ^ 53) / (1 - ((49 : ℕ) : ℚ) * (1 / 2 ^ 53))) (fun _ _ => 0) [] "Rest" (fun _ => 0) := by
    unfold Net.ClearAt
    decide +kernel
  have := k2 [] "Rest" [] hd (by simp) (fun _ => 0) (by unfold Net.FitsAll; decide) hclear 0 (by decide)
  unfold Ex.resting
  rw [show (Ex.rest.mapNum Ex.near).solvePolicies sch true = (.ok tables, n') by convert k1]
  have hw : World.set (fun _ => 0) "Rest" 0 = (fun s => if s = "Fever" then 0 else if s = "Cough" then 0 else 0) := by
    funext s
    unfold World.set
    split_ifs <;> rfl
  rw [hw] at this
  simp only [this, if_true]
  decide +kernel

/-- A situation in the umbrella network. -/
def Ex.umbWorld (f k : Nat) : World := fun s => if s = "Forecast" then f else if s = "Umbrella" then k else 0

/-- In the umbrella network the better outcome is clear in every situation: all runs return the same policy. -/
example (sch sch' : NSched Ex.Dbl) : ∃ tables n₁ tables' n₂,
    (Ex.umb.mapNum Ex.Dbl.mk).solvePolicies sch true = (.ok tables, n₁) ∧
    (Ex.umb.mapNum Ex.Dbl.mk).solvePolicies sch' true = (.ok tables', n₂) ∧
    ∀ w, (Ex.umb.mapNum Ex.Dbl.mk).FitsAll w → (Ex.umb.mapNum Ex.Dbl.mk).byTables tables "Umbrella" w =
      (Ex.umb.mapNum Ex.Dbl.mk).byTables tables' "Umbrella" w := by
  have e : (Ex.umb.mapNum Ex.Dbl.mk).mapNum Ex.Dbl.val = Ex.umb := (Net.mapNum_mapNum _ _ _).trans Ex.umb.mapNum_id
  have hE : 2 * (Ex.umb.mapNum Ex.Dbl.mk).outcomeTotal + 6 * (Ex.umb.mapNum Ex.Dbl.mk).variables.length + 1 = 57 := by decide
  have hd : (Ex.umb.mapNum Ex.Dbl.mk).decisions = ["Umbrella"] := by decide
  have hs := Solvable.mapNum Ex.umb_solvable Ex.Dbl.mk
  have key : ∀ f < 2, ∀ k < 2, k ≠ f →
      Ex.umb.worthTo (certainly fun _ _ => 0) [] "Umbrella" (Ex.umbWorld f k) +
        ((57 : ℕ) : ℚ) * (1 / 2 ^ 53) / (1 - ((57 : ℕ) : ℚ) * (1 / 2 ^ 53)) *
          (Ex.umb.worthSizeTo (certainly fun _ _ => 0) [] "Umbrella" (Ex.umbWorld f f) +
            Ex.umb.worthSizeTo (certainly fun _ _ => 0) [] "Umbrella" (Ex.umbWorld f k)) <
      Ex.umb.worthTo (certainly fun _ _ => 0) [] "Umbrella" (Ex.umbWorld f f) := by
    decide +kernel
  obtain ⟨tables, n₁, tables', n₂, k1, k2, k3⟩ := C119_same_partial Ex.dbl_ordered sch sch' (Valid.mapNum Ex.umb_valid Ex.Dbl.mk) hs
    (by rw [hd]; simp) (Ex.single_ordered hs hd) (by
      intro d hdm
      rw [hd, List.mem_singleton] at hdm
      rw [hdm]
      exact matters_mapNum _ (.utility (f := ⟨"Effort", ["Umbrella"], some [0, -5], [2], 1⟩) (by decide) (by decide) (by decide)
        (by decide)))
    (by rw [e]; decide) 57 hE.symm (by norm_num) (fun _ w => w "Forecast") (by
      intro A d B h w hw
      rw [hd] at h
      obtain ⟨rfl, rfl, rfl⟩ : A = [] ∧ d = "Umbrella" ∧ B = [] := by
        cases A with
        | nil => simpa [eq_comm] using h
        | cons a l => simp at h
      rw [e]
      have hf : w "Forecast" < 2 := hw ⟨"Forecast", .chance, ["good", "bad"], (0, 0), "", some 1⟩ (by decide)
      exact ⟨hf, fun k hk hne => key (w "Forecast") hf k hk hne⟩)
  exact ⟨tables, n₁, tables', n₂, by convert k1, by convert k2, fun w hw => k3 "Umbrella" (by rw [hd]; simp) w hw⟩

end Bbn
