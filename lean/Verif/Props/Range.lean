import Verif.Lemmas.Range
import Verif.Props.Reproduce

/-!
# C121: queries with numbers of a limited range

`float64` numbers below `2⁻¹⁰²²` lose digits and below `2⁻¹⁰⁷⁵` become zero; a sum of zeros that is divided by gives NaN.
-/

set_option autoImplicit false
set_option linter.unusedSectionVars false

namespace Bbn

open Finset

section

variable {β K : Type} [Zero β] [One β] [Add β] [Mul β] [Div β] [DecidableEq β] [Field K] [LinearOrder K]
  [IsStrictOrderedRing K] {val : β → K} {u lo hi : K}

/-- The sizes of the numbers of a network: positive entries of the table of a variable are between `2⁻ᵇ` and `2ᵇ`, where `b`
depends on the variable, and policies choose one outcome each. -/
structure Net.Sizes (val : β → K) (bits : String → Nat) (n : Net β) : Prop where
  tables : ∀ f ∈ n.factors, ∀ x ∈ f.tab, 0 < val x → (1 / 2) ^ bits f.forVar ≤ val x ∧ val x ≤ 2 ^ bits f.forVar
  policies : ∀ p ∈ n.policies, ∀ x ∈ p.2.data, val x = 0 ∨ val x = 1

theorem ranged_start (h : RangedRounding val u lo hi) {B : Nat} (hlo : lo ≤ ((1 - u) / 2) ^ B)
    (hhi : 1 ≤ hi * ((1 - u) / 2) ^ B) {n : Net β} {bits : String → Nat} (hs : n.Sizes val bits)
    (hb : ∀ f ∈ n.factors, bits f.forVar ≤ B) : Start (h.grading hlo hhi) val bits n where
  tabs f hf x hx := nearMid_exact h.nonneg h.lt_one (hs.tables f hf x hx)
  divs f hf x hx h0 := by
    refine ⟨h0, ?_, Iff.rfl⟩
    rcases eq_or_lt_of_le h0 with e | e
    · exact .inl e.symm
    · right
      refine (hlo.trans ?_).trans (hs.tables f hf x hx e).1
      calc ((1 - u) / 2) ^ B ≤ (1 / 2) ^ B :=
            pow_le_pow_left₀ (by have := h.lt_one; linarith) (by have := h.nonneg; linarith) B
        _ ≤ (1 / 2) ^ bits f.forVar := pow_le_pow_of_le_one (by norm_num) (by norm_num) (hb f hf)
  pols p hp x hx := nearMid_exact h.nonneg h.lt_one (fun h0 => by
    rcases hs.policies p hp x hx with e | e
    · exact absurd e h0.ne'
    · rw [e]; simp)

/-- **C121, what holds.** `Network.SolveQuery` with numbers of a limited range: if at most `B` roundings are counted, with
`B` such that `2⁻ᴮ` and `2ᴮ` (and a little less and more) are in range, every returned probability is the exact posterior
after at most that many roundings. Without limits to the range, `C93_rounding` says this without a condition. -/
theorem C121_range_partial (h : RangedRounding val u lo hi) {B : Nat} (hlo : lo ≤ ((1 - u) / 2) ^ B)
    (hhi : 1 ≤ hi * ((1 - u) / 2) ^ B) (sch : NSched β) {n : Net β} {bits : String → Nat} (hs : n.Sizes val bits)
    (hb : ∀ f ∈ n.factors, bits f.forVar ≤ B) (hn : (n.mapNum val).Valid)
    (hp : (n.mapNum val).PoliciesOK) (h0 : (n.mapNum val).Nonneg) {evidence : List (String × String)}
    (hev : (n.mapNum val).EvidenceOK evidence) {query : List String} (ign : Bool)
    (hq : (n.mapNum val).QueryOK evidence ign query)
    (possible : (n.mapNum val).mass ((n.mapNum val).active evidence ign) ((n.mapNum val).Agrees evidence) ≠ 0) :
    ∃ r f n', n.solveQuery sch evidence query ign = (.ok (r, f), n') ∧ (r.map Prod.fst).Nodup ∧
      (∀ s, s ∈ r.map Prod.fst ↔ s ∈ query) ∧
      ∀ q ∈ query, ∃ d : List β, (q, d) ∈ r ∧ d.length = n.count q ∧ ∀ k < n.count q, ∃ x, d[k]? = some x ∧
        ∀ E : Nat, E = 4 * n.outcomeTotal + 8 * n.variables.length + 4 * (n.variables.map (fun v => bits v.name)).sum +
            2 * f.data.length + n.count q + 1 → E ≤ B →
          Within u E (val x)
            ((n.mapNum val).mass ((n.mapNum val).active evidence ign)
                (fun w => (n.mapNum val).Agrees evidence w ∧ w q = k) /
              (n.mapNum val).mass ((n.mapNum val).active evidence ign) ((n.mapNum val).Agrees evidence)) := by
  obtain ⟨r, f, n', h1, h2, h3, h4, _⟩ := solveQuery_graded (h.grading hlo hhi) sch (ranged_start h hlo hhi hs hb) hn hp h0
    hev ign hq possible
  refine ⟨r, f, n', h1, h2, h3, fun q hqm => ?_⟩
  obtain ⟨d, d1, d2, d3⟩ := h4 q hqm
  refine ⟨d, d1, d2, fun k hk => ?_⟩
  obtain ⟨x, x1, x2⟩ := d3 k hk
  refine ⟨x, x1, fun E hE hB => ?_⟩
  subst hE
  exact (x2 hB (div_nonneg (mass_nonneg h0 active_sub _) (mass_nonneg h0 active_sub _))).1

/-- **C121, Bayesian networks.** The number of roundings depends on the numbers of variables and outcomes, on the sizes of
the entries and on the query only; if it is at most `B`, the relative error is small, and a returned probability is exactly 0
if and only if the exact one is. -/
theorem C121_bayesian_partial (h : RangedRounding val u lo hi) {B : Nat} (hlo : lo ≤ ((1 - u) / 2) ^ B)
    (hhi : 1 ≤ hi * ((1 - u) / 2) ^ B) (sch : NSched β) {n : Net β} {bits : String → Nat} (hs : n.Sizes val bits)
    (hn : (n.mapNum val).Valid) (hchance : ∀ v ∈ n.variables, v.nodeType = .chance) (hpol : n.policies = [])
    (h0 : ∀ f ∈ n.factors, ∀ x ∈ f.tab, 0 ≤ val x) {evidence : List (String × String)}
    (hev : (n.mapNum val).EvidenceOK evidence) {query : List String}
    (hknown : ∀ q ∈ query, ∃ v ∈ n.variables, v.name = q) (hfree : ∀ q ∈ query, ∀ e ∈ evidence, e.1 ≠ q)
    (hqn : query.Nodup) (possible : (n.mapNum val).mass [] ((n.mapNum val).Agrees evidence) ≠ 0) {E : Nat}
    (hE : ∀ q ∈ query, 4 * n.outcomeTotal + 8 * n.variables.length + 4 * (n.variables.map (fun v => bits v.name)).sum +
      2 * (query.map n.count).prod + n.count q + 1 ≤ E) (hB : E ≤ B) (hu : E * u < 1)
    (hb : ∀ f ∈ n.factors, bits f.forVar ≤ B) :
    ∃ r f n', n.solveQuery sch evidence query false = (.ok (r, f), n') ∧ (r.map Prod.fst).Nodup ∧
      (∀ s, s ∈ r.map Prod.fst ↔ s ∈ query) ∧
      ∀ q ∈ query, ∃ d : List β, (q, d) ∈ r ∧ d.length = n.count q ∧ ∀ k < n.count q, ∃ x p, d[k]? = some x ∧
        p = (n.mapNum val).mass [] (fun w => (n.mapNum val).Agrees evidence w ∧ w q = k) /
            (n.mapNum val).mass [] ((n.mapNum val).Agrees evidence) ∧ (x = 0 ↔ p = 0) ∧
        |val x - p| ≤ E * u / (1 - E * u) * p := by
  have hpol' : (n.mapNum val).policies = [] := by simp [Net.mapNum, hpol]
  have hact : (n.mapNum val).active evidence false = [] := by simp [Net.active, hpol']
  have hnon : (n.mapNum val).Nonneg := by
    refine ⟨fun f hf x hx => ?_, by simp [hpol']⟩
    obtain ⟨g, hg, rfl⟩ := List.mem_map.1 (List.mem_filter.1 hf).1
    rw [NFactor.tab_mapNum] at hx
    obtain ⟨y, hy, rfl⟩ := List.mem_map.1 hx
    exact h0 g hg y hy
  obtain ⟨r, f, n', h1, h2, h3, h4, h5⟩ := solveQuery_graded (h.grading hlo hhi) sch (ranged_start h hlo hhi hs hb) hn
    (by constructor <;> simp [hpol']) hnon hev (query := query) false
    ⟨fun q hq => by
      obtain ⟨v, hv, e⟩ := hknown q hq
      exact ⟨v, mem_stateVars.2 ⟨hv, by rw [hchance v hv]; decide⟩, e⟩, hfree, fun q hq => by
      obtain ⟨v, hv, rfl⟩ := hknown q hq
      exact chance_occurs hn _ hv (hchance v hv)⟩ (by rw [hact]; exact possible)
  refine ⟨r, f, n', h1, h2, h3, fun q hq => ?_⟩
  obtain ⟨d, d1, d2, d3⟩ := h4 q hq
  refine ⟨d, d1, d2, fun k hk => ?_⟩
  obtain ⟨x, x1, x2⟩ := d3 k hk
  rw [hact, h5 hchance hqn] at x2
  have hp0 : 0 ≤ (n.mapNum val).mass [] (fun w => (n.mapNum val).Agrees evidence w ∧ w q = k) /
      (n.mapNum val).mass [] ((n.mapNum val).Agrees evidence) :=
    div_nonneg (mass_nonneg hnon (by simp) _) (mass_nonneg hnon (by simp) _)
  have hw := (((h.grading hlo hhi).mono x2 (hE q hq)) hB hp0).1
  refine ⟨x, _, x1, rfl, ?_, hw.relative h.nonneg h.lt_one hp0 hu⟩
  rw [← hw.zero_iff h.lt_one hp0]
  exact ⟨fun e => by rw [e, h.zero], h.eq_zero x⟩

end

set_option exponentiation.threshold 2000

namespace Ex

/-- Numbers as Go's `float64`: 53 significant bits, exponents from -1074 to 1023, infinities and NaN. Two simplifications:
there is one zero, and a number halfway between two neighbours is rounded up. -/
inductive F64 where
  | num (q : ℚ)
  | inf (negative : Bool)
  | nan
  deriving DecidableEq

namespace F64

/-- The multiple of the last place that is nearest. -/
def rounded (x : ℚ) : ℚ := (round (x / 2 ^ max (Int.log 2 |x| - 52) (-1074)) : ℚ) * 2 ^ max (Int.log 2 |x| - 52) (-1074)

/-- The nearest number, or an infinity. -/
def ofRat (x : ℚ) : F64 := if 2 ^ 1024 ≤ |rounded x| then .inf (decide (rounded x < 0)) else .num (rounded x)

def add : F64 → F64 → F64
  | .num a, .num b => ofRat (a + b)
  | .nan, _ => .nan
  | _, .nan => .nan
  | .inf s, .inf t => if s = t then .inf s else .nan
  | .inf s, .num _ => .inf s
  | .num _, .inf t => .inf t

def mul : F64 → F64 → F64
  | .num a, .num b => ofRat (a * b)
  | .nan, _ => .nan
  | _, .nan => .nan
  | .inf s, .inf t => .inf (s != t)
  | .inf s, .num b => if b = 0 then .nan else .inf (s != decide (b < 0))
  | .num a, .inf t => if a = 0 then .nan else .inf (t != decide (a < 0))

def div : F64 → F64 → F64
  | .num a, .num b => if b = 0 then (if a = 0 then .nan else .inf (decide (a < 0))) else ofRat (a / b)
  | .nan, _ => .nan
  | _, .nan => .nan
  | .inf _, .inf _ => .nan
  | .inf s, .num b => .inf (s != decide (b < 0))
  | .num _, .inf _ => .num 0

instance instZero : Zero F64 := ⟨.num 0⟩
instance instOne : One F64 := ⟨.num 1⟩
instance instAdd : Add F64 := ⟨add⟩
instance instMul : Mul F64 := ⟨mul⟩
instance instDiv : Div F64 := ⟨div⟩

/-- The exact number. Infinities are far out of range, and NaN is negative: both do not matter. -/
def val : F64 → ℚ
  | .num q => q
  | .inf false => 2 ^ 1024
  | .inf true => -2 ^ 1024
  | .nan => -1

theorem rounded_zero : rounded 0 = 0 := by simp [rounded]

theorem lo_zpow : (1 : ℚ) / 2 ^ 1022 = 2 ^ (-1022 : ℤ) := by rw [zpow_neg, one_div]; rfl

theorem log_ge {x : ℚ} (hx : 1 / 2 ^ 1022 ≤ x) : -1022 ≤ Int.log 2 x := by
  have h0 : 0 < x := lt_of_lt_of_le (by positivity) hx
  rw [← Int.zpow_le_iff_le_log (by norm_num) h0]
  rw [lo_zpow] at hx
  exact_mod_cast hx

theorem rounded_nearest {x : ℚ} (hx : 1 / 2 ^ 1022 ≤ x) : rounded x = nearest x := by
  have h0 : 0 < x := lt_of_lt_of_le (by positivity) hx
  have : -1022 ≤ Int.log 2 |x| := by
    rw [abs_of_pos h0]
    exact log_ge hx
  unfold rounded nearest
  rw [max_eq_left (by omega)]

theorem nearest_ge {x : ℚ} (hx : 1 / 2 ^ 1022 ≤ x) : 1 / 2 ^ 1022 ≤ nearest x := by
  have h0 : 0 < x := lt_of_lt_of_le (by positivity) hx
  set l := Int.log 2 |x| with hl
  have h1 : -1022 ≤ l := by
    rw [hl, abs_of_pos h0]
    exact log_ge hx
  have h2 : (2 : ℚ) ^ l ≤ x := by
    rw [hl, abs_of_pos h0]
    exact_mod_cast Int.zpow_log_le_self (b := 2) (by norm_num) h0
  have h3 : (0 : ℚ) < 2 ^ (l - 52) := zpow_pos (by norm_num) _
  have h4 : (2 : ℚ) ^ l = 2 ^ 52 * 2 ^ (l - 52) := by
    rw [zpow_sub₀ (by norm_num)]
    norm_num
    ring
  have h5 : (2 : ℚ) ^ 52 ≤ x / 2 ^ (l - 52) := by rw [le_div_iff₀ h3, ← h4]; exact h2
  have h6 : (2 : ℤ) ^ 52 ≤ round (x / 2 ^ (l - 52)) := by
    rw [round_eq, Int.le_floor]
    push_cast
    linarith
  have h7 : (2 : ℚ) ^ 52 ≤ (round (x / 2 ^ (l - 52)) : ℚ) := by exact_mod_cast h6
  have h8 : (2 : ℚ) ^ l ≤ nearest x := by
    unfold nearest
    rw [← hl, h4]
    exact mul_le_mul_of_nonneg_right h7 h3.le
  refine le_trans ?_ h8
  rw [lo_zpow]
  exact zpow_le_zpow_right₀ (by norm_num) h1

/-- The span without loss of digits. -/
theorem ofRat_span {x : ℚ} (hx : InSpan (1 / 2 ^ 1022) (2 ^ 1023) x) :
    ∃ d : ℚ, |d| ≤ 1 / 2 ^ 53 ∧ (ofRat x).val = x * (1 + d) := by
  rcases hx with rfl | ⟨h1, h2⟩
  · refine ⟨0, by norm_num, ?_⟩
    unfold ofRat
    rw [rounded_zero, if_neg (by norm_num)]
    simp [val]
  · obtain ⟨d, hd, e⟩ := nearest_error x
    refine ⟨d, hd, ?_⟩
    have h0 : 0 < x := lt_of_lt_of_le (by positivity) h1
    obtain ⟨d1, d2⟩ := abs_le.1 hd
    have hlt : |rounded x| < 2 ^ 1024 := by
      rw [rounded_nearest h1, e, abs_mul, abs_of_pos h0]
      have : |1 + d| < 2 := by rw [abs_lt]; constructor <;> norm_num at * <;> linarith
      calc x * |1 + d| < x * 2 := mul_lt_mul_of_pos_left this h0
        _ ≤ 2 ^ 1023 * 2 := mul_le_mul_of_nonneg_right h2 (by norm_num)
        _ = 2 ^ 1024 := by norm_num
    unfold ofRat
    rw [if_neg (not_le.2 hlt), rounded_nearest h1, val, e]

theorem ofRat_ge {x : ℚ} (hx : 1 / 2 ^ 1022 ≤ x) : 1 / 2 ^ 1022 ≤ (ofRat x).val := by
  unfold ofRat
  have := nearest_ge hx
  rw [rounded_nearest hx]
  split_ifs
  · have h0 : ¬ nearest x < 0 := by
      have : (0 : ℚ) < 1 / 2 ^ 1022 := by positivity
      linarith
    simp only [h0, decide_false, val]
    norm_num
  · exact this

/-- A number in the span is finite. -/
theorem of_span {a : F64} (h : InSpan (1 / 2 ^ 1022) (2 ^ 1023) a.val) : ∃ q, a = .num q := by
  cases a with
  | num q => exact ⟨q, rfl⟩
  | inf s =>
    exfalso
    cases s <;> rcases h with h | ⟨h1, h2⟩ <;> simp only [val] at * <;> norm_num at *
  | nan =>
    exfalso
    rcases h with h | ⟨h1, h2⟩ <;> simp only [val] at * <;> norm_num at *

end F64

/-- `float64` has a relative error of at most `2⁻⁵³` between `2⁻¹⁰²²` and `2¹⁰²³`. -/
theorem f64_ranged : RangedRounding F64.val (1 / 2 ^ 53 : ℚ) (1 / 2 ^ 1022) (2 ^ 1023) where
  nonneg := by norm_num
  lt_one := by norm_num
  lo_pos := by norm_num
  zero := rfl
  one := rfl
  eq_zero x h := by
    cases x with
    | num q => rw [show q = 0 from h]; rfl
    | inf s => cases s <;> simp only [F64.val] at h <;> norm_num at h
    | nan => simp only [F64.val] at h; norm_num at h
  add a b ha hb hr := by
    obtain ⟨p, rfl⟩ := F64.of_span ha
    obtain ⟨q, rfl⟩ := F64.of_span hb
    exact F64.ofRat_span hr
  mul a b ha hb hr := by
    obtain ⟨p, rfl⟩ := F64.of_span ha
    obtain ⟨q, rfl⟩ := F64.of_span hb
    exact F64.ofRat_span hr
  div a b ha hb h0 hr := by
    obtain ⟨p, rfl⟩ := F64.of_span ha
    obtain ⟨q, rfl⟩ := F64.of_span hb
    have e : (F64.num p / F64.num q : F64) = F64.ofRat (p / q) := by
      show F64.div (.num p) (.num q) = _
      unfold F64.div
      exact if_neg h0
    rw [e]
    exact F64.ofRat_span hr
  sums a b ha hb := by
    have hl : (0 : ℚ) < 1 / 2 ^ 1022 := by positivity
    have big : (1 : ℚ) / 2 ^ 1022 ≤ 2 ^ 1024 := by norm_num
    have key : ∀ c : F64, c.val = 0 ∨ (1 : ℚ) / 2 ^ 1022 ≤ c.val →
        c = .inf false ∨ ∃ q, c = .num q ∧ (q = 0 ∨ (1 : ℚ) / 2 ^ 1022 ≤ q) := by
      intro c hc
      cases c with
      | num q => exact .inr ⟨q, rfl, hc⟩
      | inf s =>
        cases s with
        | false => exact .inl rfl
        | true => exfalso; rcases hc with h | h <;> simp only [F64.val] at h <;> norm_num at h
      | nan => exfalso; rcases hc with h | h <;> simp only [F64.val] at h <;> norm_num at h
    have hinf : (F64.inf false).val = 2 ^ 1024 := rfl
    have hne : (2 : ℚ) ^ 1024 ≠ 0 := by norm_num
    rcases key a ha with rfl | ⟨p, rfl, hp⟩
    · have e : (F64.inf false + b : F64) = .inf false := by
        rcases key b hb with rfl | ⟨q, rfl, _⟩ <;> rfl
      rw [e, hinf]
      exact ⟨.inr big, fun h => absurd h hne⟩
    · rcases key b hb with rfl | ⟨q, rfl, hq⟩
      · have e : (F64.num p + F64.inf false : F64) = .inf false := rfl
        rw [e, hinf]
        exact ⟨.inr big, fun h => absurd h hne⟩
      · have e : (F64.num p + F64.num q : F64) = F64.ofRat (p + q) := rfl
        rw [e]
        by_cases h0 : p + q = 0
        · have hp0 : p = 0 := by
            rcases hp with h | h
            · exact h
            · rcases hq with h' | h' <;> linarith
          have hq0 : q = 0 := by linarith
          subst hp0
          subst hq0
          refine ⟨.inl ?_, fun _ => ⟨rfl, rfl⟩⟩
          obtain ⟨d, _, e⟩ := F64.ofRat_span (x := 0 + 0) (.inl (by norm_num))
          rw [e]
          simp
        · have hge : 1 / 2 ^ 1022 ≤ p + q := by
            rcases hp with h | h <;> rcases hq with h' | h'
            · exact absurd (by rw [h, h', add_zero]) h0
            · linarith
            · linarith
            · linarith
          have := F64.ofRat_ge hge
          exact ⟨.inr this, fun h => by linarith⟩

/-- Two sensors that rarely report, each a bit more often when there is a fault. -/
def rare : Net ℚ where
  name := "rare"
  info := ""
  «variables» := [⟨"Fault", .chance, ["yes", "no"], (0, 0), "", some 0⟩, ⟨"A", .chance, ["on", "off"], (0, 0), "", some 1⟩,
    ⟨"B", .chance, ["on", "off"], (0, 0), "", some 2⟩]
  factors := [⟨"Fault", [], some [1/2, 1/2], [], 2⟩, ⟨"A", ["Fault"], some [1/2^600, 1, 1/2^601, 1], [2], 2⟩,
    ⟨"B", ["Fault"], some [1/2^600, 1, 1/2^601, 1], [2], 2⟩]
  policies := []
  vs := none
  names := []
  totalUtility := none

theorem rare_new : newNet "rare" "" [nv "Fault" .chance ["yes", "no"], nv "A" .chance ["on", "off"],
    nv "B" .chance ["on", "off"]] [nf "Fault" [] [1/2, 1/2], nf "A" ["Fault"] [1/2^600, 1, 1/2^601, 1],
    nf "B" ["Fault"] [1/2^600, 1, 1/2^601, 1]] = .ok rare := rfl

theorem rare_valid : rare.Valid where
  names := by decide
  named := by decide
  few := by decide
  outcomes := by decide
  tables := by decide
  hasTable := by decide
  known := by decide
  dims := by decide
  parents := by decide
  size := by
    have key : ∀ f ∈ rare.factors, f.table = some f.tab ∧ f.tab.length = (f.dims.map rare.count).prod := by
      decide +kernel
    exact fun f hf _ _ => ⟨f.tab, key f hf⟩
  single := by decide
  weights := by intro i h; cases h

/-- Both sensors report. -/
def alarms : List (String × String) := [("A", "on"), ("B", "on")]

/-- What `SolveQuery` says about the fault. -/
def rareAnswer (sch : NSched F64) : Option (List (String × List F64)) :=
  match ((rare.mapNum F64.num).solveQuery sch alarms ["Fault"] false).1 with
  | .ok r => some r.1
  | .error _ => none

end Ex

/-- **C121, refuted as stated.** The evidence is possible and makes the fault four times as likely as no fault, but the
answer is NaN for both: the products of the small probabilities are zero in `float64`. -/
theorem C121_refuted : Ex.rare.mass [] (Ex.rare.Agrees Ex.alarms) ≠ 0 ∧
    79 / 100 < Ex.rare.mass [] (fun w => Ex.rare.Agrees Ex.alarms w ∧ w "Fault" = 0) /
      Ex.rare.mass [] (Ex.rare.Agrees Ex.alarms) ∧
    Ex.rareAnswer (Ex.norder false) = some [("Fault", [.nan, .nan])] := by
  refine ⟨by decide +kernel, by decide +kernel, by decide +kernel⟩

/-- A network that is well within range: the answers for all iteration orders are exact to more than 13 digits. -/
example (sch : NSched Ex.F64) : ∃ r f n', (Ex.flu.mapNum Ex.F64.num).solveQuery sch Ex.ill ["Flu"] false =
      (.ok (r, f), n') ∧ ∃ d x, ("Flu", d) ∈ r ∧ d[0]? = some x ∧ |x.val - 9 / 10| ≤ 1 / 10 ^ 13 := by
  have e : (Ex.flu.mapNum Ex.F64.num).mapNum Ex.F64.val = Ex.flu := (Net.mapNum_mapNum _ _ _).trans Ex.flu.mapNum_id
  have hpos : ∀ f ∈ Ex.flu.factors, ∀ x ∈ f.tab, 0 ≤ x ∧ (1 / 2) ^ 4 ≤ x ∧ x ≤ 2 ^ 4 := by decide +kernel
  have hmem : ∀ f ∈ (Ex.flu.mapNum Ex.F64.num).factors, ∀ x ∈ f.tab, 0 ≤ x.val ∧ (1 / 2) ^ 4 ≤ x.val ∧ x.val ≤ 2 ^ 4 := by
    intro f hf x hx
    obtain ⟨g, hg, rfl⟩ := List.mem_map.1 hf
    rw [NFactor.tab_mapNum] at hx
    obtain ⟨y, hy, rfl⟩ := List.mem_map.1 hx
    exact hpos g hg y hy
  obtain ⟨r, f, n', h1, _, _, h4⟩ := C121_bayesian_partial Ex.f64_ranged (B := 1000) (by norm_num) (by norm_num) sch
    (n := Ex.flu.mapNum Ex.F64.num) (bits := fun _ => 4)
    ⟨fun f hf x hx _ => (hmem f hf x hx).2, by simp [Net.mapNum, Ex.flu]⟩
    (by rw [e]; exact Ex.flu_valid) (by decide) rfl (fun f hf x hx => (hmem f hf x hx).1) (evidence := Ex.ill)
    ⟨by decide, by decide⟩ (query := ["Flu"]) (by decide) (by decide) (by decide) (by rw [e]; decide +kernel)
    (E := 103) (by decide) (by norm_num) (by norm_num) (by intros; norm_num)
  obtain ⟨d, d1, _, d3⟩ := h4 "Flu" (by simp)
  obtain ⟨x, p, x1, x2, _, x3⟩ := d3 0 (by decide)
  refine ⟨r, f, n', h1, d, x, d1, x1, ?_⟩
  rw [e] at x2
  have hp : p = 9 / 10 := by rw [x2]; decide +kernel
  rw [hp] at x3
  refine x3.trans ?_
  norm_num

end Bbn
