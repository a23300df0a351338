import Verif.Lemmas.RoundingNet

/-!
# Rounded numbers of a limited range

As long as the number of roundings is at most a bound `B`, every exact number of a query is zero or between `2⁻ᵏ` and `2ᵏ`,
where `k` is the number of its roundings. The numbers with rounding are then in the range where the error is small.
-/

set_option autoImplicit false
set_option linter.unusedSectionVars false

namespace Bbn

variable {β K : Type} [Zero β] [One β] [Add β] [Mul β] [Div β] [Field K] [LinearOrder K] [IsStrictOrderedRing K]
  {val : β → K} {u lo hi : K}

/-- At most `2ᵏ`, and zero or at least `2⁻ᵏ`. -/
def Mid (k : Nat) (y : K) : Prop := y = 0 ∨ (1 / 2) ^ k ≤ y ∧ y ≤ 2 ^ k

/-- Close to the exact number, which is neither too small nor too large, if there are at most `B` roundings. -/
def NearMid (val : β → K) (u : K) (B k : Nat) (x : β × K) : Prop :=
  k ≤ B → 0 ≤ x.2 → Within u k (val x.1) x.2 ∧ Mid k x.2

theorem half_pow_pos (k : Nat) : (0 : K) < (1 / 2) ^ k := pow_pos (by norm_num) k

theorem two_pow_half (k : Nat) : (2 : K) ^ k * (1 / 2) ^ k = 1 := by rw [← mul_pow]; norm_num

theorem Mid.mono {k l : Nat} {y : K} (h : Mid k y) (hkl : k ≤ l) : Mid l y := by
  rcases h with h | ⟨h1, h2⟩
  · exact .inl h
  · exact .inr ⟨(pow_le_pow_of_le_one (by norm_num) (by norm_num) hkl).trans h1,
      h2.trans (pow_le_pow_right₀ (by norm_num) hkl)⟩

theorem Mid.nonneg {k : Nat} {y : K} (h : Mid k y) : 0 ≤ y := by
  rcases h with h | ⟨h1, _⟩
  · exact h.ge
  · exact (half_pow_pos k).le.trans h1

theorem Mid.pos {k : Nat} {y : K} (h : Mid k y) (h0 : y ≠ 0) : (1 / 2) ^ k ≤ y ∧ y ≤ 2 ^ k := h.resolve_left h0

theorem Mid.add {k : Nat} {x y : K} (hx : Mid k x) (hy : Mid k y) : Mid (k + 1) (x + y) := by
  have ux : x ≤ 2 ^ k := by
    rcases hx with h | h
    · rw [h]; exact (pow_pos (by norm_num) k).le
    · exact h.2
  have uy : y ≤ 2 ^ k := by
    rcases hy with h | h
    · rw [h]; exact (pow_pos (by norm_num) k).le
    · exact h.2
  by_cases h0 : x = 0
  · rw [h0, zero_add]; exact hy.mono (by omega)
  · refine .inr ⟨?_, by rw [pow_succ]; linarith⟩
    have := (hx.pos h0).1
    have h1 : ((1 : K) / 2) ^ (k + 1) ≤ (1 / 2) ^ k := pow_le_pow_of_le_one (by norm_num) (by norm_num) (by omega)
    have := hy.nonneg
    linarith

theorem Mid.mul {k l : Nat} {x y : K} (hx : Mid k x) (hy : Mid l y) : Mid (k + l) (x * y) := by
  by_cases h0 : x = 0
  · exact .inl (by rw [h0, zero_mul])
  by_cases h1 : y = 0
  · exact .inl (by rw [h1, mul_zero])
  obtain ⟨a1, a2⟩ := hx.pos h0
  obtain ⟨b1, b2⟩ := hy.pos h1
  refine .inr ⟨?_, ?_⟩
  · rw [pow_add]; exact mul_le_mul a1 b1 (half_pow_pos l).le hx.nonneg
  · rw [pow_add]; exact mul_le_mul a2 b2 hy.nonneg (pow_pos (by norm_num) k).le

theorem Mid.inv {k : Nat} {x : K} (hx : Mid k x) : Mid k x⁻¹ := by
  by_cases h0 : x = 0
  · exact .inl (by rw [h0, inv_zero])
  obtain ⟨a1, a2⟩ := hx.pos h0
  have hp : 0 < x := (half_pow_pos k).trans_le a1
  refine .inr ⟨?_, ?_⟩
  · rw [one_div, inv_pow]; exact inv_anti₀ hp a2
  · have := inv_anti₀ (half_pow_pos k) a1
    rwa [one_div, inv_pow, inv_inv] at this

/-- A rounded number that stands for a number in the middle is in range. -/
theorem Mid.rounded {k : Nat} {x y : K} (h1 : u < 1) (hw : Within u k x y) (hm : Mid k y) :
    x = 0 ∨ ((1 - u) / 2) ^ k ≤ x ∧ x * ((1 - u) / 2) ^ k ≤ 1 := by
  by_cases h0 : y = 0
  · exact .inl ((hw.zero_iff h1 hm.nonneg).2 h0)
  obtain ⟨a1, a2⟩ := hm.pos h0
  have hp := (pow_pos' h1 k).le
  have e : ((1 - u) / 2) ^ k = (1 - u) ^ k * (1 / 2) ^ k := by rw [← mul_pow]; congr 1; ring
  refine .inr ⟨?_, ?_⟩
  · rw [e, mul_comm]
    exact (mul_le_mul_of_nonneg_right a1 hp).trans hw.1
  · rw [e, ← mul_assoc]
    calc x * (1 - u) ^ k * (1 / 2) ^ k ≤ y * (1 / 2) ^ k := mul_le_mul_of_nonneg_right hw.2 (half_pow_pos k).le
      _ ≤ 2 ^ k * (1 / 2) ^ k := mul_le_mul_of_nonneg_right a2 (half_pow_pos k).le
      _ = 1 := two_pow_half k

variable {B : Nat}

theorem inRange_of (h0 : 0 ≤ u) (h1 : u < 1) (hlo : lo ≤ ((1 - u) / 2) ^ B) (hhi : 1 ≤ hi * ((1 - u) / 2) ^ B) {m : Nat}
    (hm : m ≤ B) {s : K} (hs : ((1 - u) / 2) ^ m ≤ s) (hs' : s * ((1 - u) / 2) ^ m ≤ 1) : InSpan lo hi s := by
  have t0 : 0 < (1 - u) / 2 := by linarith
  have t1 : (1 - u) / 2 ≤ 1 := by linarith
  have hp := pow_le_pow_of_le_one t0.le t1 hm
  have hs0 : 0 ≤ s := (pow_pos t0 m).le.trans hs
  refine .inr ⟨hlo.trans (hp.trans hs), ?_⟩
  have h3 : s * ((1 - u) / 2) ^ B ≤ hi * ((1 - u) / 2) ^ B :=
    ((mul_le_mul_of_nonneg_left hp hs0).trans hs').trans hhi
  exact le_of_mul_le_mul_right h3 (pow_pos t0 B)

theorem span_of (h0 : 0 ≤ u) (h1 : u < 1) (hlo : lo ≤ ((1 - u) / 2) ^ B) (hhi : 1 ≤ hi * ((1 - u) / 2) ^ B) {m : Nat}
    (hm : m ≤ B) {s : K} (hs : s = 0 ∨ ((1 - u) / 2) ^ m ≤ s ∧ s * ((1 - u) / 2) ^ m ≤ 1) : InSpan lo hi s := by
  rcases hs with hs | ⟨hs, hs'⟩
  · exact .inl hs
  · exact inRange_of h0 h1 hlo hhi hm hs hs'

/-- The numbers that can be divided by: zero or at least `lo`, and zero if and only if the exact number is. -/
def RangeDivisor (val : β → K) (lo : K) (x : β × K) : Prop :=
  0 ≤ x.2 ∧ (val x.1 = 0 ∨ lo ≤ val x.1) ∧ (val x.1 = 0 ↔ x.2 = 0)

theorem NearMid.rounded (h1 : u < 1) {k : Nat} {x : β × K} (hx : NearMid val u B k x) (hk : k ≤ B) (h2 : 0 ≤ x.2) :
    0 ≤ val x.1 ∧ (val x.1 = 0 ∨ ((1 - u) / 2) ^ k ≤ val x.1 ∧ val x.1 * ((1 - u) / 2) ^ k ≤ 1) :=
  ⟨(hx hk h2).1.pos h1 h2, (hx hk h2).2.rounded h1 (hx hk h2).1⟩

theorem NearMid.mono (h0 : 0 ≤ u) (h1 : u < 1) {k l : Nat} {x : β × K} (hx : NearMid val u B k x) (hkl : k ≤ l) :
    NearMid val u B l x := fun hl h2 =>
  ⟨(hx (hkl.trans hl) h2).1.mono h0 h1 ((hx (hkl.trans hl) h2).1.pos h1 h2) h2 hkl, (hx (hkl.trans hl) h2).2.mono hkl⟩

/-- The way to count roundings for numbers of a limited range. -/
def RangedRounding.grading (h : RangedRounding val u lo hi) (hlo : lo ≤ ((1 - u) / 2) ^ B)
    (hhi : 1 ≤ hi * ((1 - u) / 2) ^ B) : Grading β K where
  N := NearMid val u B
  D := RangeDivisor val lo
  mono hx hkl := hx.mono h.nonneg h.lt_one hkl
  zero k _ _ := by
    refine ⟨?_, .inl rfl⟩
    show Within u k (val 0) 0
    rw [h.zero]
    constructor <;> simp
  one _ _ := by
    refine ⟨?_, .inr ⟨by simp, by simp⟩⟩
    show Within u 0 (val 1) 1
    rw [h.one]
    exact Within.refl u 1
  add {k l a b} ha hb a2 b2 hB _ := by
    have t0 : 0 < (1 - u) / 2 := by have := h.lt_one; linarith
    have ha' := ha.mono h.nonneg h.lt_one (le_max_left k l)
    have hb' := hb.mono h.nonneg h.lt_one (le_max_right k l)
    obtain ⟨pa, ra⟩ := ha'.rounded h.lt_one (by omega) a2
    obtain ⟨pb, rb⟩ := hb'.rounded h.lt_one (by omega) b2
    have hr : InSpan lo hi (val a.1 + val b.1) := by
      by_cases ea : val a.1 = 0
      · by_cases eb : val b.1 = 0
        · exact .inl (by rw [ea, eb, add_zero])
        · obtain ⟨c1, c2⟩ := rb.resolve_left eb
          rw [ea, zero_add]
          exact inRange_of h.nonneg h.lt_one hlo hhi (by omega) c1 c2
      · obtain ⟨d1, d2⟩ := ra.resolve_left ea
        have e2 : val b.1 * ((1 - u) / 2) ^ max k l ≤ 1 := by
          rcases rb with e | e
          · rw [e, zero_mul]; exact zero_le_one
          · exact e.2
        refine inRange_of h.nonneg h.lt_one hlo hhi (m := max k l + 1) hB ?_ ?_
        · have : ((1 - u) / 2) ^ (max k l + 1) ≤ ((1 - u) / 2) ^ max k l :=
            pow_le_pow_of_le_one t0.le (by have := h.nonneg; linarith) (by omega)
          linarith
        · rw [pow_succ, ← mul_assoc, add_mul]
          have h3 : val a.1 * ((1 - u) / 2) ^ max k l + val b.1 * ((1 - u) / 2) ^ max k l ≤ 2 := by linarith
          calc _ ≤ 2 * ((1 - u) / 2) := mul_le_mul_of_nonneg_right h3 t0.le
            _ ≤ 1 := by have := h.nonneg; linarith
    obtain ⟨d, hd, e⟩ := h.add a.1 b.1 (span_of h.nonneg h.lt_one hlo hhi (by omega) ra) (span_of h.nonneg h.lt_one hlo hhi (by omega) rb) hr
    obtain ⟨wa, ma⟩ := ha' (by omega) a2
    obtain ⟨wb, mb⟩ := hb' (by omega) b2
    refine ⟨?_, ma.add mb⟩
    show Within u _ (val (a.1 + b.1)) (a.2 + b.2)
    rw [e]
    exact Within.round h.nonneg h.lt_one (wa.add wb) (add_nonneg pa pb) hd
  mul {k l a b} ha hb a2 b2 hB _ := by
    have t0 : 0 < (1 - u) / 2 := by have := h.lt_one; linarith
    obtain ⟨pa, ra⟩ := ha.rounded h.lt_one (by omega) a2
    obtain ⟨pb, rb⟩ := hb.rounded h.lt_one (by omega) b2
    have hr : InSpan lo hi (val a.1 * val b.1) := by
      by_cases ea : val a.1 = 0
      · exact .inl (by rw [ea, zero_mul])
      by_cases eb : val b.1 = 0
      · exact .inl (by rw [eb, mul_zero])
      obtain ⟨c1, c2⟩ := ra.resolve_left ea
      obtain ⟨d1, d2⟩ := rb.resolve_left eb
      refine inRange_of h.nonneg h.lt_one hlo hhi (m := k + l) (by omega) ?_ ?_
      · rw [pow_add]; exact mul_le_mul c1 d1 (pow_pos t0 l).le pa
      · rw [pow_add, mul_mul_mul_comm]
        exact mul_le_one₀ c2 (mul_nonneg pb (pow_pos t0 l).le) d2
    obtain ⟨d, hd, e⟩ := h.mul a.1 b.1 (span_of h.nonneg h.lt_one hlo hhi (by omega) ra) (span_of h.nonneg h.lt_one hlo hhi (by omega) rb) hr
    obtain ⟨wa, ma⟩ := ha (by omega) a2
    obtain ⟨wb, mb⟩ := hb (by omega) b2
    refine ⟨?_, (ma.mul mb).mono (by omega)⟩
    show Within u _ (val (a.1 * b.1)) (a.2 * b.2)
    rw [e]
    exact Within.round h.nonneg h.lt_one (wa.mul h.lt_one wb pa a2 pb b2) (mul_nonneg pa pb) hd
  div {k l a b} ha hb a2 b2 hB _ := by
    have t0 : 0 < (1 - u) / 2 := by have := h.lt_one; linarith
    obtain ⟨pa, ra⟩ := ha.rounded h.lt_one (by omega) a2
    obtain ⟨pb, rb⟩ := hb.rounded h.lt_one (by omega) b2.le
    obtain ⟨wa, ma⟩ := ha (by omega) a2
    obtain ⟨wb, mb⟩ := hb (by omega) b2.le
    have eb : val b.1 ≠ 0 := fun e => b2.ne' ((wb.zero_iff h.lt_one b2.le).1 e)
    have hb0 : 0 < val b.1 := lt_of_le_of_ne pb (Ne.symm eb)
    obtain ⟨d1, d2⟩ := rb.resolve_left eb
    have hr : InSpan lo hi (val a.1 / val b.1) := by
      by_cases ea : val a.1 = 0
      · exact .inl (by rw [ea, zero_div])
      obtain ⟨c1, c2⟩ := ra.resolve_left ea
      refine inRange_of h.nonneg h.lt_one hlo hhi (m := k + l) (by omega) ?_ ?_
      · rw [le_div_iff₀ hb0, pow_add, mul_assoc]
        calc _ ≤ ((1 - u) / 2) ^ k * 1 :=
              mul_le_mul_of_nonneg_left (by rw [mul_comm]; exact d2) (pow_pos t0 k).le
          _ = ((1 - u) / 2) ^ k := mul_one _
          _ ≤ _ := c1
      · rw [pow_add, div_mul_eq_mul_div, div_le_one hb0, ← mul_assoc]
        calc _ ≤ 1 * ((1 - u) / 2) ^ l := mul_le_mul_of_nonneg_right c2 (pow_pos t0 l).le
          _ = ((1 - u) / 2) ^ l := one_mul _
          _ ≤ _ := d1
    obtain ⟨d, hd, e⟩ := h.div a.1 b.1 (span_of h.nonneg h.lt_one hlo hhi (by omega) ra)
      (span_of h.nonneg h.lt_one hlo hhi (by omega) rb) eb hr
    refine ⟨?_, ?_⟩
    · show Within u _ (val (a.1 / b.1)) (a.2 / b.2)
      rw [e]
      refine Within.round h.nonneg h.lt_one ?_ (div_nonneg pa hb0.le) hd
      rw [div_eq_mul_inv, div_eq_mul_inv]
      exact wa.mul h.lt_one (wb.inv hb0 b2) pa a2 (inv_nonneg.2 hb0.le) (inv_nonneg.2 b2.le)
    · show Mid _ (a.2 / b.2)
      rw [div_eq_mul_inv]
      exact (ma.mul mb.inv).mono (by omega)
  dzero := ⟨le_rfl, .inl h.zero, by simp [h.zero]⟩
  dadd {a b} ha hb := by
    obtain ⟨a1, a2, a3⟩ := ha
    obtain ⟨b1, b2, b3⟩ := hb
    obtain ⟨c1, c2⟩ := h.sums a.1 b.1 a2 b2
    refine ⟨add_nonneg a1 b1, c1, ?_⟩
    show val (a.1 + b.1) = 0 ↔ a.2 + b.2 = 0
    constructor
    · intro e
      obtain ⟨e1, e2⟩ := c2 e
      rw [a3.1 e1, b3.1 e2, add_zero]
    · intro e
      obtain ⟨e1, e2⟩ := (add_eq_zero_iff_of_nonneg a1 b1).1 e
      have f1 := a3.2 e1
      have f2 := b3.2 e2
      obtain ⟨d, _, e⟩ := h.add a.1 b.1 (.inl f1) (.inl f2) (.inl (by rw [f1, f2, add_zero]))
      rw [e, f1, f2]
      simp
  dfst {x} hx := by
    rw [← hx.2.2]
    exact ⟨fun e => by rw [e, h.zero], h.eq_zero _⟩
  dpos hx := hx.1

theorem nearMid_exact (h0 : 0 ≤ u) (h1 : u < 1) {k : Nat} {x : β} (hx : 0 < val x → (1 / 2) ^ k ≤ val x ∧ val x ≤ 2 ^ k) :
    NearMid val u B k (x, val x) := by
  intro _ h2
  refine ⟨(Within.refl u (val x)).mono h0 h1 h2 h2 (Nat.zero_le k), ?_⟩
  rcases eq_or_lt_of_le h2 with e | e
  · exact .inl e.symm
  · exact .inr (hx e)

end Bbn
