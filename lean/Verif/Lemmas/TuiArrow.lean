import Mathlib.Tactic.Ring
import Verif.Spec.Arrow

/-!
# Edges are arrows
-/

set_option autoImplicit false

namespace Bbn

theorem covers_iff {b : Bounds} {y x : Int} :
    b.Covers (y, x) ↔ b.x ≤ x ∧ x < b.x + b.w ∧ b.y ≤ y ∧ y < b.y + b.h := Iff.rfl

theorem mid_between {a b : Int} (h : a < b) : a ≤ (a + b) / 2 ∧ (a + b) / 2 < b := by omega

/-- A straight line of `n + 1` places with step `d`. -/
theorem straight_arrow {b c : Bounds} {E : Int → Int → Option Char} (n : Nat) (y0 x0 dy dx : Int) (r a : Char)
    (hlast : E (y0 + dy * n) (x0 + dx * n) = some a) (hmid : ∀ k : Nat, k < n → E (y0 + dy * k) (x0 + dx * k) = some r)
    (hE : ∀ y x, E y x ≠ none → ∃ k : Nat, k ≤ n ∧ y = y0 + dy * k ∧ x = x0 + dx * k)
    (h1 : (-dy, -dx) ∈ openings r) (h2 : (dy, dx) ∈ openings r) (h3 : (-dy, -dx) ∈ openings a)
    (h4 : pointsTo a = some (dy, dx)) (h5 : pointsTo r = none) (hb : b.Covers (y0 - dy, x0 - dx))
    (hc : c.Covers (y0 + dy * n + dy, x0 + dx * n + dx))
    (hout : ∀ k : Nat, k ≤ n → ¬ b.Covers (y0 + dy * k, x0 + dx * k) ∧ ¬ c.Covers (y0 + dy * k, x0 + dx * k)) :
    IsArrow b c E n (fun k => (y0 + dy * k, x0 + dx * k)) := by
  refine ⟨?_, ?_, ?_, ?_, ?_, hout⟩
  · intro y x
    constructor
    · intro h
      obtain ⟨k, hk, e1, e2⟩ := hE y x h
      exact ⟨k, hk, by rw [e1, e2]⟩
    · rintro ⟨k, hk, e⟩
      obtain ⟨e1, e2⟩ := Prod.mk.inj e
      rw [← e1, ← e2]
      rcases Nat.lt_or_ge k n with h | h
      · rw [hmid k h]; simp
      · have : k = n := by omega
        rw [this, hlast]; simp
  · rcases Nat.eq_zero_or_pos n with h | h
    · subst h
      refine ⟨a, (-dy, -dx), hlast, h3, ?_⟩
      show b.Covers (y0 + dy * ((0 : Nat) : Int) + -dy, x0 + dx * ((0 : Nat) : Int) + -dx)
      simpa [sub_eq_add_neg] using hb
    · refine ⟨r, (-dy, -dx), hmid 0 h, h1, ?_⟩
      show b.Covers (y0 + dy * ((0 : Nat) : Int) + -dy, x0 + dx * ((0 : Nat) : Int) + -dx)
      simpa [sub_eq_add_neg] using hb
  · intro k hk
    have e : ∀ z d : Int, z + d * ((k + 1 : Nat) : Int) = z + d * k + d := by intro z d; push_cast; ring
    rcases Nat.lt_or_ge (k + 1) n with h | h
    · refine ⟨r, r, (dy, dx), hmid k hk, hmid (k + 1) h, ?_, h2, h1⟩
      simp only [e]; rfl
    · have : k + 1 = n := by omega
      refine ⟨r, a, (dy, dx), hmid k hk, by rw [this]; exact hlast, ?_, h2, h3⟩
      simp only [e]; rfl
  · exact ⟨a, (dy, dx), hlast, h4, hc⟩
  · intro k hk
    exact ⟨r, hmid k hk, h5⟩

/-- The places of a line along a row and then along a column. -/
def cornerPath (K : Nat) (ys xa dy dx : Int) (k : Nat) : Int × Int :=
  if k ≤ K then (ys, xa + dx * k) else (ys + dy * ((k : Int) - K), xa + dx * K)

theorem corner_arrow {b c : Bounds} {E : Int → Int → Option Char} (K M : Nat) (hM : 1 ≤ M) (ys xa dy dx : Int) (q a : Char)
    (hrow : ∀ k : Nat, k < K → E ys (xa + dx * k) = some '─') (hq : E ys (xa + dx * K) = some q)
    (hcol : ∀ j : Nat, 0 < j → j < M → E (ys + dy * j) (xa + dx * K) = some '│')
    (hlast : E (ys + dy * M) (xa + dx * K) = some a)
    (hE : ∀ y x, E y x ≠ none → (∃ k : Nat, k ≤ K ∧ y = ys ∧ x = xa + dx * k) ∨
      (∃ j : Nat, 0 < j ∧ j ≤ M ∧ y = ys + dy * j ∧ x = xa + dx * K))
    (hdx : dx = 1 ∨ dx = -1) (hdy : dy = 1 ∨ dy = -1) (h1 : (0, -dx) ∈ openings q) (h2 : (dy, 0) ∈ openings q)
    (h3 : pointsTo q = none) (h4 : (-dy, 0) ∈ openings a) (h5 : pointsTo a = some (dy, 0))
    (hb : b.Covers (ys, xa - dx)) (hc : c.Covers (ys + dy * M + dy, xa + dx * K))
    (hout1 : ∀ k : Nat, k ≤ K → ¬ b.Covers (ys, xa + dx * k) ∧ ¬ c.Covers (ys, xa + dx * k))
    (hout2 : ∀ j : Nat, 0 < j → j ≤ M → ¬ b.Covers (ys + dy * j, xa + dx * K) ∧ ¬ c.Covers (ys + dy * j, xa + dx * K)) :
    IsArrow b c E (K + M) (cornerPath K ys xa dy dx) := by
  have f1 : ∀ k : Nat, k ≤ K → cornerPath K ys xa dy dx k = (ys, xa + dx * k) := fun k hk => by
    unfold cornerPath; rw [if_pos hk]
  have f2 : ∀ j : Nat, 0 < j → cornerPath K ys xa dy dx (K + j) = (ys + dy * j, xa + dx * K) := fun j hj => by
    unfold cornerPath
    rw [if_neg (by omega)]
    congr 3
    push_cast
    ring
  have cases : ∀ k : Nat, k ≤ K + M → k < K ∨ k = K ∨ ∃ j, 0 < j ∧ j ≤ M ∧ k = K + j := by
    intro k hk
    rcases Nat.lt_trichotomy k K with h | h | h
    · exact .inl h
    · exact .inr (.inl h)
    · exact .inr (.inr ⟨k - K, by omega, by omega, by omega⟩)
  have o1 : (0, -dx) ∈ openings '─' := by rcases hdx with rfl | rfl <;> decide
  have o2 : (0, dx) ∈ openings '─' := by rcases hdx with rfl | rfl <;> decide
  have o3 : (dy, 0) ∈ openings '│' := by rcases hdy with rfl | rfl <;> decide
  have o4 : (-dy, 0) ∈ openings '│' := by rcases hdy with rfl | rfl <;> decide
  refine ⟨?_, ?_, ?_, ?_, ?_, ?_⟩
  · intro y x
    constructor
    · intro h
      rcases hE y x h with ⟨k, hk, e1, e2⟩ | ⟨j, h0, hj, e1, e2⟩
      · exact ⟨k, by omega, by rw [f1 k hk, e1, e2]⟩
      · exact ⟨K + j, by omega, by rw [f2 j h0, e1, e2]⟩
    · rintro ⟨k, hk, e⟩
      rcases cases k hk with h | h | ⟨j, h0, hj, h⟩
      · rw [f1 k (by omega)] at e
        obtain ⟨e1, e2⟩ := Prod.mk.inj e
        rw [← e1, ← e2, hrow k h]; simp
      · rw [f1 k (by omega)] at e
        obtain ⟨e1, e2⟩ := Prod.mk.inj e
        rw [← e1, ← e2, h, hq]; simp
      · rw [h, f2 j h0] at e
        obtain ⟨e1, e2⟩ := Prod.mk.inj e
        rw [← e1, ← e2]
        rcases Nat.lt_or_ge j M with h' | h'
        · rw [hcol j h0 h']; simp
        · have : j = M := by omega
          rw [this, hlast]; simp
  · have hcov : b.Covers (cornerPath K ys xa dy dx 0 + (0, -dx)) := by
      rw [f1 0 (by omega)]
      show b.Covers (ys + 0, xa + dx * ((0 : Nat) : Int) + -dx)
      simpa [sub_eq_add_neg] using hb
    rcases Nat.eq_zero_or_pos K with h | h
    · refine ⟨q, (0, -dx), ?_, h1, hcov⟩
      rw [f1 0 (by omega)]
      have := hq
      rw [h] at this
      exact this
    · refine ⟨'─', (0, -dx), ?_, o1, hcov⟩
      rw [f1 0 (by omega)]
      exact hrow 0 h
  · intro k hk
    rcases cases k (by omega) with h | h | ⟨j, h0, hj, h⟩
    · have e : cornerPath K ys xa dy dx (k + 1) = cornerPath K ys xa dy dx k + (0, dx) := by
        rw [f1 k (by omega), f1 (k + 1) (by omega)]
        show _ = (ys + 0, xa + dx * (k : Int) + dx)
        push_cast
        congr 1 <;> ring
      rcases Nat.lt_or_ge (k + 1) K with h' | h'
      · exact ⟨'─', '─', (0, dx), by rw [f1 k (by omega)]; exact hrow k h, by rw [f1 _ (by omega)]; exact hrow _ h', e, o2,
          by simpa using o1⟩
      · have hK : k + 1 = K := by omega
        exact ⟨'─', q, (0, dx), by rw [f1 k (by omega)]; exact hrow k h, by rw [f1 _ (by omega), hK]; exact hq, e, o2,
          by simpa using h1⟩
    · subst h
      have e : cornerPath k ys xa dy dx (k + 1) = cornerPath k ys xa dy dx k + (dy, 0) := by
        rw [f1 k (by omega), f2 1 (by omega)]
        show _ = (ys + dy, xa + dx * (k : Int) + 0)
        push_cast
        congr 1 <;> ring
      rcases Nat.lt_or_ge 1 M with h' | h'
      · exact ⟨q, '│', (dy, 0), by rw [f1 k (by omega)]; exact hq, by rw [f2 1 (by omega)]; exact hcol 1 (by omega) h', e, h2,
          by simpa using o4⟩
      · have hM1 : M = 1 := by omega
        exact ⟨q, a, (dy, 0), by rw [f1 k (by omega)]; exact hq, by rw [f2 1 (by omega), ← hM1]; exact hlast, e, h2,
          by simpa using h4⟩
    · subst h
      have e : cornerPath K ys xa dy dx (K + j + 1) = cornerPath K ys xa dy dx (K + j) + (dy, 0) := by
        rw [f2 j h0, show K + j + 1 = K + (j + 1) by omega, f2 (j + 1) (by omega)]
        show _ = (ys + dy * (j : Int) + dy, xa + dx * (K : Int) + 0)
        push_cast
        congr 1 <;> ring
      have hjM : j < M := by omega
      rcases Nat.lt_or_ge (j + 1) M with h' | h'
      · exact ⟨'│', '│', (dy, 0), by rw [f2 j h0]; exact hcol j h0 hjM,
          by rw [show K + j + 1 = K + (j + 1) by omega, f2 (j + 1) (by omega)]; exact hcol (j + 1) (by omega) h', e, o3,
          by simpa using o4⟩
      · have hM1 : j + 1 = M := by omega
        exact ⟨'│', a, (dy, 0), by rw [f2 j h0]; exact hcol j h0 hjM,
          by rw [show K + j + 1 = K + (j + 1) by omega, f2 (j + 1) (by omega), hM1]; exact hlast, e, o3, by simpa using h4⟩
  · refine ⟨a, (dy, 0), by rw [f2 M hM]; exact hlast, h5, ?_⟩
    rw [f2 M hM]
    show c.Covers (ys + dy * (M : Int) + dy, xa + dx * (K : Int) + 0)
    simpa using hc
  · intro k hk
    rcases cases k (by omega) with h | h | ⟨j, h0, hj, h⟩
    · exact ⟨'─', by rw [f1 k (by omega)]; exact hrow k h, rfl⟩
    · exact ⟨q, by rw [f1 k (by omega), h]; exact hq, h3⟩
    · exact ⟨'│', by rw [h, f2 j h0]; exact hcol j h0 (by omega), rfl⟩
  · intro k hk
    rcases cases k hk with h | h | ⟨j, h0, hj, h⟩
    · rw [f1 k (by omega)]; exact hout1 k (by omega)
    · rw [f1 k (by omega)]; exact hout1 k (by omega)
    · rw [h, f2 j h0]; exact hout2 j h0 hj

theorem ite_ne_none {P : Prop} [Decidable P] {a b : Option Char} (h : (if P then a else b) ≠ none) :
    P ∧ a ≠ none ∨ ¬ P ∧ b ≠ none := by
  by_cases hP : P
  · rw [if_pos hP] at h; exact .inl ⟨hP, h⟩
  · rw [if_neg hP] at h; exact .inr ⟨hP, h⟩

theorem down_arrow {b c : Bounds} (hs : ShareColumn b c) (hf : FreeRow b c) (bh : 1 ≤ b.h) (ch : 1 ≤ c.h) (bw : 1 ≤ b.w)
    (cw : 1 ≤ c.w) : ∃ n f, IsArrow b c (straightDown b c) n f := by
  obtain ⟨s1, s2⟩ := hs
  obtain ⟨m1, m2⟩ := mid_between (a := max b.x c.x) (b := min (b.x + b.w) (c.x + c.w)) (by omega)
  unfold straightDown
  generalize (max b.x c.x + min (b.x + b.w) (c.x + c.w)) / 2 = m at m1 m2 ⊢
  rcases hf with h | h
  · have hy : b.y < c.y := by omega
    simp only [if_pos hy]
    refine ⟨(c.y - 1 - (b.y + b.h)).toNat, _, straight_arrow _ (b.y + b.h) m 1 0 '│' 'v' ?_ ?_ ?_ (by decide) (by decide) (by decide)
      (by decide) (by decide) ?_ ?_ ?_⟩
    · rw [if_pos (by omega), if_pos (by omega)]
    · intro k hk
      rw [if_pos (by omega), if_neg (by omega), if_pos (by omega)]
    · intro y x hne
      rcases ite_ne_none hne with ⟨h1, hne⟩ | ⟨_, hne⟩
      · have : b.y + b.h ≤ y ∧ y ≤ c.y - 1 := by
          rcases ite_ne_none hne with ⟨h2, _⟩ | ⟨_, hne⟩
          · omega
          · rcases ite_ne_none hne with ⟨h2, _⟩ | ⟨_, hne⟩
            · omega
            · exact absurd rfl hne
        exact ⟨(y - (b.y + b.h)).toNat, by omega, by omega, by omega⟩
      · exact absurd rfl hne
    · rw [covers_iff]; omega
    · rw [covers_iff]; omega
    · intro k hk; rw [covers_iff, covers_iff]; omega
  · have hy : ¬ b.y < c.y := by omega
    simp only [if_neg hy]
    refine ⟨(b.y - 1 - (c.y + c.h)).toNat, _, straight_arrow _ (b.y - 1) m (-1) 0 '│' '^' ?_ ?_ ?_ (by decide) (by decide) (by decide)
      (by decide) (by decide) ?_ ?_ ?_⟩
    · rw [if_pos (by omega), if_pos (by omega)]
    · intro k hk
      rw [if_pos (by omega), if_neg (by omega), if_pos (by omega)]
    · intro y x hne
      rcases ite_ne_none hne with ⟨h1, hne⟩ | ⟨_, hne⟩
      · have : c.y + c.h ≤ y ∧ y ≤ b.y - 1 := by
          rcases ite_ne_none hne with ⟨h2, _⟩ | ⟨_, hne⟩
          · omega
          · rcases ite_ne_none hne with ⟨h2, _⟩ | ⟨_, hne⟩
            · omega
            · exact absurd rfl hne
        exact ⟨(b.y - 1 - y).toNat, by omega, by omega, by omega⟩
      · exact absurd rfl hne
    · rw [covers_iff]; omega
    · rw [covers_iff]; omega
    · intro k hk; rw [covers_iff, covers_iff]; omega

theorem across_arrow {b c : Bounds} (hs : ShareRow b c) (hf : FreeColumn b c) (bh : 1 ≤ b.h) (ch : 1 ≤ c.h) (bw : 1 ≤ b.w)
    (cw : 1 ≤ c.w) : ∃ n f, IsArrow b c (straightAcross b c) n f := by
  obtain ⟨s1, s2⟩ := hs
  obtain ⟨m1, m2⟩ := mid_between (a := max b.y c.y) (b := min (b.y + b.h) (c.y + c.h)) (by omega)
  unfold straightAcross
  generalize (max b.y c.y + min (b.y + b.h) (c.y + c.h)) / 2 = m at m1 m2 ⊢
  rcases hf with h | h
  · have hx : b.x < c.x := by omega
    simp only [if_pos hx]
    refine ⟨(c.x - 1 - (b.x + b.w)).toNat, _, straight_arrow _ m (b.x + b.w) 0 1 '─' '>' ?_ ?_ ?_ (by decide) (by decide) (by decide)
      (by decide) (by decide) ?_ ?_ ?_⟩
    · rw [if_pos (by omega), if_pos (by omega)]
    · intro k hk
      rw [if_pos (by omega), if_neg (by omega), if_pos (by omega)]
    · intro y x hne
      rcases ite_ne_none hne with ⟨h1, hne⟩ | ⟨_, hne⟩
      · have : b.x + b.w ≤ x ∧ x ≤ c.x - 1 := by
          rcases ite_ne_none hne with ⟨h2, _⟩ | ⟨_, hne⟩
          · omega
          · rcases ite_ne_none hne with ⟨h2, _⟩ | ⟨_, hne⟩
            · omega
            · exact absurd rfl hne
        exact ⟨(x - (b.x + b.w)).toNat, by omega, by omega, by omega⟩
      · exact absurd rfl hne
    · rw [covers_iff]; omega
    · rw [covers_iff]; omega
    · intro k hk; rw [covers_iff, covers_iff]; omega
  · have hx : ¬ b.x < c.x := by omega
    simp only [if_neg hx]
    refine ⟨(b.x - 1 - (c.x + c.w)).toNat, _, straight_arrow _ m (b.x - 1) 0 (-1) '─' '<' ?_ ?_ ?_ (by decide) (by decide) (by decide)
      (by decide) (by decide) ?_ ?_ ?_⟩
    · rw [if_pos (by omega), if_pos (by omega)]
    · intro k hk
      rw [if_pos (by omega), if_neg (by omega), if_pos (by omega)]
    · intro y x hne
      rcases ite_ne_none hne with ⟨h1, hne⟩ | ⟨_, hne⟩
      · have : c.x + c.w ≤ x ∧ x ≤ b.x - 1 := by
          rcases ite_ne_none hne with ⟨h2, _⟩ | ⟨_, hne⟩
          · omega
          · rcases ite_ne_none hne with ⟨h2, _⟩ | ⟨_, hne⟩
            · omega
            · exact absurd rfl hne
        exact ⟨(b.x - 1 - x).toNat, by omega, by omega, by omega⟩
      · exact absurd rfl hne
    · rw [covers_iff]; omega
    · rw [covers_iff]; omega
    · intro k hk; rw [covers_iff, covers_iff]; omega


theorem corner_right_down {b c : Bounds} (hx : b.x + b.w ≤ c.x)
    (hy : b.y + b.h < c.y) (bh : 1 ≤ b.h) (ch : 1 ≤ c.h) (bw : 1 ≤ b.w) (cw : 1 ≤ c.w) :
    ∃ n f, IsArrow b c (cornerEdge b c) n f := by
  have h1 : b.x < c.x := by omega
  have h2 : b.y < c.y := by omega
  have e : ∀ y x, cornerEdge b c y x = if y = c.y - 1 ∧ x = c.x then some 'v'
      else if y = b.y + b.h - 1 ∧ x = c.x then some '┐'
      else if y = b.y + b.h - 1 then (if b.x + b.w ≤ x ∧ x < c.x ∨ c.x < x ∧ x < b.x then some '─' else none)
      else if x = c.x then (if b.y + b.h - 1 < y ∧ y < c.y ∨ c.y + c.h < y ∧ y < b.y + b.h - 1 then some '│' else none)
      else none := by
    intro y x
    simp only [cornerEdge, h1, h2, if_true, if_false, true_and, false_and, not_true]
  generalize hE : cornerEdge b c = E at e
  have hK : b.x + b.w + 1 * (((c.x - (b.x + b.w)).toNat : Nat) : Int) = c.x := by omega
  refine ⟨_, _, corner_arrow (c.x - (b.x + b.w)).toNat (c.y - (b.y + b.h)).toNat (by omega) (b.y + b.h - 1) (b.x + b.w) 1 1 '┐' 'v' ?_ ?_ ?_ ?_ ?_
    (by decide) (by decide) (by decide) (by decide) (by decide) (by decide) (by decide) ?_ ?_ ?_ ?_⟩
  · intro k hk
    rw [e, if_neg (by omega), if_neg (by omega), if_pos rfl, if_pos (by omega)]
  · rw [e, hK, if_neg (by omega), if_pos ⟨rfl, rfl⟩]
  · intro j h0 hj
    rw [e, hK, if_neg (by omega), if_neg (by omega), if_neg (by omega), if_pos rfl, if_pos (by omega)]
  · rw [e, hK, if_pos ⟨by omega, rfl⟩]
  · intro y x hne
    rw [e] at hne
    rw [hK]
    rcases ite_ne_none hne with ⟨⟨r1, r2⟩, _⟩ | ⟨_, hne⟩
    · exact .inr ⟨(c.y - (b.y + b.h)).toNat, by omega, by omega, by omega, r2⟩
    rcases ite_ne_none hne with ⟨⟨r1, r2⟩, _⟩ | ⟨_, hne⟩
    · exact .inl ⟨(c.x - (b.x + b.w)).toNat, by omega, r1, by omega⟩
    rcases ite_ne_none hne with ⟨r1, hne⟩ | ⟨_, hne⟩
    · rcases ite_ne_none hne with ⟨r2, _⟩ | ⟨_, hne⟩
      · exact .inl ⟨(x - (b.x + b.w)).toNat, by omega, r1, by omega⟩
      · exact absurd rfl hne
    rcases ite_ne_none hne with ⟨r1, hne⟩ | ⟨_, hne⟩
    · rcases ite_ne_none hne with ⟨r2, _⟩ | ⟨_, hne⟩
      · exact .inr ⟨(y - (b.y + b.h - 1)).toNat, by omega, by omega, by omega, r1⟩
      · exact absurd rfl hne
    · exact absurd rfl hne
  · rw [covers_iff]; omega
  · rw [covers_iff, hK]; omega
  · intro k hk; rw [covers_iff, covers_iff]; omega
  · intro j h0 hj; rw [covers_iff, covers_iff, hK]; omega

theorem corner_right_up {b c : Bounds} (hx : b.x + b.w ≤ c.x)
    (hy : c.y + c.h < b.y) (bh : 1 ≤ b.h) (ch : 1 ≤ c.h) (bw : 1 ≤ b.w) (cw : 1 ≤ c.w) :
    ∃ n f, IsArrow b c (cornerEdge b c) n f := by
  have h1 : b.x < c.x := by omega
  have h2 : ¬ b.y < c.y := by omega
  have e : ∀ y x, cornerEdge b c y x = if y = c.y + c.h ∧ x = c.x then some '^'
      else if y = b.y ∧ x = c.x then some '┘'
      else if y = b.y then (if b.x + b.w ≤ x ∧ x < c.x ∨ c.x < x ∧ x < b.x then some '─' else none)
      else if x = c.x then (if b.y < y ∧ y < c.y ∨ c.y + c.h < y ∧ y < b.y then some '│' else none)
      else none := by
    intro y x
    simp only [cornerEdge, h1, h2, if_true, if_false, true_and, false_and, not_false_eq_true]
  generalize hE : cornerEdge b c = E at e
  have hK : b.x + b.w + 1 * (((c.x - (b.x + b.w)).toNat : Nat) : Int) = c.x := by omega
  refine ⟨_, _, corner_arrow (c.x - (b.x + b.w)).toNat (b.y - (c.y + c.h)).toNat (by omega) (b.y) (b.x + b.w) (-1) 1 '┘' '^' ?_ ?_ ?_ ?_ ?_
    (by decide) (by decide) (by decide) (by decide) (by decide) (by decide) (by decide) ?_ ?_ ?_ ?_⟩
  · intro k hk
    rw [e, if_neg (by omega), if_neg (by omega), if_pos rfl, if_pos (by omega)]
  · rw [e, hK, if_neg (by omega), if_pos ⟨rfl, rfl⟩]
  · intro j h0 hj
    rw [e, hK, if_neg (by omega), if_neg (by omega), if_neg (by omega), if_pos rfl, if_pos (by omega)]
  · rw [e, hK, if_pos ⟨by omega, rfl⟩]
  · intro y x hne
    rw [e] at hne
    rw [hK]
    rcases ite_ne_none hne with ⟨⟨r1, r2⟩, _⟩ | ⟨_, hne⟩
    · exact .inr ⟨(b.y - (c.y + c.h)).toNat, by omega, by omega, by omega, r2⟩
    rcases ite_ne_none hne with ⟨⟨r1, r2⟩, _⟩ | ⟨_, hne⟩
    · exact .inl ⟨(c.x - (b.x + b.w)).toNat, by omega, r1, by omega⟩
    rcases ite_ne_none hne with ⟨r1, hne⟩ | ⟨_, hne⟩
    · rcases ite_ne_none hne with ⟨r2, _⟩ | ⟨_, hne⟩
      · exact .inl ⟨(x - (b.x + b.w)).toNat, by omega, r1, by omega⟩
      · exact absurd rfl hne
    rcases ite_ne_none hne with ⟨r1, hne⟩ | ⟨_, hne⟩
    · rcases ite_ne_none hne with ⟨r2, _⟩ | ⟨_, hne⟩
      · exact .inr ⟨(b.y - y).toNat, by omega, by omega, by omega, r1⟩
      · exact absurd rfl hne
    · exact absurd rfl hne
  · rw [covers_iff]; omega
  · rw [covers_iff, hK]; omega
  · intro k hk; rw [covers_iff, covers_iff]; omega
  · intro j h0 hj; rw [covers_iff, covers_iff, hK]; omega

theorem corner_left_down {b c : Bounds} (hx : c.x + c.w ≤ b.x)
    (hy : b.y + b.h < c.y) (bh : 1 ≤ b.h) (ch : 1 ≤ c.h) (bw : 1 ≤ b.w) (cw : 1 ≤ c.w) :
    ∃ n f, IsArrow b c (cornerEdge b c) n f := by
  have h1 : ¬ b.x < c.x := by omega
  have h2 : b.y < c.y := by omega
  have e : ∀ y x, cornerEdge b c y x = if y = c.y - 1 ∧ x = c.x + c.w - 1 then some 'v'
      else if y = b.y + b.h - 1 ∧ x = c.x + c.w - 1 then some '┌'
      else if y = b.y + b.h - 1 then (if b.x + b.w ≤ x ∧ x < c.x + c.w - 1 ∨ c.x + c.w - 1 < x ∧ x < b.x then some '─' else none)
      else if x = c.x + c.w - 1 then (if b.y + b.h - 1 < y ∧ y < c.y ∨ c.y + c.h < y ∧ y < b.y + b.h - 1 then some '│' else none)
      else none := by
    intro y x
    simp only [cornerEdge, h1, h2, if_true, if_false, true_and, false_and, not_true]
  generalize hE : cornerEdge b c = E at e
  have hK : b.x - 1 + (-1) * (((b.x - (c.x + c.w)).toNat : Nat) : Int) = c.x + c.w - 1 := by omega
  refine ⟨_, _, corner_arrow (b.x - (c.x + c.w)).toNat (c.y - (b.y + b.h)).toNat (by omega) (b.y + b.h - 1) (b.x - 1) 1 (-1) '┌' 'v' ?_ ?_ ?_ ?_ ?_
    (by decide) (by decide) (by decide) (by decide) (by decide) (by decide) (by decide) ?_ ?_ ?_ ?_⟩
  · intro k hk
    rw [e, if_neg (by omega), if_neg (by omega), if_pos rfl, if_pos (by omega)]
  · rw [e, hK, if_neg (by omega), if_pos ⟨rfl, rfl⟩]
  · intro j h0 hj
    rw [e, hK, if_neg (by omega), if_neg (by omega), if_neg (by omega), if_pos rfl, if_pos (by omega)]
  · rw [e, hK, if_pos ⟨by omega, rfl⟩]
  · intro y x hne
    rw [e] at hne
    rw [hK]
    rcases ite_ne_none hne with ⟨⟨r1, r2⟩, _⟩ | ⟨_, hne⟩
    · exact .inr ⟨(c.y - (b.y + b.h)).toNat, by omega, by omega, by omega, r2⟩
    rcases ite_ne_none hne with ⟨⟨r1, r2⟩, _⟩ | ⟨_, hne⟩
    · exact .inl ⟨(b.x - (c.x + c.w)).toNat, by omega, r1, by omega⟩
    rcases ite_ne_none hne with ⟨r1, hne⟩ | ⟨_, hne⟩
    · rcases ite_ne_none hne with ⟨r2, _⟩ | ⟨_, hne⟩
      · exact .inl ⟨(b.x - 1 - x).toNat, by omega, r1, by omega⟩
      · exact absurd rfl hne
    rcases ite_ne_none hne with ⟨r1, hne⟩ | ⟨_, hne⟩
    · rcases ite_ne_none hne with ⟨r2, _⟩ | ⟨_, hne⟩
      · exact .inr ⟨(y - (b.y + b.h - 1)).toNat, by omega, by omega, by omega, r1⟩
      · exact absurd rfl hne
    · exact absurd rfl hne
  · rw [covers_iff]; omega
  · rw [covers_iff, hK]; omega
  · intro k hk; rw [covers_iff, covers_iff]; omega
  · intro j h0 hj; rw [covers_iff, covers_iff, hK]; omega

theorem corner_left_up {b c : Bounds} (hx : c.x + c.w ≤ b.x)
    (hy : c.y + c.h < b.y) (bh : 1 ≤ b.h) (ch : 1 ≤ c.h) (bw : 1 ≤ b.w) (cw : 1 ≤ c.w) :
    ∃ n f, IsArrow b c (cornerEdge b c) n f := by
  have h1 : ¬ b.x < c.x := by omega
  have h2 : ¬ b.y < c.y := by omega
  have e : ∀ y x, cornerEdge b c y x = if y = c.y + c.h ∧ x = c.x + c.w - 1 then some '^'
      else if y = b.y ∧ x = c.x + c.w - 1 then some '└'
      else if y = b.y then (if b.x + b.w ≤ x ∧ x < c.x + c.w - 1 ∨ c.x + c.w - 1 < x ∧ x < b.x then some '─' else none)
      else if x = c.x + c.w - 1 then (if b.y < y ∧ y < c.y ∨ c.y + c.h < y ∧ y < b.y then some '│' else none)
      else none := by
    intro y x
    simp only [cornerEdge, h1, h2, if_false, true_and, false_and, not_false_eq_true]
  generalize hE : cornerEdge b c = E at e
  have hK : b.x - 1 + (-1) * (((b.x - (c.x + c.w)).toNat : Nat) : Int) = c.x + c.w - 1 := by omega
  refine ⟨_, _, corner_arrow (b.x - (c.x + c.w)).toNat (b.y - (c.y + c.h)).toNat (by omega) (b.y) (b.x - 1) (-1) (-1) '└' '^' ?_ ?_ ?_ ?_ ?_
    (by decide) (by decide) (by decide) (by decide) (by decide) (by decide) (by decide) ?_ ?_ ?_ ?_⟩
  · intro k hk
    rw [e, if_neg (by omega), if_neg (by omega), if_pos rfl, if_pos (by omega)]
  · rw [e, hK, if_neg (by omega), if_pos ⟨rfl, rfl⟩]
  · intro j h0 hj
    rw [e, hK, if_neg (by omega), if_neg (by omega), if_neg (by omega), if_pos rfl, if_pos (by omega)]
  · rw [e, hK, if_pos ⟨by omega, rfl⟩]
  · intro y x hne
    rw [e] at hne
    rw [hK]
    rcases ite_ne_none hne with ⟨⟨r1, r2⟩, _⟩ | ⟨_, hne⟩
    · exact .inr ⟨(b.y - (c.y + c.h)).toNat, by omega, by omega, by omega, r2⟩
    rcases ite_ne_none hne with ⟨⟨r1, r2⟩, _⟩ | ⟨_, hne⟩
    · exact .inl ⟨(b.x - (c.x + c.w)).toNat, by omega, r1, by omega⟩
    rcases ite_ne_none hne with ⟨r1, hne⟩ | ⟨_, hne⟩
    · rcases ite_ne_none hne with ⟨r2, _⟩ | ⟨_, hne⟩
      · exact .inl ⟨(b.x - 1 - x).toNat, by omega, r1, by omega⟩
      · exact absurd rfl hne
    rcases ite_ne_none hne with ⟨r1, hne⟩ | ⟨_, hne⟩
    · rcases ite_ne_none hne with ⟨r2, _⟩ | ⟨_, hne⟩
      · exact .inr ⟨(b.y - y).toNat, by omega, by omega, by omega, r1⟩
      · exact absurd rfl hne
    · exact absurd rfl hne
  · rw [covers_iff]; omega
  · rw [covers_iff, hK]; omega
  · intro k hk; rw [covers_iff, covers_iff]; omega
  · intro j h0 hj; rw [covers_iff, covers_iff, hK]; omega

theorem corner_is_arrow {b c : Bounds} (hs : ¬ ShareColumn b c) (hf : FreeRow b c) (bh : 1 ≤ b.h) (ch : 1 ≤ c.h) (bw : 1 ≤ b.w)
    (cw : 1 ≤ c.w) : ∃ n f, IsArrow b c (cornerEdge b c) n f := by
  unfold ShareColumn at hs
  rcases hf with h | h <;> rcases Int.lt_or_le b.x c.x with h' | h'
  · exact corner_right_down (by omega) h bh ch bw cw
  · exact corner_left_down (by omega) h bh ch bw cw
  · exact corner_right_up (by omega) h bh ch bw cw
  · exact corner_left_up (by omega) h bh ch bw cw

end Bbn
