import Verif.Spec.Rounding
import Verif.Lemmas.TransferNet
import Verif.Lemmas.Solve
import Mathlib.Algebra.Group.Prod
import Mathlib.Tactic.Ring
import Mathlib.Tactic.Positivity
import Mathlib.Algebra.Order.BigOperators.Group.List

/-!
# Rounding errors of the operations on factors

The code is run on pairs of a rounded and an exact number. The projections keep the arithmetic, so both runs can be read
off, and the pairs stay close.
-/

set_option autoImplicit false
set_option linter.unusedSectionVars false

namespace Bbn

open Finset

section Number

variable {K : Type} [Field K] [LinearOrder K] [IsStrictOrderedRing K] {u : K}

omit [IsStrictOrderedRing K] in
theorem Within.refl (u : K) (x : K) : Within u 0 x x := by constructor <;> simp

theorem pow_pos' {u : K} (h1 : u < 1) (k : Nat) : 0 < (1 - u) ^ k := pow_pos (by linarith) k

theorem Within.mono {k l : Nat} {x y : K} (h0 : 0 ≤ u) (h1 : u < 1) (h : Within u k x y) (hx : 0 ≤ x) (hy : 0 ≤ y)
    (hkl : k ≤ l) : Within u l x y := by
  have : (1 - u) ^ l ≤ (1 - u) ^ k := pow_le_pow_of_le_one (by linarith) (by linarith) hkl
  exact ⟨(mul_le_mul_of_nonneg_left this hy).trans h.1, (mul_le_mul_of_nonneg_left this hx).trans h.2⟩

theorem Within.pos {k : Nat} {x y : K} (h1 : u < 1) (h : Within u k x y) (hy : 0 ≤ y) : 0 ≤ x :=
  (mul_nonneg hy (pow_pos' h1 k).le).trans h.1

/-- One more rounding. -/
theorem Within.round {k : Nat} {x y d : K} (h0 : 0 ≤ u) (h1 : u < 1) (h : Within u k x y) (hx : 0 ≤ x)
    (hd : |d| ≤ u) : Within u (k + 1) (x * (1 + d)) y := by
  obtain ⟨d1, d2⟩ := abs_le.1 hd
  have hp := pow_pos' h1 k
  have e1 : 0 < 1 - u := by linarith
  constructor
  · rw [pow_succ, ← mul_assoc]
    calc y * (1 - u) ^ k * (1 - u) ≤ x * (1 - u) := mul_le_mul_of_nonneg_right h.1 e1.le
      _ ≤ x * (1 + d) := mul_le_mul_of_nonneg_left (by linarith) hx
  · rw [pow_succ]
    have : (1 + d) * (1 - u) ≤ 1 := by nlinarith
    calc x * (1 + d) * ((1 - u) ^ k * (1 - u)) = x * (1 - u) ^ k * ((1 + d) * (1 - u)) := by ring
      _ ≤ x * (1 - u) ^ k * 1 := mul_le_mul_of_nonneg_left this (mul_nonneg hx hp.le)
      _ ≤ y := by rw [mul_one]; exact h.2

theorem Within.add {k : Nat} {x y x' y' : K} (h : Within u k x y) (h' : Within u k x' y') :
    Within u k (x + x') (y + y') := by
  constructor
  · rw [add_mul]; exact add_le_add h.1 h'.1
  · rw [add_mul]; exact add_le_add h.2 h'.2

theorem Within.mul {k l : Nat} {x y x' y' : K} (h1 : u < 1) (h : Within u k x y) (h' : Within u l x' y') (hx : 0 ≤ x)
    (hy : 0 ≤ y) (hx' : 0 ≤ x') (hy' : 0 ≤ y') : Within u (k + l) (x * x') (y * y') := by
  have hp := (pow_pos' h1 k).le
  have hq := (pow_pos' h1 l).le
  constructor
  · calc y * y' * (1 - u) ^ (k + l) = (y * (1 - u) ^ k) * (y' * (1 - u) ^ l) := by rw [pow_add]; ring
      _ ≤ x * x' := mul_le_mul h.1 h'.1 (mul_nonneg hy' hq) hx
  · calc x * x' * (1 - u) ^ (k + l) = (x * (1 - u) ^ k) * (x' * (1 - u) ^ l) := by rw [pow_add]; ring
      _ ≤ y * y' := mul_le_mul h.2 h'.2 (mul_nonneg hx' hq) hy

theorem Within.inv {k : Nat} {x y : K} (h : Within u k x y) (hx : 0 < x) (hy : 0 < y) : Within u k x⁻¹ y⁻¹ := by
  constructor
  · rw [inv_mul_le_iff₀ hy, ← div_eq_mul_inv, le_div_iff₀ hx, mul_comm]; exact h.2
  · rw [inv_mul_le_iff₀ hx, ← div_eq_mul_inv, le_div_iff₀ hy, mul_comm]; exact h.1

theorem Within.zero_iff {k : Nat} {x y : K} (h1 : u < 1) (h : Within u k x y) (hy : 0 ≤ y) : x = 0 ↔ y = 0 := by
  have hp := pow_pos' h1 k
  constructor
  · rintro rfl
    have := h.1
    exact le_antisymm (by by_contra hc; exact absurd (mul_pos (not_le.1 hc) hp) (not_lt.2 this)) hy
  · rintro rfl
    have := h.2
    exact le_antisymm (by by_contra hc; exact absurd (mul_pos (not_le.1 hc) hp) (not_lt.2 this)) (h.pos h1 le_rfl)

end Number

section Pair

variable {β K : Type} [Zero β] [One β] [Add β] [Mul β] [Div β] [Field K] [LinearOrder K] {val : β → K} {u : K}

/-- The rounded number is close to the exact one, unless the exact one is negative. -/
def Near (val : β → K) (u : K) (k : Nat) (x : β × K) : Prop := 0 ≤ x.2 → Within u k (val x.1) x.2

variable [IsStrictOrderedRing K]

theorem Near.pos (h : Rounding val u) {k : Nat} {x : β × K} (hx : Near val u k x) (h2 : 0 ≤ x.2) : 0 ≤ val x.1 :=
  (hx h2).pos h.lt_one h2

theorem Near.mono (h : Rounding val u) {k l : Nat} {x : β × K} (hx : Near val u k x) (hkl : k ≤ l) : Near val u l x :=
  fun h2 => (hx h2).mono h.nonneg h.lt_one (hx.pos h h2) h2 hkl

omit [IsStrictOrderedRing K] in
theorem Near.zero (h : Rounding val u) (k : Nat) : Near val u k 0 := by
  intro _
  show Within u k (val 0) 0
  rw [h.zero]
  constructor <;> simp

theorem Near.one (h : Rounding val u) : Near val u 0 1 := by
  intro _
  show Within u 0 (val 1) 1
  rw [h.one]
  exact Within.refl u 1

omit [Zero β] [One β] [Add β] [Mul β] [Div β] in
theorem Near.exact (x : β) : Near val u 0 (x, val x) := fun _ => Within.refl u _

theorem Near.add (h : Rounding val u) {k l : Nat} {a b : β × K} (ha : Near val u k a) (hb : Near val u l b)
    (a2 : 0 ≤ a.2) (b2 : 0 ≤ b.2) : Near val u (max k l + 1) (a + b) := by
  intro _
  obtain ⟨d, hd, e⟩ := h.add a.1 b.1 (ha.pos h a2) (hb.pos h b2)
  show Within u _ (val (a.1 + b.1)) (a.2 + b.2)
  rw [e]
  refine Within.round h.nonneg h.lt_one ?_ (add_nonneg (ha.pos h a2) (hb.pos h b2)) hd
  exact (ha.mono h (le_max_left k l) a2).add (hb.mono h (le_max_right k l) b2)

theorem Near.mul (h : Rounding val u) {k l : Nat} {a b : β × K} (ha : Near val u k a) (hb : Near val u l b)
    (a2 : 0 ≤ a.2) (b2 : 0 ≤ b.2) : Near val u (k + l + 1) (a * b) := by
  intro _
  obtain ⟨d, hd, e⟩ := h.mul a.1 b.1 (ha.pos h a2) (hb.pos h b2)
  show Within u _ (val (a.1 * b.1)) (a.2 * b.2)
  rw [e]
  refine Within.round h.nonneg h.lt_one ?_ (mul_nonneg (ha.pos h a2) (hb.pos h b2)) hd
  exact (ha a2).mul h.lt_one (hb b2) (ha.pos h a2) a2 (hb.pos h b2) b2

theorem Near.div (h : Rounding val u) {k l : Nat} {a b : β × K} (ha : Near val u k a) (hb : Near val u l b)
    (a2 : 0 ≤ a.2) (b2 : 0 < b.2) : Near val u (k + l + 1) (a / b) := by
  intro _
  have hb0 : 0 < val b.1 := lt_of_le_of_ne (hb.pos h b2.le)
    (fun e => b2.ne' (((hb b2.le).zero_iff h.lt_one b2.le).1 e.symm))
  obtain ⟨d, hd, e⟩ := h.div a.1 b.1 (ha.pos h a2) hb0
  show Within u _ (val (a.1 / b.1)) (a.2 / b.2)
  rw [e]
  refine Within.round h.nonneg h.lt_one ?_ (div_nonneg (ha.pos h a2) hb0.le) hd
  rw [div_eq_mul_inv, div_eq_mul_inv]
  exact (ha a2).mul h.lt_one ((hb b2.le).inv hb0 b2) (ha.pos h a2) a2 (inv_nonneg.2 hb0.le) (inv_nonneg.2 b2.le)

/-- A pair that can be divided by. -/
def Divisor (val : β → K) (u : K) (x : β × K) : Prop := 0 ≤ x.2 ∧ ∃ k, Near val u k x

omit [IsStrictOrderedRing K] [Zero β] [One β] [Add β] [Mul β] [Div β] in
theorem Divisor.of_near {k : Nat} {x : β × K} (h : Near val u k x) (h2 : 0 ≤ x.2) : Divisor val u x := ⟨h2, k, h⟩

theorem Divisor.add (h : Rounding val u) {a b : β × K} (ha : Divisor val u a) (hb : Divisor val u b) :
    Divisor val u (a + b) := by
  obtain ⟨a2, k, ha⟩ := ha
  obtain ⟨b2, l, hb⟩ := hb
  exact ⟨add_nonneg a2 b2, _, ha.add h hb a2 b2⟩

theorem Divisor.fst_zero (h : Rounding val u) {x : β × K} (hx : Divisor val u x) : x.1 = 0 ↔ x.2 = 0 := by
  obtain ⟨x2, k, hx⟩ := hx
  have := (hx x2).zero_iff h.lt_one x2
  constructor
  · intro e; exact this.1 (by rw [e, h.zero])
  · intro e; exact h.eq_zero _ (this.2 e)

/-- A way to count roundings: `N k x` says what is known of a pair of a rounded and an exact number after `k` roundings, and
`D x` that the pair can be divided by. -/
structure Grading (β K : Type) [Zero β] [One β] [Add β] [Mul β] [Div β] [Field K] [LinearOrder K] where
  N : Nat → β × K → Prop
  D : β × K → Prop
  mono : ∀ {k l x}, N k x → k ≤ l → N l x
  zero : ∀ k, N k 0
  one : N 0 1
  add : ∀ {k l a b}, N k a → N l b → 0 ≤ a.2 → 0 ≤ b.2 → N (max k l + 1) (a + b)
  mul : ∀ {k l a b}, N k a → N l b → 0 ≤ a.2 → 0 ≤ b.2 → N (k + l + 1) (a * b)
  div : ∀ {k l a b}, N k a → N l b → 0 ≤ a.2 → 0 < b.2 → N (k + l + 1) (a / b)
  dzero : D 0
  dadd : ∀ {a b}, D a → D b → D (a + b)
  dfst : ∀ {x}, D x → (x.1 = 0 ↔ x.2 = 0)
  dpos : ∀ {x}, D x → 0 ≤ x.2

/-- Rounding without limits to the range of numbers. -/
def Rounding.grading (h : Rounding val u) : Grading β K where
  N := Near val u
  D := Divisor val u
  mono hx hkl := hx.mono h hkl
  zero := Near.zero h
  one := Near.one h
  add ha hb := ha.add h hb
  mul ha hb := ha.mul h hb
  div ha hb := ha.div h hb
  dzero := ⟨le_rfl, 0, Near.zero h 0⟩
  dadd := Divisor.add h
  dfst := Divisor.fst_zero h
  dpos hx := hx.1

theorem rounded_embeds (h : Grading β K) : Embeds (Prod.fst : β × K → β) h.D where
  zero := rfl
  one := rfl
  add _ _ := rfl
  mul _ _ := rfl
  div _ _ _ _ := rfl
  eq_zero x hx := ⟨fun e => Prod.ext e ((h.dfst hx).1 e), fun e => by rw [e]; rfl⟩
  pzero := h.dzero
  padd _ _ := h.dadd

theorem exact_embeds (h : Grading β K) : Embeds (Prod.snd : β × K → K) h.D where
  zero := rfl
  one := rfl
  add _ _ := rfl
  mul _ _ := rfl
  div _ _ _ _ := rfl
  eq_zero x hx := ⟨fun e => Prod.ext ((h.dfst hx).2 e) e, fun e => by rw [e]; rfl⟩
  pzero := h.dzero
  padd _ _ := h.dadd

theorem Grading.N.mono (h : Grading β K) {k l : Nat} {x : β × K} (hx : h.N k x) (hkl : k ≤ l) : h.N l x := h.mono hx hkl

theorem Grading.N.add (h : Grading β K) {k l : Nat} {a b : β × K} (ha : h.N k a) (hb : h.N l b) (a2 : 0 ≤ a.2)
    (b2 : 0 ≤ b.2) : h.N (max k l + 1) (a + b) := h.add ha hb a2 b2

theorem Grading.N.mul (h : Grading β K) {k l : Nat} {a b : β × K} (ha : h.N k a) (hb : h.N l b) (a2 : 0 ≤ a.2)
    (b2 : 0 ≤ b.2) : h.N (k + l + 1) (a * b) := h.mul ha hb a2 b2

theorem Grading.N.div (h : Grading β K) {k l : Nat} {a b : β × K} (ha : h.N k a) (hb : h.N l b) (a2 : 0 ≤ a.2)
    (b2 : 0 < b.2) : h.N (k + l + 1) (a / b) := h.div ha hb a2 b2

theorem goSum_d (h : Grading β K) {l : List (β × K)} (hl : ∀ x ∈ l, h.D x) : h.D (goSum l) := by
  have key : ∀ (l : List (β × K)) (acc : β × K), (∀ x ∈ l, h.D x) → h.D acc → h.D (l.foldl (· + ·) acc) := by
    intro l
    induction l with
    | nil => intro acc _ h1; exact h1
    | cons x l ih =>
      intro acc hx h1
      exact ih _ (fun y hy => hx y (List.mem_cons_of_mem _ hy)) (h.dadd h1 (hx x List.mem_cons_self))
  exact key l 0 hl h.dzero

/-- All entries are close, within `k` roundings. -/
def Factor.Near (h : Grading β K) (k : Nat) (f : Factor (β × K)) : Prop := ∀ x ∈ f.data, h.N k x

/-- No exact entry is negative. -/
def Factor.Pos (f : Factor (β × K)) : Prop := ∀ x ∈ f.data, 0 ≤ x.2

theorem Factor.Near.mono (h : Grading β K) {k l : Nat} {f : Factor (β × K)} (hf : f.Near h k) (hkl : k ≤ l) :
    f.Near h l := fun x hx => (hf x hx).mono h hkl

theorem productCell_near (h : Grading β K) (gr : Factor (β × K) → Nat) (new : List Nat) :
    ∀ (fs : List (Factor (β × K))) (ms : List (List Nat)) (acc x : β × K) (k : Nat),
    (∀ f ∈ fs, f.Near h (gr f) ∧ f.Pos) → h.N k acc → 0 ≤ acc.2 →
    productCell new (fs.zip ms) acc = .ok x →
    h.N (k + (fs.map (fun f => gr f + 1)).sum) x ∧ 0 ≤ x.2 := by
  intro fs
  induction fs with
  | nil =>
    intro ms acc x k _ ha h2 hx
    cases hx
    exact ⟨by simpa using ha, h2⟩
  | cons f fs ih =>
    intro ms acc x k hf ha h2 hx
    cases ms with
    | nil =>
      cases hx
      exact ⟨ha.mono h (by omega), h2⟩
    | cons m ms =>
      rw [List.zip_cons_cons, productCell] at hx
      obtain ⟨o, _, hx⟩ := ok_inv hx
      obtain ⟨y, hy, hx⟩ := ok_inv hx
      obtain ⟨f1, f2⟩ := hf f List.mem_cons_self
      have hy := getN_mem hy
      have := ih ms (acc * y) x (k + gr f + 1) (fun g hg => hf g (List.mem_cons_of_mem _ hg))
        (ha.mul h (f1 y hy) h2 (f2 y hy)) (mul_nonneg h2 (f2 y hy)) hx
      refine ⟨?_, this.2⟩
      rw [List.map_cons, List.sum_cons]
      exact this.1.mono h (by omega)

omit [IsStrictOrderedRing K] in
theorem createFactor_some_inv {s : Vs} {vars : List Var} {d : List (β × K)} {a : Factor (β × K) × Vs}
    (h : s.createFactor vars (some d) = .ok a) : a.1.data = d := by
  unfold Vs.createFactor at h
  dsimp only at h
  split_ifs at h
  cases h
  rfl

theorem product_near (h : Grading β K) (gr : Factor (β × K) → Nat) {s : Vs} {fs : List (Factor (β × K))}
    (hf : ∀ f ∈ fs, f.Near h (gr f) ∧ f.Pos) {a : Factor (β × K) × Vs} (ha : s.product fs = .ok a) :
    a.1.Near h (fs.map (fun f => gr f + 1)).sum ∧ a.1.Pos := by
  have main : ∀ fs : List (Factor (β × K)), (∀ f ∈ fs, f.Near h (gr f) ∧ f.Pos) →
      (do let (fNew, s) ← s.createFactor (mergeAll [] (fs.map Factor.vars)).1 (none : Option (List (β × K)))
          let d ← odoBuild (mergeAll [] (fs.map Factor.vars)).1
            (fun new => productCell new (fs.zip (mergeAll [] (fs.map Factor.vars)).2) 1)
            fNew.data.length (List.replicate (mergeAll [] (fs.map Factor.vars)).1.length 0)
          return (({ fNew with data := d } : Factor (β × K)), s)) = Except.ok (ε := Fault) a →
      a.1.Near h (fs.map (fun f => gr f + 1)).sum ∧ a.1.Pos := by
    intro fs hf ha
    obtain ⟨b, _, ha⟩ := ok_inv ha
    obtain ⟨d, hd, ha⟩ := ok_inv ha
    cases ha
    have := odoBuild_mem _ (Q := fun x => h.N (fs.map (fun f => gr f + 1)).sum x ∧ 0 ≤ x.2)
      (fun i x hx => by
        have := productCell_near h gr i fs _ 1 x 0 hf (h.one) (zero_le_one (α := K)) hx
        rwa [Nat.zero_add] at this) _ _ _ hd
    exact ⟨fun x hx => (this x hx).1, fun x hx => (this x hx).2⟩
  unfold Vs.product at ha
  match fs, hf, ha with
  | [], hf, ha => exact main [] hf ha
  | [f], hf, ha =>
    have e := createFactor_some_inv ha
    obtain ⟨h1, h2⟩ := hf f List.mem_cons_self
    refine ⟨fun x hx => ?_, fun x hx => h2 x (e ▸ hx)⟩
    exact (h1 x (e ▸ hx)).mono h (by simp)
  | f :: g :: fs, hf, ha => exact main (f :: g :: fs) hf ha

/-- Entries and the number of additions that made them. -/
def CountedNear (h : Grading β K) (g : Nat) (x : β × K) (c : Nat) : Prop := h.N (g + c) x ∧ 0 ≤ x.2

theorem pairs_get {A B : Type} {R : A → B → Prop} {l : List A} {m : List B} (h : List.Forall₂ R l m) {j : Nat} {b : B}
    (hb : goGet m j = .ok b) : ∃ a, goGet l j = .ok a ∧ R a b := by
  induction h generalizing j with
  | nil => cases hb
  | cons r _ ih =>
    cases j with
    | zero => cases hb; exact ⟨_, rfl, r⟩
    | succ j => exact ih (j := j) hb

theorem pairs_set {A B : Type} {R : A → B → Prop} {l : List A} {m : List B} (h : List.Forall₂ R l m) (j : Nat) {a : A}
    {b : B} (r : R a b) : List.Forall₂ R (l.set j a) (m.set j b) := by
  induction h generalizing j with
  | nil => exact .nil
  | cons r' t ih =>
    cases j with
    | zero => exact .cons r t
    | succ j => exact .cons r' (ih j)

theorem pairs_goSet {A B : Type} {R : A → B → Prop} {l : List A} {m : List B} (h : List.Forall₂ R l m) {j : Nat} {a : A}
    {b : B} (r : R a b) {m' : List B} (hb : goSet m j b = .ok m') : ∃ l', goSet l j a = .ok l' ∧ List.Forall₂ R l' m' := by
  unfold goSet at hb ⊢
  rw [h.length_eq]
  split_ifs at hb with hj
  cases hb
  rw [if_pos hj]
  exact ⟨_, rfl, pairs_set h j r⟩

theorem sumOutLoop_near (h : Grading β K) (g : Nat) (vars newVars : List Var) (idx : Nat) :
    ∀ (xs : List (β × K)) (old : List Nat) (new : List (β × K)) (cnt cnt' : List Nat),
    (∀ x ∈ xs, h.N g x ∧ 0 ≤ x.2) → List.Forall₂ (CountedNear h g) new cnt →
    sumOutLoop vars newVars idx (List.replicate xs.length 1) old cnt = .ok cnt' →
    ∃ new', sumOutLoop vars newVars idx xs old new = .ok new' ∧ List.Forall₂ (CountedNear h g) new' cnt' := by
  intro xs
  induction xs with
  | nil => intro old new cnt cnt' _ hn hc; cases hc; exact ⟨_, rfl, hn⟩
  | cons x xs ih =>
    intro old new cnt cnt' hx hn hc
    rw [List.length_cons, List.replicate_succ, sumOutLoop] at hc
    obtain ⟨j, hj, hc⟩ := ok_inv hc
    obtain ⟨cur, hcur, hc⟩ := ok_inv hc
    obtain ⟨c1, hc1, hc⟩ := ok_inv hc
    obtain ⟨cx, hcx, ⟨r1, r2⟩⟩ := pairs_get hn hcur
    obtain ⟨x1, x2⟩ := hx x List.mem_cons_self
    have hr : CountedNear h g (cx + x) (cur + 1) := by
      refine ⟨(r1.add h x1 r2 x2).mono h ?_, add_nonneg r2 x2⟩
      omega
    obtain ⟨l', hl', hn'⟩ := pairs_goSet hn hr hc1
    obtain ⟨new', e1, e2⟩ := ih _ l' c1 cnt' (fun y hy => hx y (List.mem_cons_of_mem _ hy)) hn' hc
    refine ⟨new', ?_, e2⟩
    rw [sumOutLoop, hj]
    simp only [ok_bind, hcx, hl', e1]

/-- Every entry of a factor is its value at some assignment. -/
theorem entry_val {α : Type} [Zero α] {f : Factor α} (hf : f.WF) {y : α} (hy : y ∈ f.data) :
    ∃ σ, Fits σ f.vars ∧ f.val σ = y := by
  obtain ⟨i, hi, rfl⟩ := List.getElem_of_mem hy
  have hi' : i < size f.vars := hf.len ▸ hi
  have h1 := outcomesOf_inRange hi'
  have h2 := flatIndex_outcomesOf hi'
  have e := tupleOf_assignOf hf.nodup (outcomesOf_length f.vars i)
  refine ⟨assignOf f.vars (outcomesOf f.vars i), fits_of_inRange (by rw [e]; exact h1), ?_⟩
  unfold Factor.val
  rw [e, h2, List.getD_eq_getElem?_getD, List.getElem?_eq_getElem hi, Option.getD_some]

theorem sumOut_near (h : Grading β K) {g : Nat} (s : Vs) {f : Factor (β × K)} (hf : f.WF) (v : Var) {w : Var}
    (hw : w ∈ f.vars) (hid : w.id = v.id) (hn : f.Near h g) (hp : f.Pos) {a : Factor (β × K) × Vs}
    (ha : s.sumOut f v = .ok a) : a.1.Near h (g + w.outcomes) ∧ a.1.Pos := by
  have hones : (⟨f.id, List.replicate f.data.length 1, f.vars⟩ : Factor Nat).WF := ⟨by simp [hf.len], hf.nodup⟩
  obtain ⟨c, c1, c2, _, c4, c5⟩ := sumOut_spec s ⟨f.id, List.replicate f.data.length 1, f.vars⟩ hones v w hw hid
  have hval : ∀ y ∈ c.data, y ≤ w.outcomes := by
    intro y hy
    obtain ⟨σ, hσ, rfl⟩ := entry_val c2 hy
    rw [c5 σ hσ]
    calc ∑ k ∈ range w.outcomes, (⟨f.id, List.replicate f.data.length 1, f.vars⟩ : Factor Nat).val (σ.upd v.id k)
        ≤ ∑ _k ∈ range w.outcomes, 1 := by
          refine Finset.sum_le_sum (fun k _ => ?_)
          unfold Factor.val
          rw [List.getD_eq_getElem?_getD, List.getElem?_replicate]
          split_ifs <;> simp
      _ = w.outcomes := by simp
  unfold Vs.sumOut at ha c1
  cases hl : lastIdx v.id f.vars with
  | none => rw [hl] at ha; cases ha
  | some idx =>
    rw [hl] at ha
    dsimp only at ha c1
    rw [hl] at c1
    dsimp only at c1
    obtain ⟨b, hb, ha⟩ := ok_inv ha
    obtain ⟨d, hd, ha⟩ := ok_inv ha
    obtain ⟨b', hb', c1⟩ := ok_inv c1
    obtain ⟨d', hd', c1⟩ := ok_inv c1
    unfold Vs.createFactor at hb hb'
    cases hb
    cases hb'
    cases ha
    cases c1
    obtain ⟨new', e1, e2⟩ := sumOutLoop_near h g f.vars _ idx f.data _ (List.replicate (size (otherVars v.id f.vars)) 0) _ d'
      (fun x hx => ⟨hn x hx, hp x hx⟩) (by
        rw [List.forall₂_iff_get]
        refine ⟨by simp, fun i hi hi' => ?_⟩
        simp only [List.get_eq_getElem, List.getElem_replicate]
        exact ⟨h.zero _, le_rfl⟩) hd'
    rw [hd] at e1
    cases e1
    constructor
    · intro x hx
      obtain ⟨c, hc, r1, _⟩ := forall₂_mem_left e2 hx
      exact r1.mono h (by have := hval c hc; omega)
    · intro x hx
      obtain ⟨c, hc, _, r2⟩ := forall₂_mem_left e2 hx
      exact r2

/-- Restricting only copies entries. -/
theorem restrictLoop_mem {α : Type} (vars newVars : List Var) (idx obs : Nat) (Q : α → Prop) :
    ∀ (xs : List α) (old : List Nat) (new new' : List α), (∀ x ∈ xs, Q x) → (∀ x ∈ new, Q x) →
    restrictLoop vars newVars idx obs xs old new = .ok new' → ∀ x ∈ new', Q x := by
  intro xs
  induction xs with
  | nil => intro old new new' _ hn hc; cases hc; exact hn
  | cons x xs ih =>
    intro old new new' hx hn hc
    rw [restrictLoop] at hc
    obtain ⟨o, _, hc⟩ := ok_inv hc
    have hx' : ∀ y ∈ xs, Q y := fun y hy => hx y (List.mem_cons_of_mem _ hy)
    dsimp only at hc
    split_ifs at hc
    · obtain ⟨j, _, hc⟩ := ok_inv hc
      obtain ⟨n1, h1, hc⟩ := ok_inv hc
      refine ih _ n1 new' hx' ?_ hc
      unfold goSet at h1
      split_ifs at h1
      cases h1
      intro y hy
      rcases List.mem_or_eq_of_mem_set hy with h | rfl
      · exact hn y h
      · exact hx y List.mem_cons_self
    · exact ih _ new new' hx' hn hc

theorem restrict_mem {α : Type} [Zero α] {s : Vs} {f : Factor α} {v : Var} {obs : Int} {a : Factor α × Vs}
    (h : s.restrict f v obs = .ok a) : ∀ x ∈ a.1.data, x = 0 ∨ x ∈ f.data := by
  unfold Vs.restrict at h
  split_ifs at h
  cases hl : lastIdx v.id f.vars with
  | none => rw [hl] at h; cases h
  | some idx =>
    rw [hl] at h
    dsimp only at h
    obtain ⟨b, hb, h⟩ := ok_inv h
    obtain ⟨d, hd, h⟩ := ok_inv h
    cases hb
    cases h
    exact restrictLoop_mem _ _ _ _ (fun x => x = 0 ∨ x ∈ f.data) _ _ _ _ (fun x hx => .inr hx)
      (fun x hx => .inl (List.eq_of_mem_replicate hx)) hd

theorem goSum_near (h : Grading β K) {g : Nat} {l : List (β × K)} (hl : ∀ x ∈ l, h.N g x ∧ 0 ≤ x.2) :
    h.N (g + l.length) (goSum l) ∧ 0 ≤ (goSum l).2 := by
  have key : ∀ (l : List (β × K)) (t : Nat) (acc : β × K), (∀ x ∈ l, h.N g x ∧ 0 ≤ x.2) →
      h.N (g + t) acc → 0 ≤ acc.2 →
      h.N (g + (t + l.length)) (l.foldl (· + ·) acc) ∧ 0 ≤ (l.foldl (· + ·) acc).2 := by
    intro l
    induction l with
    | nil => intro t acc _ h1 h2; exact ⟨h1, h2⟩
    | cons x l ih =>
      intro t acc hx h1 h2
      obtain ⟨x1, x2⟩ := hx x List.mem_cons_self
      have := ih (t + 1) (acc + x) (fun y hy => hx y (List.mem_cons_of_mem _ hy))
        ((h1.add h x1 h2 x2).mono h (by omega)) (add_nonneg h2 x2)
      rw [List.foldl_cons, List.length_cons]
      rwa [show t + (l.length + 1) = t + 1 + l.length by omega]
  have := key l 0 0 hl (h.zero _) le_rfl
  rwa [Nat.zero_add] at this

theorem normBin_near [DecidableEq β] (h : Grading β K) {g : Nat} {l : List (β × K)}
    (hl : ∀ x ∈ l, h.N g x ∧ 0 ≤ x.2) (hd : ∀ x ∈ l, h.D x) :
    ∀ x ∈ normBin l, h.N (g + (g + l.length) + 1) x ∧ 0 ≤ x.2 := by
  obtain ⟨s1, s2⟩ := goSum_near h hl
  unfold normBin
  dsimp only
  split_ifs with h0
  · exact fun x hx => ⟨(hl x hx).1.mono h (by omega), (hl x hx).2⟩
  · intro x hx
    obtain ⟨y, hy, rfl⟩ := List.mem_map.1 hx
    obtain ⟨y1, y2⟩ := hl y hy
    have hpos : 0 < (goSum l).2 := by
      refine lt_of_le_of_ne s2 (fun e => h0 ?_)
      exact Prod.ext ((h.dfst (goSum_d h hd)).2 e.symm) e.symm
    exact ⟨y1.div h s1 y2 hpos, div_nonneg y2 s2⟩

theorem normBins_near [DecidableEq β] (h : Grading β K) {g : Nat} (k : Nat) : ∀ (m : Nat) (l : List (β × K)),
    (∀ x ∈ l, h.N g x ∧ 0 ≤ x.2) → (∀ x ∈ l, h.D x) →
    ∀ x ∈ normBins k m l, h.N (g + (g + k) + 1) x ∧ 0 ≤ x.2 := by
  intro m
  induction m with
  | zero => intro l hl _ x hx; exact ⟨(hl x hx).1.mono h (by omega), (hl x hx).2⟩
  | succ m ih =>
    intro l hl hd x hx
    rw [normBins] at hx
    rcases List.mem_append.1 hx with hx | hx
    · obtain ⟨x1, x2⟩ := normBin_near h (fun y hy => hl y (List.mem_of_mem_take hy))
        (fun y hy => hd y (List.mem_of_mem_take hy)) x hx
      refine ⟨x1.mono h ?_, x2⟩
      have := List.length_take_le k l
      omega
    · exact ih _ (fun y hy => hl y (List.mem_of_mem_drop hy)) (fun y hy => hd y (List.mem_of_mem_drop hy)) x hx

theorem normalizeFor_near [DecidableEq β] (h : Grading β K) {g : Nat} {s : Vs} {f : Factor (β × K)} {v : Var}
    (hn : f.Near h g) (hp : f.Pos) (hd : ∀ x ∈ f.data, h.D x) {a : Factor (β × K) × Vs}
    (ha : s.normalizeFor f v = .ok a) :
    a.1.Near h (g + (g + v.outcomes) + 1) ∧ a.1.Pos := by
  unfold Vs.normalizeFor at ha
  cases hi : firstIdx v.id f.vars with
  | none => rw [hi] at ha; cases ha
  | some idx =>
    rw [hi] at ha
    dsimp only at ha
    obtain ⟨w, _, ha⟩ := ok_inv ha
    obtain ⟨b, hb, ha⟩ := ok_inv ha
    split_ifs at ha
    cases ha
    have := normBins_near h (g := g) v.outcomes (b.1.data.length / v.outcomes) b.1.data
      (fun x hx => ⟨hn x (rearrange_mem hb x hx), hp x (rearrange_mem hb x hx)⟩)
      (fun x hx => hd x (rearrange_mem hb x hx))
    exact ⟨fun x hx => (this x hx).1, fun x hx => (this x hx).2⟩

theorem goGet_mem' {α : Type} {l : List α} {i : Nat} {x : α} (h : goGet l i = .ok x) : x ∈ l := goGet_mem h

theorem marginalLoop_near (h : Grading β K) (g : Nat) (vars : List Var) (idx : Nat) :
    ∀ (xs : List (β × K)) (old : List Nat) (new new' : List (β × K)) (t : Nat),
    (∀ x ∈ xs, h.N g x ∧ 0 ≤ x.2) → (∀ x ∈ new, h.N (g + t) x ∧ 0 ≤ x.2) →
    marginalLoop vars idx xs old new = .ok new' → ∀ x ∈ new', h.N (g + (t + xs.length)) x ∧ 0 ≤ x.2 := by
  intro xs
  induction xs with
  | nil => intro old new new' t _ hn hc; cases hc; exact hn
  | cons x xs ih =>
    intro old new new' t hx hn hc
    rw [marginalLoop] at hc
    obtain ⟨o, _, hc⟩ := ok_inv hc
    obtain ⟨cur, hcur, hc⟩ := ok_inv hc
    obtain ⟨n1, h1, hc⟩ := ok_inv hc
    obtain ⟨x1, x2⟩ := hx x List.mem_cons_self
    obtain ⟨c1, c2⟩ := hn cur (goGet_mem hcur)
    have := ih _ n1 new' (t + 1) (fun y hy => hx y (List.mem_cons_of_mem _ hy)) ?_ hc
    · rw [List.length_cons]
      rwa [show t + (xs.length + 1) = t + 1 + xs.length by omega]
    · unfold goSet at h1
      split_ifs at h1
      cases h1
      intro y hy
      rcases List.mem_or_eq_of_mem_set hy with hy | rfl
      · exact ⟨(hn y hy).1.mono h (by omega), (hn y hy).2⟩
      · exact ⟨(c1.add h x1 c2 x2).mono h (by omega), add_nonneg c2 x2⟩

theorem marginal_near (h : Grading β K) {g : Nat} {s : Vs} {f : Factor (β × K)} {v : Var} (hn : f.Near h g)
    (hp : f.Pos) {a : Factor (β × K) × Vs} (ha : s.marginal f v = .ok a) :
    a.1.Near h (g + f.data.length) ∧ a.1.Pos := by
  unfold Vs.marginal at ha
  cases hi : firstIdx v.id f.vars with
  | none => rw [hi] at ha; cases ha
  | some idx =>
    rw [hi] at ha
    dsimp only at ha
    obtain ⟨b, hb, ha⟩ := ok_inv ha
    obtain ⟨d, hd, ha⟩ := ok_inv ha
    cases hb
    cases ha
    have := marginalLoop_near h g _ _ f.data _ _ _ 0 (fun x hx => ⟨hn x hx, hp x hx⟩) (fun x hx => by
      rw [List.eq_of_mem_replicate hx]
      exact ⟨h.zero _, le_rfl⟩) hd
    rw [Nat.zero_add] at this
    exact ⟨fun x hx => (this x hx).1, fun x hx => (this x hx).2⟩

theorem normalize_near (h : Grading β K) {g : Nat} {s : Vs} {f : Factor (β × K)} (hn : f.Near h g) (hp : f.Pos)
    (h0 : (goSum f.data).2 ≠ 0) {a : Factor (β × K) × Vs} (ha : s.normalize f = .ok a) :
    a.1.Near h (g + (g + f.data.length) + 1) ∧ a.1.Pos := by
  unfold Vs.normalize at ha
  obtain ⟨b, hb, ha⟩ := ok_inv ha
  have e := createFactor_some_inv hb
  cases ha
  obtain ⟨s1, s2⟩ := goSum_near h (l := f.data) (fun x hx => ⟨hn x hx, hp x hx⟩)
  have hpos : 0 < (goSum f.data).2 := lt_of_le_of_ne s2 h0.symm
  dsimp only
  rw [Factor.Near, Factor.Pos, e]
  constructor
  · intro x hx
    obtain ⟨y, hy, rfl⟩ := List.mem_map.1 hx
    exact (hn y hy).div h s1 (hp y hy) hpos
  · intro x hx
    obtain ⟨y, hy, rfl⟩ := List.mem_map.1 hx
    exact div_nonneg (hp y hy) s2

end Pair

end Bbn
