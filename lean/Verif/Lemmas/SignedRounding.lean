import Verif.Lemmas.Graded
import Verif.Lemmas.RoundingNet
import Mathlib.Tactic.FieldSimp

/-!
# Rounding errors with numbers of any sign

The solver is run on triples: a rounded number, the exact one, and the exact one that is got if all numbers are replaced by
their absolute values. The distance of the first two is bounded by the third.
-/

set_option autoImplicit false
set_option linter.unusedSectionVars false

namespace Bbn

open Finset

section Number

variable {K : Type} [Field K] [LinearOrder K] [IsStrictOrderedRing K] {u : K}

theorem one_le_growth (h0 : 0 ≤ u) (h1 : u < 1) (k : Nat) : 1 ≤ (1 - u)⁻¹ ^ k :=
  one_le_pow₀ ((one_le_inv₀ (by linarith)).2 (by linarith))

theorem growth_mono (h0 : 0 ≤ u) (h1 : u < 1) {k l : Nat} (h : k ≤ l) : (1 - u)⁻¹ ^ k ≤ (1 - u)⁻¹ ^ l :=
  pow_le_pow_right₀ ((one_le_inv₀ (by linarith)).2 (by linarith)) h

theorem Off.refl (u x b : K) : Off u 0 x x b := by simp [Off]

theorem Off.mono (h0 : 0 ≤ u) (h1 : u < 1) {k l : Nat} {x y b : K} (h : Off u k x y b) (hb : 0 ≤ b) (hkl : k ≤ l) :
    Off u l x y b :=
  le_trans h (mul_le_mul_of_nonneg_right (sub_le_sub_right (growth_mono h0 h1 hkl) 1) hb)

/-- One more rounding. -/
theorem Off.round (h0 : 0 ≤ u) (h1 : u < 1) {k : Nat} {x y b d : K} (h : Off u k x y b) (hy : |y| ≤ b) (hd : |d| ≤ u) :
    Off u (k + 1) (x * (1 + d)) y b := by
  unfold Off at h ⊢
  have hb : 0 ≤ b := (abs_nonneg y).trans hy
  set r := (1 - u)⁻¹ ^ k with hr
  have hr1 : 1 ≤ r := one_le_growth h0 h1 k
  have hx : |x| ≤ r * b := by
    have : |x| ≤ |x - y| + |y| := by
      have := abs_add_le (x - y) y
      rwa [sub_add_cancel] at this
    nlinarith
  have e1 : |x * (1 + d) - y| ≤ |x - y| + |x| * u := by
    have e : x * (1 + d) - y = (x - y) + x * d := by ring
    rw [e]
    refine (abs_add_le _ _).trans ?_
    rw [abs_mul]
    have := mul_le_mul_of_nonneg_left hd (abs_nonneg x)
    linarith
  have e2 : r * (1 + u) ≤ r * (1 - u)⁻¹ := by
    refine mul_le_mul_of_nonneg_left ?_ (by linarith)
    have hp : 0 < 1 - u := by linarith
    rw [le_inv_comm₀ (by linarith) hp, inv_eq_one_div, le_div_iff₀ (by linarith)]
    nlinarith
  rw [pow_succ, ← hr]
  have e3 := mul_le_mul_of_nonneg_right e2 hb
  have e4 := mul_le_mul_of_nonneg_right hx h0
  nlinarith

theorem Off.add (h0 : 0 ≤ u) (h1 : u < 1) {k : Nat} {x y b x' y' b' : K} (h : Off u k x y b) (h' : Off u k x' y' b') :
    Off u k (x + x') (y + y') (b + b') := by
  unfold Off at h h' ⊢
  have e : x + x' - (y + y') = (x - y) + (x' - y') := by ring
  rw [e, mul_add]
  exact (abs_add_le _ _).trans (add_le_add h h')

theorem Off.mul (h0 : 0 ≤ u) (h1 : u < 1) {k l : Nat} {x y b x' y' b' : K} (h : Off u k x y b) (h' : Off u l x' y' b')
    (hy : |y| ≤ b) (hy' : |y'| ≤ b') : Off u (k + l) (x * x') (y * y') (b * b') := by
  unfold Off at h h' ⊢
  have hb : 0 ≤ b := (abs_nonneg y).trans hy
  have hb' : 0 ≤ b' := (abs_nonneg y').trans hy'
  rw [pow_add]
  set r := (1 - u)⁻¹ ^ k
  set s := (1 - u)⁻¹ ^ l
  have hr1 : 1 ≤ r := one_le_growth h0 h1 k
  have hs1 : 1 ≤ s := one_le_growth h0 h1 l
  have hx' : |x'| ≤ s * b' := by
    have : |x'| ≤ |x' - y'| + |y'| := by
      have := abs_add_le (x' - y') y'
      rwa [sub_add_cancel] at this
    nlinarith
  have e : x * x' - y * y' = (x - y) * x' + y * (x' - y') := by ring
  rw [e]
  refine (abs_add_le _ _).trans ?_
  rw [abs_mul, abs_mul]
  have e1 : |x - y| * |x'| ≤ (r - 1) * b * (s * b') :=
    mul_le_mul h hx' (abs_nonneg _) (mul_nonneg (by linarith) hb)
  have e2 : |y| * |x' - y'| ≤ b * ((s - 1) * b') := mul_le_mul hy h' (abs_nonneg _) hb
  have e3 : (r - 1) * b * (s * b') + b * ((s - 1) * b') = (r * s - 1) * (b * b') := by ring
  linarith

theorem Within.off (h0 : 0 ≤ u) (h1 : u < 1) {k : Nat} {x y : K} (h : Within u k x y) (hy : 0 ≤ y) : Off u k x y y := by
  unfold Off
  have hq := pow_pos' h1 k
  have hr1 : 1 ≤ (1 - u)⁻¹ ^ k := one_le_growth h0 h1 k
  have hx := h.pos h1 hy
  obtain ⟨e1, e2⟩ := h
  rw [inv_pow] at hr1 ⊢
  set q := (1 - u) ^ k
  have hq1 : q ≤ 1 := by rwa [one_le_inv₀ hq] at hr1
  rw [abs_le]
  constructor
  · have : 1 - q ≤ q⁻¹ - 1 := by
      have : q + q⁻¹ - 2 = (1 - q) * (q⁻¹ - 1) := by
        field_simp
        ring
      nlinarith [mul_nonneg (sub_nonneg.2 hq1) (sub_nonneg.2 hr1)]
    nlinarith
  · have : x ≤ y * q⁻¹ := by rwa [← div_eq_mul_inv, le_div_iff₀ hq]
    linarith

end Number

variable {β K : Type} [Zero β] [One β] [Add β] [Mul β] [Div β] [Field K] [LinearOrder K] [IsStrictOrderedRing K]
  {val : β → K} {u : K}

theorem SignedRounding.rounding (h : SignedRounding val u) : Rounding val u where
  nonneg := h.nonneg
  lt_one := h.lt_one
  zero := h.zero
  one := h.one
  eq_zero := h.eq_zero
  add a b _ _ := h.add a b
  mul a b _ _ := h.mul a b
  div a b _ hb := h.div a b hb.ne'

/-- A rounded number, the exact number, and a bound. -/
def Bounded (val : β → K) (u : K) (k : Nat) (x : (β × K) × K) : Prop :=
  Off u k (val x.1.1) x.1.2 x.2 ∧ |x.1.2| ≤ x.2

theorem bounded_graded (h : SignedRounding val u) : Graded (Bounded val u) where
  zero k := by
    refine ⟨?_, by simp⟩
    show Off u k (val 0) 0 0
    simp [Off, h.zero]
  one := by
    refine ⟨?_, by simp⟩
    show Off u 0 (val 1) 1 1
    simp [Off, h.one]
  mono hkl hx := ⟨hx.1.mono h.nonneg h.lt_one ((abs_nonneg _).trans hx.2) hkl, hx.2⟩
  add {k l a b} ha hb := by
    have h2 : |a.1.2 + b.1.2| ≤ a.2 + b.2 := (abs_add_le _ _).trans (add_le_add ha.2 hb.2)
    refine ⟨?_, h2⟩
    obtain ⟨d, hd, e⟩ := h.add a.1.1 b.1.1
    show Off u _ (val (a.1.1 + b.1.1)) (a.1.2 + b.1.2) (a.2 + b.2)
    rw [e]
    refine Off.round h.nonneg h.lt_one ?_ h2 hd
    exact (ha.1.mono h.nonneg h.lt_one ((abs_nonneg _).trans ha.2) (le_max_left k l)).add h.nonneg h.lt_one
      (hb.1.mono h.nonneg h.lt_one ((abs_nonneg _).trans hb.2) (le_max_right k l))
  mul {k l a b} ha hb := by
    have h2 : |a.1.2 * b.1.2| ≤ a.2 * b.2 := by
      rw [abs_mul]
      exact mul_le_mul ha.2 hb.2 (abs_nonneg _) ((abs_nonneg _).trans ha.2)
    refine ⟨?_, h2⟩
    obtain ⟨d, hd, e⟩ := h.mul a.1.1 b.1.1
    show Off u _ (val (a.1.1 * b.1.1)) (a.1.2 * b.1.2) (a.2 * b.2)
    rw [e]
    exact Off.round h.nonneg h.lt_one (ha.1.mul h.nonneg h.lt_one hb.1 ha.2 hb.2) h2 hd

/-- The exact number is not negative, and is the bound. -/
def Sure (x : (β × K) × K) : Prop := x.2 = x.1.2 ∧ 0 ≤ x.1.2

theorem Sure.bounded (h : Rounding val u) {k : Nat} {x : (β × K) × K} (hx : Sure x) (hn : Near val u k x.1) :
    Bounded val u k x := by
  obtain ⟨h1, h2⟩ := hx
  unfold Bounded
  rw [h1, abs_of_nonneg h2]
  exact ⟨(hn h2).off h.nonneg h.lt_one h2, le_rfl⟩

/-- Triples that can be divided by. -/
def Divisor3 (val : β → K) (u : K) (x : (β × K) × K) : Prop := Divisor val u x.1 ∧ x.2 = x.1.2

theorem Divisor3.zero (h : Rounding val u) : Divisor3 val u 0 := ⟨⟨le_rfl, 0, Near.zero h 0⟩, rfl⟩

theorem Divisor3.add (h : Rounding val u) {a b : (β × K) × K} (ha : Divisor3 val u a) (hb : Divisor3 val u b) :
    Divisor3 val u (a + b) :=
  ⟨ha.1.add h hb.1, by
    show a.2 + b.2 = a.1.2 + b.1.2
    rw [ha.2, hb.2]⟩

theorem Divisor3.ext_zero (h : Rounding val u) {x : (β × K) × K} (hx : Divisor3 val u x) (h2 : x.1.2 = 0) : x = 0 :=
  Prod.ext (Prod.ext ((hx.1.fst_zero h).2 h2) h2) (hx.2.trans h2)

theorem pair_embeds (h : Rounding val u) : Embeds (Prod.fst : (β × K) × K → β × K) (Divisor3 val u) where
  zero := rfl
  one := rfl
  add _ _ := rfl
  mul _ _ := rfl
  div _ _ _ _ := rfl
  eq_zero x hx := ⟨fun e => hx.ext_zero h (by rw [e]; rfl), fun e => by rw [e]; rfl⟩
  pzero := Divisor3.zero h
  padd _ _ := Divisor3.add h

theorem middle_embeds (h : Rounding val u) : Embeds (fun x : (β × K) × K => x.1.2) (Divisor3 val u) where
  zero := rfl
  one := rfl
  add _ _ := rfl
  mul _ _ := rfl
  div _ _ _ _ := rfl
  eq_zero x hx := ⟨fun e => hx.ext_zero h e, fun e => by rw [e]; rfl⟩
  pzero := Divisor3.zero h
  padd _ _ := Divisor3.add h

theorem size_embeds (h : Rounding val u) : Embeds (Prod.snd : (β × K) × K → K) (Divisor3 val u) where
  zero := rfl
  one := rfl
  add _ _ := rfl
  mul _ _ := rfl
  div _ _ _ _ := rfl
  eq_zero x hx := ⟨fun e => hx.ext_zero h (hx.2 ▸ e), fun e => by rw [e]; rfl⟩
  pzero := Divisor3.zero h
  padd _ _ := Divisor3.add h

theorem first_embeds (h : Rounding val u) : Embeds (fun x : (β × K) × K => x.1.1) (Divisor3 val u) where
  zero := rfl
  one := rfl
  add _ _ := rfl
  mul _ _ := rfl
  div _ _ _ _ := rfl
  eq_zero x hx := ⟨fun e => hx.ext_zero h ((hx.1.fst_zero h).1 e), fun e => by rw [e]; rfl⟩
  pzero := Divisor3.zero h
  padd _ _ := Divisor3.add h

/-! ## The factors of the solver: normalised or taken as they are -/

section Kind

variable {γ : Type} [Zero γ] [One γ] [Add γ] [Mul γ] [Div γ] [DecidableEq γ] {S T : γ → Prop}

theorem goSum_keeps (h0 : S 0) (ha : ∀ a b, S a → S b → S (a + b)) {l : List γ} (hl : ∀ x ∈ l, S x) : S (goSum l) := by
  have key : ∀ (l : List γ) (acc : γ), (∀ x ∈ l, S x) → S acc → S (l.foldl (· + ·) acc) := by
    intro l
    induction l with
    | nil => intro acc _ h; exact h
    | cons x l ih => intro acc hx h; exact ih _ (fun y hy => hx y (List.mem_cons_of_mem _ hy)) (ha _ _ h (hx x List.mem_cons_self))
  exact key l 0 hl h0

theorem normBins_keeps (h0 : S 0) (ha : ∀ a b, S a → S b → S (a + b)) (hd : ∀ a b, S a → S b → S (a / b)) (k : Nat) :
    ∀ (m : Nat) (l : List γ), (∀ x ∈ l, S x) → ∀ x ∈ normBins k m l, S x := by
  intro m
  induction m with
  | zero => intro l hl x hx; exact hl x hx
  | succ m ih =>
    intro l hl x hx
    rw [normBins] at hx
    rcases List.mem_append.1 hx with hx | hx
    · have ht : ∀ y ∈ l.take k, S y := fun y hy => hl y (List.mem_of_mem_take hy)
      unfold normBin at hx
      dsimp only at hx
      split_ifs at hx
      · exact ht x hx
      · obtain ⟨y, hy, rfl⟩ := List.mem_map.1 hx
        exact hd _ _ (ht y hy) (goSum_keeps h0 ha ht)
    · exact ih _ (fun y hy => hl y (List.mem_of_mem_drop hy)) x hx

/-- Every factor has only entries of one kind or only of the other. -/
def OneKind (S T : γ → Prop) (f : Factor γ) : Prop := (∀ x ∈ f.data, S x) ∨ ∀ x ∈ f.data, T x

theorem addTable_kind (h0 : S 0) (ha : ∀ a b, S a → S b → S (a + b)) (hd : ∀ a b, S a → S b → S (a / b)) (hT0 : T 0)
    {n : Net γ} {names : List (String × NVar × Var)} {st st' : List (Factor γ) × List (Var × List Var) × Vs}
    {f : NFactor γ} (hf : ∀ x ∈ f.tab, T x)
    (hc : f.forVar ≠ n.totalName → ∀ e, mapGet names f.forVar = some e → e.1.nodeType = .chance → ∀ x ∈ f.tab, S x)
    (hr : n.addTable names st f = .ok st') (hs : ∀ g ∈ st.1, OneKind S T g) : ∀ g ∈ st'.1, OneKind S T g := by
  unfold Net.addTable at hr
  by_cases ht : f.forVar = n.totalName
  · rw [if_pos ht] at hr
    cases hr
    exact hs
  rw [if_neg ht] at hr
  cases hm : mapGet names f.forVar with
  | none => rw [hm] at hr; cases hr
  | some e =>
    rw [hm] at hr
    dsimp only at hr
    obtain ⟨given, _, hr⟩ := ok_inv hr
    by_cases h1 : e.2.nodeType = .decision
    · rw [if_pos h1] at hr
      cases hr
      exact hs
    rw [if_neg h1] at hr
    by_cases h2 : e.1.nodeType = .decision
    · rw [if_pos h2] at hr
      cases hr
      exact hs
    rw [if_neg h2] at hr
    obtain ⟨a, hca, hr⟩ := ok_inv hr
    by_cases h3 : e.1.nodeType = .chance
    · rw [if_pos h3] at hr
      obtain ⟨b, hb, hr⟩ := ok_inv hr
      cases hr
      intro g hg
      rcases List.mem_append.1 hg with hg | hg
      · exact hs g hg
      rw [List.mem_singleton.1 hg]
      left
      have hS : ∀ x ∈ a.1.data, S x := by
        intro x hx
        rcases createFactor_data hca x hx with rfl | hx
        · exact h0
        · exact hc ht e hm h3 x hx
      unfold Vs.normalizeFor at hb
      cases hi : firstIdx e.2.id a.1.vars with
      | none => rw [hi] at hb; cases hb
      | some idx =>
        rw [hi] at hb
        dsimp only at hb
        obtain ⟨w, _, hb⟩ := ok_inv hb
        obtain ⟨c, hc, hb⟩ := ok_inv hb
        split_ifs at hb
        cases hb
        exact normBins_keeps h0 ha hd _ _ _ (fun x hx => hS x (rearrange_mem hc x hx))
    · rw [if_neg h3] at hr
      cases hr
      intro g hg
      rcases List.mem_append.1 hg with hg | hg
      · exact hs g hg
      rw [List.mem_singleton.1 hg]
      right
      intro x hx
      rcases createFactor_data hca x hx with rfl | hx
      · exact hT0
      · exact hf x hx

theorem addTables_kind (h0 : S 0) (ha : ∀ a b, S a → S b → S (a + b)) (hd : ∀ a b, S a → S b → S (a / b)) (hT0 : T 0)
    {n : Net γ} {names : List (String × NVar × Var)} :
    ∀ (l : List (NFactor γ)) (st st' : List (Factor γ) × List (Var × List Var) × Vs), (∀ f ∈ l, ∀ x ∈ f.tab, T x) →
    (∀ f ∈ l, f.forVar ≠ n.totalName → ∀ e, mapGet names f.forVar = some e → e.1.nodeType = .chance →
      ∀ x ∈ f.tab, S x) →
    l.foldlM (n.addTable names) st = .ok st' → (∀ g ∈ st.1, OneKind S T g) → ∀ g ∈ st'.1, OneKind S T g := by
  intro l
  induction l with
  | nil => intro st st' _ _ hr hs; cases hr; exact hs
  | cons f l ih =>
    intro st st' hf hc hr hs
    rw [List.foldlM_cons] at hr
    obtain ⟨st1, h1, hr⟩ := ok_inv hr
    exact ih st1 st' (fun g hg => hf g (List.mem_cons_of_mem _ hg)) (fun g hg => hc g (List.mem_cons_of_mem _ hg)) hr
      (addTable_kind h0 ha hd hT0 (hf f List.mem_cons_self) (hc f List.mem_cons_self) h1 hs)

theorem policyFactors_kind {n : Net γ} {ids : List (NVar × Var)} {evidence : List (String × String)} :
    ∀ (ps : List (String × Factor γ)) (vs : Vs) (a : List (Factor γ) × Vs), (∀ p ∈ ps, ∀ x ∈ p.2.data, S x) →
    n.policyFactors ids evidence ps vs = .ok a → ∀ g ∈ a.1, OneKind S T g := by
  intro ps
  induction ps with
  | nil => intro vs a _ hr; cases hr; simp
  | cons p ps ih =>
    intro vs a hp hr
    rw [Net.policyFactors] at hr
    by_cases he : (mapGet evidence p.1).isSome
    · rw [if_pos he] at hr
      exact ih vs a (fun q hq => hp q (List.mem_cons_of_mem _ hq)) hr
    · rw [if_neg he] at hr
      obtain ⟨vars, _, hr⟩ := ok_inv hr
      obtain ⟨c, hc, hr⟩ := ok_inv hr
      obtain ⟨d, hd, hr⟩ := ok_inv hr
      cases hr
      have e := createFactor_data_eq hc
      intro g hg
      rcases List.mem_cons.1 hg with rfl | hg
      · left
        rw [e]
        exact hp p List.mem_cons_self
      · exact ih c.2 d (fun q hq => hp q (List.mem_cons_of_mem _ hq)) hd g hg

theorem toVE_kind (h0 : S 0) (ha : ∀ a b, S a → S b → S (a + b)) (hd : ∀ a b, S a → S b → S (a / b)) (hT0 : T 0)
    {n : Net γ} (s : NSched γ) (k : Nat) (hf : ∀ f ∈ n.factors, ∀ x ∈ f.tab, T x) (hn : n.ChanceEntries S)
    (hp : ∀ p ∈ n.policies, ∀ x ∈ p.2.data, S x) (evidence : List (String × String))
    {a : VE γ × List (String × NVar × Var)} (hr : n.toVE s k evidence = .ok a) :
    (∀ g ∈ a.1.factors, OneKind S T g) ∧ n.utilityWeights = .ok a.1.weights := by
  unfold Net.toVE at hr
  obtain ⟨v, hv, hr⟩ := ok_inv hr
  obtain ⟨t, ht, hr⟩ := ok_inv hr
  obtain ⟨p, hpf, hr⟩ := ok_inv hr
  obtain ⟨w, hw, hr⟩ := ok_inv hr
  cases hr
  have t1 := addTables_kind h0 ha hd hT0 n.factors ([], [], v.2) t hf
    (fun f hf' h1 e h2 h3 => hn v.1 v.2 hv f hf' h1 e h2 h3) ht (by simp)
  have p1 := policyFactors_kind (T := T) _ _ p (fun q hq => hp q ((s.pol_perm k n.policies).subset hq)) hpf
  refine ⟨fun g hg => ?_, hw⟩
  rcases foldl_insert_mem _ _ g hg with hg | hg
  · simp at hg
  · rcases List.mem_append.1 hg with hg | hg
    · exact t1 g hg
    · exact p1 g hg

end Kind

end Bbn
