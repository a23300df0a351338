import Verif.Lemmas.Tuple
import Verif.Lemmas.Product
import Verif.Spec.SumOver
import Mathlib.Algebra.BigOperators.Group.Finset.Basic
import Mathlib.Algebra.BigOperators.Group.Finset.Piecewise
import Mathlib.Algebra.BigOperators.Group.Finset.Sigma

/-!
# Lemmas on `Restrict`, `SumOut` and `Marginal`
-/

set_option autoImplicit false

namespace Bbn

open Finset

variable {α : Type _}

theorem goSet_ok {β : Type _} {l : List β} {i : Nat} {x : β} (h : i < l.length) : goSet l i x = .ok (l.set i x) :=
  if_pos h

theorem getD_set [Zero α] {l : List α} {i j : Nat} {x : α} (h : i < l.length) :
    (l.set i x).getD j 0 = if i = j then x else l.getD j 0 := by
  simp only [List.getD_eq_getElem?_getD, List.getElem?_set]
  split
  · rename_i e; subst e; simp
  · rfl

theorem drop_cons {l : List α} [Zero α] {k : Nat} (h : k < l.length) : l.drop k = l.getD k 0 :: l.drop (k + 1) := by
  rw [List.drop_eq_getElem_cons h, List.getD_eq_getElem?_getD, List.getElem?_eq_getElem h]; rfl

theorem restrictLoop_spec [Zero α] {vars : List Var} {p obs : Nat} {w : Var}
    (hp : vars[p]? = some w) (hobs : obs < w.outcomes) (data : List α) (hd : data.length = size vars) :
    ∀ (n k : Nat) (new : List α), k + n = size vars → new.length = size (vars.eraseIdx p) →
      (∀ t', InRange (vars.eraseIdx p) t' → new.getD (flatIndex (vars.eraseIdx p) t') 0 =
        if flatIndex vars (t'.insertIdx p obs) < k then data.getD (flatIndex vars (t'.insertIdx p obs)) 0 else 0) →
      ∃ d, restrictLoop vars (vars.eraseIdx p) p obs (data.drop k) (outcomesOf vars k) new = .ok d ∧
        d.length = size (vars.eraseIdx p) ∧
        ∀ t', InRange (vars.eraseIdx p) t' → d.getD (flatIndex (vars.eraseIdx p) t') 0 =
          data.getD (flatIndex vars (t'.insertIdx p obs)) 0
  | 0, k, new, hk, hl, hinv => by
    refine ⟨new, ?_, hl, ?_⟩
    · rw [List.drop_eq_nil_of_le (by omega)]; rfl
    · intro t' ht'
      have := flatIndex_lt (inRange_insertIdx hp ht' hobs)
      rw [hinv t' ht', if_pos (by omega)]
  | n + 1, k, new, hk, hl, hinv => by
    have hlt : k < size vars := by omega
    have hr := outcomesOf_inRange hlt
    have hpl := (List.getElem?_eq_some_iff.1 hp).1
    rw [drop_cons (by omega), restrictLoop, increment_outcomesOf hlt]
    have hget : (outcomesOf vars k)[p]? = some ((outcomesOf vars k)[p]'(by rw [outcomesOf_length]; exact hpl)) :=
      List.getElem?_eq_getElem _
    set o := (outcomesOf vars k)[p]'(by rw [outcomesOf_length]; exact hpl) with ho
    rw [goGet_eq.2 hget, ok_bind]
    have herase := inRange_eraseIdx hr p
    by_cases hc : o = obs
    · have hj := flatIndex_lt herase
      rw [if_pos hc, varsIndex_ok herase.length, ok_bind, goSet_ok (by omega), ok_bind]
      apply restrictLoop_spec hp hobs data hd n (k + 1) _ (by omega) (by simpa using hl)
      intro t' ht'
      rw [getD_set (by omega), hinv t' ht']
      by_cases e : t'.insertIdx p obs = outcomesOf vars k
      · have e' := (insertIdx_eq_iff hp (outcomesOf_length _ _) ht'.length).1 e
        rw [if_pos (by rw [← e'.1]), e, flatIndex_outcomesOf hlt, if_pos (by omega)]
      · have hne : flatIndex vars (t'.insertIdx p obs) ≠ k := by
          intro e2; apply e
          have := outcomesOf_flatIndex (inRange_insertIdx hp ht' hobs)
          rw [e2] at this; exact this.symm
        have hne2 : flatIndex (vars.eraseIdx p) ((outcomesOf vars k).eraseIdx p) ≠ flatIndex (vars.eraseIdx p) t' := by
          intro e2
          apply e
          rw [insertIdx_eq_iff hp (outcomesOf_length _ _) ht'.length]
          exact ⟨(flatIndex_inj herase ht' e2).symm, by rw [hget, hc]⟩
        rw [if_neg hne2]
        congr 1
        apply propext; omega
    · rw [if_neg hc]
      show ∃ d, restrictLoop _ _ _ _ _ _ new = _ ∧ _
      apply restrictLoop_spec hp hobs data hd n (k + 1) _ (by omega) hl
      intro t' ht'
      rw [hinv t' ht']
      have hne : flatIndex vars (t'.insertIdx p obs) ≠ k := by
        intro e2
        have := outcomesOf_flatIndex (inRange_insertIdx hp ht' hobs)
        rw [e2] at this
        have e' := (insertIdx_eq_iff hp (outcomesOf_length _ _) ht'.length).1 this.symm
        rw [hget] at e'
        exact hc (by simpa using e'.2)
      congr 1
      apply propext; omega

/-- `Restrict` on a well-formed factor that contains the variable. -/
theorem restrict_spec [Zero α] (s : Vs) (f : Factor α) (hf : f.WF) (v : Var) (hv : v ∈ f.vars) (obs : Nat)
    (hobs : obs < v.outcomes) :
    ∃ g : Factor α, s.restrict f v obs = .ok (g, { s with factorCounter := s.factorCounter + 1 }) ∧
      g.WF ∧ g.id = s.factorCounter ∧ g.vars = otherVars v.id f.vars ∧
      ∀ σ, Fits σ g.vars → g.val σ = f.val (σ.upd v.id obs) := by
  obtain ⟨p, hp⟩ := mem_ids_lastIdx (List.mem_map_of_mem (f := Var.id) hv)
  obtain ⟨w, hw, hid⟩ := lastIdx_some hp
  have hwv : w = v := coherent_of_nodup hf.nodup w (List.mem_of_getElem? hw) v hv hid
  subst hwv
  have ho := otherVars_eq_eraseIdx hf.nodup hw
  obtain ⟨d, h1, h2, h3⟩ := restrictLoop_spec hw hobs f.data hf.len (size f.vars) 0
    (List.replicate (size (f.vars.eraseIdx p)) 0) (by omega) (by simp)
    (by
      intro t' ht'
      have := flatIndex_lt ht'
      simp [List.getD_eq_getElem?_getD, this])
  refine ⟨⟨s.factorCounter, d, otherVars w.id f.vars⟩, ?_, ⟨?_, otherVars_nodup hf.nodup⟩, rfl, rfl, ?_⟩
  · unfold Vs.restrict
    rw [if_neg (by omega), hp]
    simp only [Vs.createFactor, ok_bind, ho, Int.toNat_natCast]
    rw [outcomesOf_zero, List.drop_zero] at h1
    rw [h1]; rfl
  · simpa [ho] using h2
  · intro σ hσ
    simp only [Factor.val, ho] at hσ ⊢
    rw [h3 _ (tupleOf_inRange hσ), tupleOf_upd hf.nodup hw]

theorem sumOutLoop_spec [AddCommMonoid α] {vars : List Var} {p : Nat} {w : Var}
    (hp : vars[p]? = some w) (data : List α) (hd : data.length = size vars) :
    ∀ (n k : Nat) (new : List α), k + n = size vars → new.length = size (vars.eraseIdx p) →
      (∀ t', InRange (vars.eraseIdx p) t' → new.getD (flatIndex (vars.eraseIdx p) t') 0 =
        ∑ c ∈ range w.outcomes,
          if flatIndex vars (t'.insertIdx p c) < k then data.getD (flatIndex vars (t'.insertIdx p c)) 0 else 0) →
      ∃ d, sumOutLoop vars (vars.eraseIdx p) p (data.drop k) (outcomesOf vars k) new = .ok d ∧
        d.length = size (vars.eraseIdx p) ∧
        ∀ t', InRange (vars.eraseIdx p) t' → d.getD (flatIndex (vars.eraseIdx p) t') 0 =
          ∑ c ∈ range w.outcomes, data.getD (flatIndex vars (t'.insertIdx p c)) 0
  | 0, k, new, hk, hl, hinv => by
    refine ⟨new, ?_, hl, ?_⟩
    · rw [List.drop_eq_nil_of_le (by omega)]; rfl
    · intro t' ht'
      rw [hinv t' ht']
      apply Finset.sum_congr rfl
      intro c hc
      have := flatIndex_lt (inRange_insertIdx hp ht' (by simpa using hc))
      rw [if_pos (by omega)]
  | n + 1, k, new, hk, hl, hinv => by
    have hlt : k < size vars := by omega
    have hr := outcomesOf_inRange hlt
    have hpl := (List.getElem?_eq_some_iff.1 hp).1
    have hget : (outcomesOf vars k)[p]? = some ((outcomesOf vars k)[p]'(by rw [outcomesOf_length]; exact hpl)) :=
      List.getElem?_eq_getElem _
    set o := (outcomesOf vars k)[p]'(by rw [outcomesOf_length]; exact hpl) with ho
    have hoR : o < w.outcomes := by
      have h := List.forall₂_iff_get.1 hr
      have := h.2 p hpl (by rw [outcomesOf_length]; exact hpl)
      simp only [List.get_eq_getElem] at this
      have e := (List.getElem?_eq_some_iff.1 hp).2
      rw [e] at this; exact this
    have herase := inRange_eraseIdx hr p
    have hj := flatIndex_lt herase
    rw [drop_cons (by omega), sumOutLoop, increment_outcomesOf hlt, varsIndex_ok herase.length, ok_bind]
    have hg : goGet new (flatIndex (vars.eraseIdx p) ((outcomesOf vars k).eraseIdx p)) =
        .ok (new.getD (flatIndex (vars.eraseIdx p) ((outcomesOf vars k).eraseIdx p)) 0) := by
      rw [goGet_eq, List.getD_eq_getElem?_getD, List.getElem?_eq_getElem (by omega)]; rfl
    rw [hg, ok_bind, goSet_ok (by omega), ok_bind]
    apply sumOutLoop_spec hp data hd n (k + 1) _ (by omega) (by simpa using hl)
    intro t' ht'
    rw [getD_set (by omega)]
    by_cases e : t' = (outcomesOf vars k).eraseIdx p
    · rw [if_pos (by rw [e]), hinv _ herase, e]
      have hins : ((outcomesOf vars k).eraseIdx p).insertIdx p o = outcomesOf vars k := insertIdx_eraseIdx_self hget
      have : ∀ c ∈ range w.outcomes,
          (if flatIndex vars (((outcomesOf vars k).eraseIdx p).insertIdx p c) < k + 1 then
            data.getD (flatIndex vars (((outcomesOf vars k).eraseIdx p).insertIdx p c)) 0 else 0) =
          (if flatIndex vars (((outcomesOf vars k).eraseIdx p).insertIdx p c) < k then
            data.getD (flatIndex vars (((outcomesOf vars k).eraseIdx p).insertIdx p c)) 0 else 0) +
          (if c = o then data.getD k 0 else 0) := by
        intro c hc
        by_cases eco : c = o
        · subst eco
          simp only [hins, flatIndex_outcomesOf hlt]
          simp
        · have hne : flatIndex vars (((outcomesOf vars k).eraseIdx p).insertIdx p c) ≠ k := by
            intro e2
            have := outcomesOf_flatIndex (inRange_insertIdx hp herase (by simpa using hc))
            rw [e2] at this
            have e' := (insertIdx_eq_iff hp (outcomesOf_length _ _) herase.length).1 this.symm
            rw [hget] at e'
            exact eco (by simpa using e'.2.symm)
          rw [if_neg eco, add_zero]
          congr 1
          apply propext; omega
      rw [Finset.sum_congr rfl this, Finset.sum_add_distrib, Finset.sum_ite_eq' (range w.outcomes) o,
        if_pos (by simpa using hoR)]
    · rw [if_neg (fun e2 => e (flatIndex_inj herase ht' e2).symm), hinv t' ht']
      apply Finset.sum_congr rfl
      intro c hc
      have hne : flatIndex vars (t'.insertIdx p c) ≠ k := by
        intro e2
        have := outcomesOf_flatIndex (inRange_insertIdx hp ht' (by simpa using hc))
        rw [e2] at this
        exact e ((insertIdx_eq_iff hp (outcomesOf_length _ _) ht'.length).1 this.symm).1
      congr 1
      apply propext; omega

/-- `SumOut` on a well-formed factor that contains the variable (by ID). -/
theorem sumOut_spec [AddCommMonoid α] (s : Vs) (f : Factor α) (hf : f.WF) (v : Var)
    (w : Var) (hw : w ∈ f.vars) (hid : w.id = v.id) :
    ∃ g : Factor α, s.sumOut f v = .ok (g, { s with factorCounter := s.factorCounter + 1 }) ∧
      g.WF ∧ g.id = s.factorCounter ∧ g.vars = otherVars v.id f.vars ∧
      ∀ σ, Fits σ g.vars → g.val σ = ∑ k ∈ range w.outcomes, f.val (σ.upd v.id k) := by
  obtain ⟨p, hp⟩ := mem_ids_lastIdx (hid ▸ List.mem_map_of_mem (f := Var.id) hw)
  obtain ⟨w', hw', hid'⟩ := lastIdx_some hp
  have hww : w' = w := coherent_of_nodup hf.nodup w' (List.mem_of_getElem? hw') w hw (hid'.trans hid.symm)
  subst hww
  have ho := otherVars_eq_eraseIdx hf.nodup hw'
  rw [hid'] at ho
  obtain ⟨d, h1, h2, h3⟩ := sumOutLoop_spec hw' f.data hf.len (size f.vars) 0
    (List.replicate (size (f.vars.eraseIdx p)) 0) (by omega) (by simp)
    (by
      intro t' ht'
      have := flatIndex_lt ht'
      simp [List.getD_eq_getElem?_getD, this])
  refine ⟨⟨s.factorCounter, d, otherVars v.id f.vars⟩, ?_, ⟨?_, otherVars_nodup hf.nodup⟩, rfl, rfl, ?_⟩
  · unfold Vs.sumOut
    rw [hp]
    simp only [Vs.createFactor, ok_bind, ho]
    rw [outcomesOf_zero, List.drop_zero] at h1
    rw [h1]; rfl
  · simpa [ho] using h2
  · intro σ hσ
    simp only [Factor.val, ho] at hσ ⊢
    rw [h3 _ (tupleOf_inRange hσ)]
    apply Finset.sum_congr rfl
    intro c _
    rw [← hid', tupleOf_upd hf.nodup hw']

theorem marginalLoop_spec [AddCommMonoid α] {vars : List Var} {p m : Nat} {w : Var}
    (hp : vars[p]? = some w) (hm : w.outcomes ≤ m) (data : List α) (hd : data.length = size vars) :
    ∀ (n k : Nat) (new : List α), k + n = size vars → new.length = m →
      (∀ c, c < m → new.getD c 0 =
        ∑ j ∈ range k, if (outcomesOf vars j)[p]? = some c then data.getD j 0 else 0) →
      ∃ d, marginalLoop vars p (data.drop k) (outcomesOf vars k) new = .ok d ∧ d.length = m ∧
        ∀ c, c < m → d.getD c 0 =
          ∑ j ∈ range (size vars), if (outcomesOf vars j)[p]? = some c then data.getD j 0 else 0
  | 0, k, new, hk, hl, hinv => by
    refine ⟨new, ?_, hl, ?_⟩
    · rw [List.drop_eq_nil_of_le (by omega)]; rfl
    · intro c hc
      rw [hinv c hc]; simp only [Nat.add_zero] at hk; rw [hk]
  | n + 1, k, new, hk, hl, hinv => by
    have hlt : k < size vars := by omega
    have hr := outcomesOf_inRange hlt
    have hpl := (List.getElem?_eq_some_iff.1 hp).1
    have hget : (outcomesOf vars k)[p]? = some ((outcomesOf vars k)[p]'(by rw [outcomesOf_length]; exact hpl)) :=
      List.getElem?_eq_getElem _
    set o := (outcomesOf vars k)[p]'(by rw [outcomesOf_length]; exact hpl) with ho
    have hoR : o < w.outcomes := by
      have h := List.forall₂_iff_get.1 hr
      have := h.2 p hpl (by rw [outcomesOf_length]; exact hpl)
      simp only [List.get_eq_getElem] at this
      have e := (List.getElem?_eq_some_iff.1 hp).2
      rw [e] at this; exact this
    rw [drop_cons (by omega), marginalLoop, increment_outcomesOf hlt, goGet_eq.2 hget, ok_bind]
    have hg : goGet new o = .ok (new.getD o 0) := by
      rw [goGet_eq, List.getD_eq_getElem?_getD, List.getElem?_eq_getElem (by omega)]; rfl
    rw [hg, ok_bind, goSet_ok (by omega), ok_bind]
    apply marginalLoop_spec hp hm data hd n (k + 1) _ (by omega) (by simpa using hl)
    intro c hc
    rw [getD_set (by omega), Finset.sum_range_succ, hget, ← hinv c hc]
    by_cases e : o = c
    · subst e; simp
    · have : ¬ (some o = some c) := by simpa using e
      simp [e]

/-- Nested sum over all in-range tuples. -/
def tsum [AddCommMonoid α] : List Var → (List Nat → α) → α
  | [], G => G []
  | v :: vs, G => ∑ c ∈ range v.outcomes, tsum vs (fun t => G (c :: t))

theorem sum_range_mul [AddCommMonoid α] (a b : Nat) (g : Nat → α) :
    ∑ k ∈ range (a * b), g k = ∑ c ∈ range a, ∑ k ∈ range b, g (c * b + k) := by
  induction a with
  | zero => simp
  | succ a ih => rw [Nat.succ_mul, Finset.sum_range_add, ih, Finset.sum_range_succ]

theorem sum_range_tsum [AddCommMonoid α] (vs : List Var) (G : List Nat → α) :
    ∑ k ∈ range (size vs), G (outcomesOf vs k) = tsum vs G := by
  induction vs generalizing G with
  | nil => simp [size, tsum, outcomesOf_nil, -Finset.sum_const]
  | cons v vs ih =>
    rw [size, sum_range_mul, tsum]
    apply Finset.sum_congr rfl
    intro c hc
    rw [← ih]
    apply Finset.sum_congr rfl
    intro k hk
    have hk' : k < size vs := by simpa using hk
    have hc' : c < v.outcomes := by simpa using hc
    rw [outcomesOf_cons, outcomesOf_add_mul]
    congr 2
    rw [Nat.add_comm, Nat.add_mul_div_right _ _ (by omega), Nat.div_eq_of_lt hk', Nat.zero_add,
      Nat.mod_eq_of_lt hc']

theorem tsum_congr [AddCommMonoid α] {vs : List Var} {G H : List Nat → α} (h : ∀ t, InRange vs t → G t = H t) :
    tsum vs G = tsum vs H := by
  induction vs generalizing G H with
  | nil => exact h [] inRange_nil
  | cons v vs ih =>
    apply Finset.sum_congr rfl
    intro c hc
    exact ih (fun t ht => h _ (inRange_cons.2 ⟨by simpa using hc, ht⟩))

theorem tsum_zero [AddCommMonoid α] (vs : List Var) : tsum vs (fun _ => (0 : α)) = 0 := by
  induction vs with
  | nil => rfl
  | cons v vs ih => simp [tsum, ih]

theorem tsum_sum [AddCommMonoid α] {ι : Type _} (s : Finset ι) (vs : List Var) (G : ι → List Nat → α) :
    tsum vs (fun t => ∑ i ∈ s, G i t) = ∑ i ∈ s, tsum vs (G i) := by
  induction vs generalizing G with
  | nil => rfl
  | cons v vs ih => simp only [tsum, ih]; rw [Finset.sum_comm]

/-- Fixing one position of the tuple: the sum over the remaining positions. -/
theorem tsum_fix [AddCommMonoid α] {vs : List Var} {p : Nat} {w : Var} (hp : vs[p]? = some w) {c : Nat}
    (hc : c < w.outcomes) (G : List Nat → α) :
    tsum vs (fun t => if t[p]? = some c then G t else 0) = tsum (vs.eraseIdx p) (fun t => G (t.insertIdx p c)) := by
  induction vs generalizing p G with
  | nil => simp at hp
  | cons v vs ih =>
    cases p with
    | zero =>
      simp at hp; subst hp
      simp only [tsum, List.getElem?_cons_zero, List.eraseIdx_cons_zero, List.insertIdx_zero, Option.some.injEq]
      rw [Finset.sum_eq_single c]
      · simp
      · intro b _ hb; simp [hb, tsum_zero]
      · intro h; exact absurd (by simpa using hc) h
    | succ p =>
      simp at hp
      simp only [tsum, List.getElem?_cons_succ, List.eraseIdx_cons_succ, List.insertIdx_succ_cons]
      apply Finset.sum_congr rfl
      intro b _
      exact ih hp (fun t => G (b :: t))

theorem sumOver_congr [AddCommMonoid α] {vs : List Var} {F G : Assignment → α} {σ : Assignment}
    (h : ∀ τ, (∀ i, i ∉ vs.map Var.id → τ i = σ i) → Fits τ vs → F τ = G τ) (hn : (vs.map Var.id).Nodup) :
    sumOver vs F σ = sumOver vs G σ := by
  induction vs generalizing σ with
  | nil => exact h σ (fun _ _ => rfl) (by simp [Fits])
  | cons v vs ih =>
    simp only [List.map_cons, List.nodup_cons] at hn
    apply Finset.sum_congr rfl
    intro k hk
    refine ih (fun τ h1 h2 => h τ ?_ ?_) hn.2
    · intro i hi
      simp only [List.map_cons, List.mem_cons, not_or] at hi
      rw [h1 i hi.2]; simp [Assignment.upd, hi.1]
    · intro u hu
      rcases List.mem_cons.1 hu with rfl | hu
      · rw [h1 u.id hn.1]; simpa [Assignment.upd] using hk
      · exact h2 u hu

/-- `sumOver` only depends on the assignment outside the summed variables. -/
theorem sumOver_upd_mem [AddCommMonoid α] {vs : List Var} {F : Assignment → α} {σ : Assignment} {i c : Nat}
    (h : i ∈ vs.map Var.id) : sumOver vs F (σ.upd i c) = sumOver vs F σ := by
  induction vs generalizing σ with
  | nil => simp at h
  | cons v vs ih =>
    apply Finset.sum_congr rfl
    intro k _
    by_cases e : v.id = i
    · rw [e, upd_upd_same]
    · simp only [List.map_cons, List.mem_cons] at h
      rcases h with h | h
      · exact absurd h.symm e
      · rw [upd_comm _ (fun e' => e e'.symm), ih h]

theorem sumOver_eq_tsum [AddCommMonoid α] {vs : List Var} (hn : (vs.map Var.id).Nodup) (F : Assignment → α)
    (σ : Assignment) (H : List Nat → α)
    (h : ∀ τ, (∀ i, i ∉ vs.map Var.id → τ i = σ i) → Fits τ vs → F τ = H (tupleOf vs τ)) :
    sumOver vs F σ = tsum vs H := by
  induction vs generalizing σ H with
  | nil => exact h σ (fun _ _ => rfl) (by simp [Fits])
  | cons v vs ih =>
    simp only [List.map_cons, List.nodup_cons] at hn
    apply Finset.sum_congr rfl
    intro k hk
    refine ih hn.2 _ _ (fun τ h1 h2 => ?_)
    have hv : τ v.id = k := by rw [h1 v.id hn.1]; simp [Assignment.upd]
    rw [h τ]
    · simp [tupleOf, hv]
    · intro i hi
      simp only [List.map_cons, List.mem_cons, not_or] at hi
      rw [h1 i hi.2]; simp [Assignment.upd, hi.1]
    · intro u hu
      rcases List.mem_cons.1 hu with rfl | hu
      · rw [hv]; simpa using hk
      · exact h2 u hu

/-- `Marginal` on a well-formed factor that contains the variable. -/
theorem marginal_spec [AddCommMonoid α] (s : Vs) (f : Factor α) (hf : f.WF) (v : Var) (hv : v ∈ f.vars) :
    ∃ g : Factor α, s.marginal f v = .ok (g, { s with factorCounter := s.factorCounter + 1 }) ∧
      g.WF ∧ g.id = s.factorCounter ∧ g.vars = [v] ∧
      ∀ σ, Fits σ g.vars → g.val σ = sumOver (otherVars v.id f.vars) f.val σ := by
  obtain ⟨p, hp⟩ := mem_ids_firstIdx (List.mem_map_of_mem (f := Var.id) hv)
  obtain ⟨w, hw, hid⟩ := firstIdx_some hp
  have hwv : w = v := coherent_of_nodup hf.nodup w (List.mem_of_getElem? hw) v hv hid
  subst hwv
  have ho := otherVars_eq_eraseIdx hf.nodup hw
  obtain ⟨d, h1, h2, h3⟩ := marginalLoop_spec hw (le_refl _) f.data hf.len (size f.vars) 0
    (List.replicate w.outcomes 0) (by omega) (by simp)
    (by intro c hc; simp [List.getD_eq_getElem?_getD, hc])
  have hsz : size [w] = w.outcomes := by simp [size]
  refine ⟨⟨s.factorCounter, d, [w]⟩, ?_, ⟨by simpa [hsz] using h2, by simp⟩, rfl, rfl, ?_⟩
  · unfold Vs.marginal
    rw [hp]
    simp only [Vs.createFactor, ok_bind, hsz]
    rw [outcomesOf_zero, List.drop_zero] at h1
    rw [h1]; rfl
  · intro σ hσ
    have hc : σ w.id < w.outcomes := hσ w (by simp)
    have : flatIndex [w] (tupleOf [w] σ) = σ w.id := by
      simp [tupleOf, flatIndex, indexLoop]
    simp only [Factor.val, this]
    rw [h3 _ hc]
    have e : ∀ j ∈ range (size f.vars),
        (if (outcomesOf f.vars j)[p]? = some (σ w.id) then f.data.getD j 0 else 0) =
        (fun t => if t[p]? = some (σ w.id) then f.data.getD (flatIndex f.vars t) 0 else 0) (outcomesOf f.vars j) := by
      intro j hj
      have hj' : j < size f.vars := by simpa using hj
      simp only [flatIndex_outcomesOf hj']
    rw [Finset.sum_congr rfl e,
      sum_range_tsum f.vars (fun t => if t[p]? = some (σ w.id) then f.data.getD (flatIndex f.vars t) 0 else 0),
      tsum_fix hw hc (fun t => f.data.getD (flatIndex f.vars t) 0)]
    symm
    rw [← ho]
    apply sumOver_eq_tsum (otherVars_nodup hf.nodup)
    · intro τ h4 _
      have hw' : w.id ∉ (otherVars w.id f.vars).map Var.id := by
        intro h; obtain ⟨u, hu, hu'⟩ := List.mem_map.1 h
        exact (mem_otherVars.1 hu).2 hu'
      have : τ = τ.upd w.id (σ w.id) := by rw [← h4 _ hw', upd_self]
      conv_lhs => rw [this]
      rw [Factor.val, tupleOf_upd hf.nodup hw, ho]

/-- The sum over all data of a well-formed factor. -/
theorem goSum_data [AddCommMonoid α] (f : Factor α) (hf : f.WF) (σ : Assignment) :
    goSum f.data = sumOver f.vars f.val σ := by
  have h1 : goSum f.data = ∑ k ∈ range f.data.length, f.data.getD k 0 := by
    have : ∀ (l : List α) (a : α), l.foldl (· + ·) a = a + ∑ k ∈ range l.length, l.getD k 0 := by
      intro l
      induction l with
      | nil => simp
      | cons x l ih =>
        intro a
        rw [List.foldl_cons, ih, List.length_cons, Finset.sum_range_succ']
        simp only [List.getD_cons_succ, List.getD_cons_zero]
        rw [add_assoc, add_comm x]
    have := this f.data 0
    rw [zero_add] at this
    exact this
  have e : ∀ j ∈ range (size f.vars), f.data.getD j 0 =
      (fun t => f.data.getD (flatIndex f.vars t) 0) (outcomesOf f.vars j) := by
    intro j hj
    have hj' : j < size f.vars := by simpa using hj
    simp only [flatIndex_outcomesOf hj']
  rw [h1, hf.len, Finset.sum_congr rfl e, sum_range_tsum f.vars (fun t => f.data.getD (flatIndex f.vars t) 0)]
  symm
  exact sumOver_eq_tsum hf.nodup _ _ _ (fun τ _ _ => rfl)

end Bbn
