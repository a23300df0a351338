import Verif.Lemmas.Hidden
import Verif.Spec.Decide
import Mathlib.Algebra.Order.BigOperators.Group.Finset

/-!
# Where the (possibly negative) utility is during elimination

All factors but one are non-negative. The exceptional one contains each variable that is linked to the utility.
-/

set_option autoImplicit false

namespace Bbn

open Finset

variable {α : Type}

/-- No entry is negative. -/
def Factor.NonNeg [Zero α] [LE α] (f : Factor α) : Prop := ∀ σ, Fits σ f.vars → 0 ≤ f.val σ

/-- All factors are non-negative, except perhaps one with the variables `U`. -/
def Signed [Zero α] [LE α] (fs : List (Factor α)) (U : Finset Nat) : Prop :=
  ∃ u rest, fs.Perm (u :: rest) ∧ scope u = U ∧ ∀ f ∈ rest, f.NonNeg

/-- Chains of scopes from `U` to a variable. -/
inductive LinkedS (S : Multiset (Finset Nat)) (U : Finset Nat) (H : Nat → Prop) : Nat → Prop
  | util {i : Nat} (h : i ∈ U) : LinkedS S U H i
  | step {s : Finset Nat} {j i : Nat} (hs : s ∈ S) (hj : j ∈ s) (hi : i ∈ s) (hH : H j) (hl : LinkedS S U H j) :
      LinkedS S U H i

theorem joint_nonneg [CommSemiring α] [PartialOrder α] [IsOrderedRing α] {fs : List (Factor α)} {σ : Assignment}
    (hs : FitsFs σ fs) (h : ∀ f ∈ fs, f.NonNeg) : 0 ≤ joint fs σ := by
  induction fs with
  | nil => simp [joint]
  | cons f fs ih =>
    have e : joint (f :: fs) σ = f.val σ * joint fs σ := by simp [joint]
    rw [e]
    exact mul_nonneg (h f (by simp) σ (hs f (by simp)))
      (ih (fun g hg => hs g (by simp [hg])) (fun g hg => h g (by simp [hg])))

theorem LinkedS.mono {S S' : Multiset (Finset Nat)} {U : Finset Nat} {H : Nat → Prop} {i : Nat} (hS : S ≤ S')
    (h : LinkedS S U H i) : LinkedS S' U H i := by
  induction h with
  | util h => exact .util h
  | step hs hj hi hH _ ih => exact .step (Multiset.mem_of_le hS hs) hj hi hH ih

/-- Eliminating a variable does not cut the links of the others. -/
theorem LinkedS.elim {S : Multiset (Finset Nat)} {U : Finset Nat} {H : Nat → Prop} {v i : Nat}
    (h : LinkedS S U H i) (hUS : U ∈ S) :
    let U' := if v ∈ U then mergedScope v S else U
    if i = v then v ∈ U ∨ ∃ j ∈ mergedScope v S, H j ∧ LinkedS (elimScopes v S) U' H j
    else LinkedS (elimScopes v S) U' H i := by
  intro U'
  have hmerge : ∀ s ∈ S, v ∈ s → ∀ j ∈ s, j ≠ v → j ∈ mergedScope v S := by
    intro s hs hv j hj hne
    unfold mergedScope
    rw [Finset.mem_erase]
    exact ⟨hne, mem_sup.2 ⟨s, Multiset.mem_filter.2 ⟨hs, hv⟩, hj⟩⟩
  have hmem : mergedScope v S ∈ elimScopes v S := by unfold elimScopes; simp
  induction h with
  | @util i h =>
    by_cases hiv : i = v
    · rw [if_pos hiv]; left; rw [← hiv]; exact h
    · rw [if_neg hiv]
      apply LinkedS.util
      by_cases hv : v ∈ U
      · have e : U' = mergedScope v S := if_pos hv
        rw [e]; exact hmerge U hUS hv i h hiv
      · have e : U' = U := if_neg hv
        rw [e]; exact h
  | @step s j i hs hj hi hH hl ih =>
    by_cases hvs : v ∈ s
    · by_cases hvU : v ∈ U
      · have e : U' = mergedScope v S := if_pos hvU
        by_cases hiv : i = v
        · rw [if_pos hiv]; exact .inl hvU
        · rw [if_neg hiv]
          apply LinkedS.util
          rw [e]; exact hmerge s hs hvs i hi hiv
      · -- a linked variable of the merged scope
        have hj' : ∃ j' ∈ mergedScope v S, H j' ∧ LinkedS (elimScopes v S) U' H j' := by
          by_cases hjv : j = v
          · rw [if_pos hjv] at ih
            exact ih.resolve_left hvU
          · rw [if_neg hjv] at ih
            exact ⟨j, hmerge s hs hvs j hj hjv, hH, ih⟩
        by_cases hiv : i = v
        · rw [if_pos hiv]; exact .inr hj'
        · rw [if_neg hiv]
          obtain ⟨j', m, hHj, hl'⟩ := hj'
          exact .step hmem m (hmerge s hs hvs i hi hiv) hHj hl'
    · have hiv : i ≠ v := fun e => hvs (e ▸ hi)
      have hjv : j ≠ v := fun e => hvs (e ▸ hj)
      rw [if_neg hiv]
      rw [if_neg hjv] at ih
      refine .step (s := s) ?_ hj hi hH ih
      unfold elimScopes
      simp [hs, hvs]

theorem Signed.scope_mem [Zero α] [LE α] {fs : List (Factor α)} {U : Finset Nat} (h : Signed fs U) : U ∈ scopes fs := by
  obtain ⟨u, rest, hp, rfl, _⟩ := h
  rw [scopes_perm hp]
  simp [scopes]

/-- The invariant survives elimination. -/
theorem Signed.elims [CommSemiring α] [PartialOrder α] [IsOrderedRing α] {hs : List Var} {fs fs' : List (Factor α)}
    (he : Elims hs fs fs') : ∀ {U : Finset Nat}, Signed fs U → ∃ U', Signed fs' U' ∧ ∀ (H : Nat → Prop) (i : Nat),
      i ∉ hs.map Var.id → LinkedS (scopes fs) U H i → LinkedS (scopes fs') U' H i := by
  induction he with
  | nil fs => intro U h; exact ⟨U, h, fun _ _ _ h => h⟩
  | @cons v w hs fs fs' g hid _ _ hsc hfit hval _ ih =>
    intro U h
    have hU := h.scope_mem
    obtain ⟨u, rest, hp, hu, hn⟩ := h
    set p : Factor α → Bool := fun f => v.id ∈ scope f with hpd
    have hscopes : scopes (fs.filter (fun f => decide (v.id ∉ scope f)) ++ [g]) = elimScopes v.id (scopes fs) := by
      have app : ∀ a b : List (Factor α), scopes (a ++ b) = scopes a + scopes b := by
        intro a b; simp [scopes]
      have hsf := scopes_filter fs v.id p (fun f _ => by simp [hpd])
      have e : fs.filter (fun f => decide (v.id ∉ scope f)) = fs.filter (fun f => !p f) :=
        List.filter_congr (fun f _ => by simp [hpd])
      rw [app, e, hsf.2, elimScopes]
      congr 1
      simp [scopes, hsc]
    have hnew : Signed (fs.filter (fun f => decide (v.id ∉ scope f)) ++ [g])
        (if v.id ∈ U then mergedScope v.id (scopes fs) else U) := by
      have hp2 := hp.filter (fun f => decide (v.id ∉ scope f))
      by_cases hv : v.id ∈ U
      · rw [if_pos hv]
        rw [List.filter_cons_of_neg (by simp [hu, hv])] at hp2
        exact ⟨g, rest.filter (fun f => decide (v.id ∉ scope f)), (hp2.append_right [g]).trans List.perm_append_comm,
          hsc, fun f hf => hn f (List.mem_filter.1 hf).1⟩
      · rw [if_neg hv]
        rw [List.filter_cons_of_pos (by simp [hu, hv])] at hp2
        refine ⟨u, rest.filter (fun f => decide (v.id ∉ scope f)) ++ [g], (hp2.append_right [g]), hu, ?_⟩
        intro f hf
        rcases List.mem_append.1 hf with hf | hf
        · exact hn f (List.mem_filter.1 hf).1
        · simp only [List.mem_singleton] at hf
          subst hf
          intro σ hσ
          rw [hval σ hσ]
          apply Finset.sum_nonneg
          intro k hk
          have hp3 := hp.filter (fun f => decide (v.id ∈ scope f))
          rw [List.filter_cons_of_neg (by simp [hu, hv])] at hp3
          refine joint_nonneg (hfit σ hσ k (by simpa using hk)) ?_
          intro f hf
          exact hn f (List.mem_filter.1 (hp3.subset hf)).1
    obtain ⟨U', h1, h2⟩ := ih hnew
    refine ⟨U', h1, ?_⟩
    intro H i hi hl
    simp only [List.map_cons, List.mem_cons, not_or] at hi
    refine h2 H i hi.2 ?_
    have := hl.elim (v := v.id) hU
    rw [hscopes]
    simpa [hi.1] using this

/-- If all variables are known, the exceptional factor contains each linked variable. -/
theorem LinkedS.mem {S : Multiset (Finset Nat)} {U : Finset Nat} {H : Nat → Prop} {i : Nat} (h : LinkedS S U H i)
    (hk : ∀ j, j ∈ S.sup → ¬ H j) : i ∈ U := by
  induction h with
  | util h => exact h
  | step hs hj hi hH _ _ => exact absurd hH (hk _ (mem_sup.2 ⟨_, hs, hj⟩))

end Bbn
