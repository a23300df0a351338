import Verif.Lemmas.Policy

/-!
# Repeated `SumOut` and `Restrict`, permuting sums
-/

set_option autoImplicit false

namespace Bbn

open Finset

variable {α : Type}

theorem sumOver_perm [AddCommMonoid α] {vs ws : List Var} (h : vs.Perm ws) (hn : (vs.map Var.id).Nodup)
    (F : Assignment → α) (σ : Assignment) : sumOver vs F σ = sumOver ws F σ := by
  induction h generalizing σ with
  | nil => rfl
  | cons v _ ih =>
    simp only [List.map_cons, List.nodup_cons] at hn
    exact Finset.sum_congr rfl (fun k _ => ih hn.2 _)
  | swap v w l =>
    simp only [List.map_cons, List.nodup_cons, List.mem_cons, not_or] at hn
    simp only [sumOver]
    rw [Finset.sum_comm]
    apply Finset.sum_congr rfl; intro k _
    apply Finset.sum_congr rfl; intro j _
    rw [upd_comm _ hn.1.1]
  | trans h1 _ ih1 ih2 =>
    rw [ih1 hn, ih2 ((h1.map _).nodup hn)]

theorem sumOver_append [AddCommMonoid α] (vs ws : List Var) (F : Assignment → α) (σ : Assignment) :
    sumOver (vs ++ ws) F σ = sumOver vs (sumOver ws F) σ := by
  induction vs generalizing σ with
  | nil => rfl
  | cons v vs ih => exact Finset.sum_congr rfl (fun k _ => ih _)

/-- Moving one variable of the sum to the outside. -/
theorem sumOver_snoc [AddCommMonoid α] (vs : List Var) (v : Var) (hv : v.id ∉ vs.map Var.id)
    (F : Assignment → α) (σ : Assignment) :
    sumOver vs (fun τ => ∑ k ∈ range v.outcomes, F (τ.upd v.id k)) σ =
      ∑ k ∈ range v.outcomes, sumOver vs F (σ.upd v.id k) := by
  induction vs generalizing σ with
  | nil => rfl
  | cons w vs ih =>
    simp only [List.map_cons, List.mem_cons, not_or] at hv
    simp only [sumOver]
    rw [Finset.sum_comm]
    apply Finset.sum_congr rfl; intro k _
    rw [ih hv.2]
    apply Finset.sum_congr rfl; intro j _
    rw [upd_comm _ (Ne.symm hv.1)]

/-- Calling `SumOut` for one variable after the other. -/
def sumOutList [Zero α] [Add α] : Vs → Factor α → List Var → Except Fault (Factor α × Vs)
  | s, f, [] => .ok (f, s)
  | s, f, v :: vs => do
    let (g, s') ← s.sumOut f v
    sumOutList s' g vs

/-- Calling `Restrict` for one observation after the other. -/
def restrictList [Zero α] : Vs → Factor α → List (Var × Nat) → Except Fault (Factor α × Vs)
  | s, f, [] => .ok (f, s)
  | s, f, (v, k) :: es => do
    let (g, s') ← s.restrict f v k
    restrictList s' g es

theorem sumOutList_spec [AddCommMonoid α] (s : Vs) (f : Factor α) (hf : f.WF) (vs : List Var)
    (hsub : ∀ v ∈ vs, v ∈ f.vars) (hn : (vs.map Var.id).Nodup) :
    ∃ g s', sumOutList s f vs = .ok (g, s') ∧ g.WF ∧
      g.vars = f.vars.filter (fun v => v.id ∉ vs.map Var.id) ∧
      ∀ σ, Fits σ g.vars → g.val σ = sumOver vs f.val σ := by
  induction vs generalizing s f with
  | nil =>
    refine ⟨f, s, rfl, hf, ?_, fun σ _ => rfl⟩
    simp
  | cons v vs ih =>
    have hv := hsub v (by simp)
    simp only [List.map_cons, List.nodup_cons] at hn
    obtain ⟨g, h1, h2, _, h4, h5⟩ := sumOut_spec s f hf v v hv rfl
    have hsub' : ∀ w ∈ vs, w ∈ g.vars := by
      intro w hw
      rw [h4]
      refine mem_otherVars.2 ⟨hsub w (by simp [hw]), fun e => hn.1 (e ▸ List.mem_map_of_mem hw)⟩
    obtain ⟨g', s', h6, h7, h8, h9⟩ := ih { s with factorCounter := s.factorCounter + 1 } g h2 hsub' hn.2
    refine ⟨g', s', ?_, h7, ?_, ?_⟩
    · rw [sumOutList, h1, ok_bind]; exact h6
    · rw [h8, h4, otherVars, List.filter_filter]
      apply List.filter_congr
      intro w _
      by_cases e1 : w.id = v.id <;> simp [e1]
    · intro σ hσ
      rw [h9 σ hσ]
      have e1 : sumOver vs g.val σ = sumOver vs (fun τ => ∑ k ∈ range v.outcomes, f.val (τ.upd v.id k)) σ := by
        apply sumOver_congr _ hn.2
        intro τ h10 h11
        apply h5
        intro w hw
        by_cases e : w.id ∈ vs.map Var.id
        · obtain ⟨u, hu, hid⟩ := List.mem_map.1 e
          have : u = w := coherent_of_nodup h2.nodup u (hsub' u hu) w hw hid
          rw [← this]; exact h11 u hu
        · rw [h10 _ e]
          exact hσ w (by rw [h8]; simp only [List.mem_filter]; exact ⟨hw, by simpa using e⟩)
      rw [e1, sumOver_snoc _ _ hn.1]
      rfl

/-- The assignment changed by several observations. -/
def updList (σ : Assignment) : List (Var × Nat) → Assignment
  | [] => σ
  | (v, k) :: es => (updList σ es).upd v.id k

theorem restrictList_spec [Zero α] (s : Vs) (f : Factor α) (hf : f.WF) (es : List (Var × Nat))
    (hsub : ∀ e ∈ es, e.1 ∈ f.vars ∧ e.2 < e.1.outcomes) (hn : (es.map (fun e => e.1.id)).Nodup) :
    ∃ g s', restrictList s f es = .ok (g, s') ∧ g.WF ∧
      g.vars = f.vars.filter (fun v => v.id ∉ es.map (fun e => e.1.id)) ∧
      ∀ σ, Fits σ g.vars → g.val σ = f.val (updList σ es) := by
  induction es generalizing s f with
  | nil => exact ⟨f, s, rfl, hf, by simp, fun σ _ => rfl⟩
  | cons e es ih =>
    obtain ⟨v, k⟩ := e
    obtain ⟨hv, hk⟩ := hsub (v, k) (by simp)
    simp only [List.map_cons, List.nodup_cons] at hn
    obtain ⟨g, h1, h2, _, h4, h5⟩ := restrict_spec s f hf v hv k hk
    have hsub' : ∀ e ∈ es, e.1 ∈ g.vars ∧ e.2 < e.1.outcomes := by
      intro e he
      rw [h4]
      refine ⟨mem_otherVars.2 ⟨(hsub e (by simp [he])).1, fun h => hn.1 ?_⟩, (hsub e (by simp [he])).2⟩
      exact h ▸ List.mem_map_of_mem (f := fun e : Var × Nat => e.1.id) he
    obtain ⟨g', s', h6, h7, h8, h9⟩ := ih { s with factorCounter := s.factorCounter + 1 } g h2 hsub' hn.2
    refine ⟨g', s', ?_, h7, ?_, ?_⟩
    · rw [restrictList, h1, ok_bind]; exact h6
    · rw [h8, h4, otherVars, List.filter_filter]
      apply List.filter_congr
      intro w _
      by_cases e1 : w.id = v.id <;> simp [e1]
    · intro σ hσ
      rw [h9 σ hσ, h5]
      · rfl
      · intro w hw
        have hup : ∀ (es : List (Var × Nat)), (∀ e ∈ es, e.1 ∈ g.vars ∧ e.2 < e.1.outcomes) →
            (w.id ∉ es.map (fun e => e.1.id) → σ w.id < w.outcomes) → updList σ es w.id < w.outcomes := by
          intro es
          induction es with
          | nil => intro _ h; exact h (by simp)
          | cons e es ihe =>
            intro hs h
            obtain ⟨u, j⟩ := e
            simp only [updList, Assignment.upd]
            split
            · rename_i he
              have := coherent_of_nodup h2.nodup u (hs (u, j) (by simp)).1 w hw he.symm
              rw [← this]; exact (hs (u, j) (by simp)).2
            · rename_i he
              apply ihe (fun e' he' => hs e' (by simp [he']))
              intro hn'; apply h; simp only [List.map_cons, List.mem_cons, not_or]; exact ⟨he, hn'⟩
        apply hup es hsub'
        intro hn'
        exact hσ w (by rw [h8]; simp only [List.mem_filter]; exact ⟨hw, by simpa using hn'⟩)

theorem updList_perm {es es' : List (Var × Nat)} (h : es.Perm es') (hn : (es.map (fun e => e.1.id)).Nodup)
    (σ : Assignment) : updList σ es = updList σ es' := by
  induction h with
  | nil => rfl
  | cons e _ ih =>
    simp only [List.map_cons, List.nodup_cons] at hn
    simp only [updList, ih hn.2]
  | swap a b l =>
    simp only [List.map_cons, List.nodup_cons, List.mem_cons, not_or] at hn
    simp only [updList]
    rw [upd_comm _ (Ne.symm hn.1.1)]
  | trans h1 _ ih1 ih2 =>
    rw [ih1 hn, ih2 ((h1.map _).nodup hn)]

theorem bind_ok {ε β γ : Type} {x : Except ε β} {f : β → Except ε γ} {y : γ} (h : (x >>= f) = .ok y) :
    ∃ a, x = .ok a ∧ f a = .ok y := by
  cases x with
  | error e => simp [err_bind] at h
  | ok a => exact ⟨a, rfl, h⟩

end Bbn
