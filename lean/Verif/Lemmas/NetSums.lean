import Verif.Lemmas.NetSolver
import Verif.Lemmas.Repeat
import Verif.Lemmas.Utility

/-!
# Sums over worlds and sums over solver variables
-/

set_option autoImplicit false

namespace Bbn

open Finset

variable {α : Type}

theorem plug_upd {es : List Evid} {i : Nat} (h : ∀ e ∈ es, e.var.id ≠ i) (σ : Assignment) (k : Nat) :
    plug es (σ.upd i k) = (plug es σ).upd i k := by
  funext j
  simp only [plug, Assignment.upd]
  by_cases hj : j = i
  · subst hj
    have : es.find? (fun e => e.var.id = j) = none := by
      rw [List.find?_eq_none]
      intro e he; simpa using h e he
    simp [this]
  · simp only [if_neg hj]

/-- A sum over observed variables, restricted to the observed outcomes, is a single value. -/
theorem sumOver_collapse [AddCommMonoid α] (F : Assignment → α) : ∀ (es : List Evid) (σ : Assignment),
    ((es.map Evid.var).map Var.id).Nodup → (∀ e ∈ es, e.value.toNat < e.var.outcomes) →
    sumOver (es.map Evid.var) (fun τ => if ∀ e ∈ es, τ e.var.id = e.value.toNat then F τ else 0) σ = F (plug es σ) := by
  intro es
  induction es generalizing F with
  | nil =>
    intro σ _ _
    have : plug [] σ = σ := by funext i; rfl
    simp [sumOver, this]
  | cons e es ih =>
    intro σ hn hr
    rw [List.map_cons, List.map_cons, List.nodup_cons] at hn
    have hne : ∀ x ∈ es, x.var.id ≠ e.var.id := by
      intro x hx h
      exact hn.1 (by rw [← h]; exact List.mem_map_of_mem (List.mem_map_of_mem hx))
    have key : ∀ k ∈ range e.var.outcomes, sumOver (es.map Evid.var)
        (fun τ => if ∀ x ∈ e :: es, τ x.var.id = x.value.toNat then F τ else 0) (σ.upd e.var.id k) =
        if k = e.value.toNat then F (plug (e :: es) σ) else 0 := by
      intro k _
      by_cases hk : k = e.value.toNat
      · rw [if_pos hk, plug_cons, ← plug_upd hne, ← hk,
          ← ih F (σ.upd e.var.id k) hn.2 (fun x hx => hr x (List.mem_cons_of_mem _ hx))]
        apply sumOver_congr _ hn.2
        intro τ h1 _
        have : τ e.var.id = k := by rw [h1 _ hn.1]; simp [Assignment.upd]
        simp [this, hk]
      · rw [if_neg hk]
        refine Eq.trans ?_ (sumOver_zero (es.map Evid.var) (σ.upd e.var.id k))
        apply sumOver_congr _ hn.2
        intro τ h1 _
        have : τ e.var.id = k := by rw [h1 _ hn.1]; simp [Assignment.upd]
        have hno : ¬ ∀ x ∈ e :: es, τ x.var.id = x.value.toNat := fun h =>
          hk (by rw [← this]; exact h e List.mem_cons_self)
        simp only [if_neg hno]
    rw [List.map_cons, show sumOver (e.var :: es.map Evid.var) (fun τ => if ∀ x ∈ e :: es, τ x.var.id = x.value.toNat
      then F τ else 0) σ = ∑ k ∈ range e.var.outcomes, sumOver (es.map Evid.var)
        (fun τ => if ∀ x ∈ e :: es, τ x.var.id = x.value.toNat then F τ else 0) (σ.upd e.var.id k) from rfl,
      Finset.sum_congr rfl key, Finset.sum_ite_eq', if_pos]
    simpa using hr e List.mem_cons_self

/-- Summing over variables of which the summand does not depend. -/
theorem sumOver_unused [CommSemiring α] {F : Assignment → α} : ∀ {us : List Var} (σ : Assignment),
    (∀ u ∈ us, ∀ τ k, F (Assignment.upd τ u.id k) = F τ) → sumOver us F σ = (size us : α) * F σ := by
  intro us
  induction us with
  | nil => intro σ _; simp [sumOver, size]
  | cons u us ih =>
    intro σ h
    simp only [sumOver, size]
    rw [Finset.sum_congr rfl (fun k _ => (ih (σ.upd u.id k) (fun v hv => h v (List.mem_cons_of_mem _ hv))).trans
      (by rw [h u List.mem_cons_self]))]
    rw [Finset.sum_const, card_range, nsmul_eq_mul, ← mul_assoc]
    push_cast
    rfl

/-- The sum over all variables, restricted to the evidence, as a sum over the unobserved variables that matter. -/
theorem sumOver_evidence [CommSemiring α] {S : List Var} (hS : (S.map Var.id).Nodup) {es : List Evid}
    (hes : ∀ e ∈ es, e.var ∈ S ∧ e.value.toNat < e.var.outcomes) (hn : ((es.map Evid.var).map Var.id).Nodup)
    {F : Assignment → α} {p : Var → Bool}
    (hF : ∀ v ∈ S, p v = false → ∀ τ k, F (Assignment.upd τ v.id k) = F τ) (σ : Assignment) :
    sumOver S (fun τ => if ∀ e ∈ es, τ e.var.id = e.value.toNat then F τ else 0) σ =
      (size (S.filter (fun v => !p v && decide (∀ e ∈ es, e.var.id ≠ v.id))) : α) *
        sumOver (S.filter (fun v => p v && decide (∀ e ∈ es, e.var.id ≠ v.id))) (fun τ => F (plug es τ)) σ := by
  have hSn : S.Nodup := List.Nodup.of_map _ hS
  have hperm : S.Perm ((S.filter (fun v => !p v && decide (∀ e ∈ es, e.var.id ≠ v.id)) ++
      S.filter (fun v => p v && decide (∀ e ∈ es, e.var.id ≠ v.id))) ++ es.map Evid.var) := by
    rw [List.perm_ext_iff_of_nodup hSn]
    · intro v
      simp only [List.mem_append, List.mem_filter, Bool.and_eq_true, decide_eq_true_eq, Bool.not_eq_true']
      constructor
      · intro hv
        by_cases he : ∀ e ∈ es, e.var.id ≠ v.id
        · left
          cases hp : p v
          · exact .inl ⟨hv, rfl, he⟩
          · exact .inr ⟨hv, rfl, he⟩
        · right
          simp only [not_forall, not_not, ne_eq] at he
          obtain ⟨e, he, h⟩ := he
          exact List.mem_map.2 ⟨e, he, coherent_of_nodup hS _ (hes e he).1 _ hv h⟩
      · rintro ((h | h) | h)
        · exact h.1
        · exact h.1
        · obtain ⟨e, he, rfl⟩ := List.mem_map.1 h
          exact (hes e he).1
    · rw [List.nodup_append, List.nodup_append]
      refine ⟨⟨hSn.filter _, hSn.filter _, ?_⟩, List.Nodup.of_map _ hn, ?_⟩
      · rintro a ha b hb rfl
        simp only [List.mem_filter, Bool.and_eq_true, Bool.not_eq_true'] at ha hb
        rw [ha.2.1] at hb
        exact absurd hb.2.1 (by decide)
      · rintro a ha b hb rfl
        obtain ⟨e, he, rfl⟩ := List.mem_map.1 hb
        simp only [List.mem_append, List.mem_filter, Bool.and_eq_true, decide_eq_true_eq] at ha
        rcases ha with ha | ha
        · exact ha.2.2 e he rfl
        · exact ha.2.2 e he rfl
  rw [sumOver_perm hperm hS, sumOver_append, sumOver_append]
  have h1 : sumOver (es.map Evid.var) (fun τ => if ∀ e ∈ es, τ e.var.id = e.value.toNat then F τ else 0) =
      fun σ => F (plug es σ) := by
    funext τ
    exact sumOver_collapse F es τ hn (fun e he => (hes e he).2)
  rw [h1]
  apply sumOver_unused
  intro u hu τ k
  simp only [List.mem_filter, Bool.and_eq_true, decide_eq_true_eq, Bool.not_eq_true'] at hu
  obtain ⟨hu1, hu2, hu3⟩ := hu
  have hnot : u.id ∉ (S.filter (fun v => p v && decide (∀ e ∈ es, e.var.id ≠ v.id))).map Var.id := by
    intro h
    obtain ⟨v, hv, e⟩ := List.mem_map.1 h
    simp only [List.mem_filter, Bool.and_eq_true] at hv
    have := coherent_of_nodup hS _ hv.1 _ hu1 e
    rw [this, hu2] at hv
    exact absurd hv.2.1 (by decide)
  have key : ∀ (l : List Var) (τ : Assignment), u.id ∉ l.map Var.id →
      sumOver l (fun τ => F (plug es τ)) (τ.upd u.id k) = sumOver l (fun τ => F (plug es τ)) τ := by
    intro l
    induction l with
    | nil =>
      intro τ _
      simp only [sumOver]
      rw [plug_upd hu3, hF u hu1 hu2]
    | cons v l ih =>
      intro τ hv
      simp only [List.map_cons, List.mem_cons, not_or] at hv
      simp only [sumOver]
      apply Finset.sum_congr rfl
      intro c _
      rw [upd_comm _ hv.1, ih _ hv.2]
  exact key _ _ hnot

/-- Sums over worlds are sums over solver variables. -/
theorem sumWorlds_eq [AddCommMonoid α] {n : Net α} (hn : n.Valid) {F : World → α} {G : Assignment → α} :
    ∀ (l : List NVar) (w : World), (∀ v ∈ l, v ∈ n.variables ∧ v.nodeType ≠ .utility) → (l.map NVar.name).Nodup →
    (∀ w' : World, (∀ v ∈ l, w' v.name < v.outcomes.length) → (∀ s, s ∉ l.map NVar.name → w' s = w s) →
      F w' = G (n.ids w')) →
    sumWorlds l F w = sumOver (l.map (fun v => n.varOf v.name)) G (n.ids w) := by
  intro l
  induction l with
  | nil => intro w _ _ h; exact h w (by simp) (by simp)
  | cons v l ih =>
    intro w hl hnd h
    rw [List.map_cons, List.nodup_cons] at hnd
    obtain ⟨hv, ht⟩ := hl v List.mem_cons_self
    have hvar := isVar_state hn hv ht
    simp only [sumWorlds, List.map_cons, sumOver]
    rw [hvar.outcomes hn, count_eq hn hv]
    apply Finset.sum_congr rfl
    intro k hk
    rw [← ids_set hn hvar]
    apply ih _ (fun u hu => hl u (List.mem_cons_of_mem _ hu)) hnd.2
    intro w' h1 h2
    apply h w'
    · intro u hu
      rcases List.mem_cons.1 hu with rfl | hu
      · rw [h2 _ hnd.1]; simpa [World.set] using hk
      · exact h1 u hu
    · intro s hs
      simp only [List.map_cons, List.mem_cons, not_or] at hs
      rw [h2 s hs.2]
      simp [World.set, hs.1]

end Bbn
