import Verif.Lemmas.Timed

/-!
# What happens before a decision does not depend on it
-/

set_option autoImplicit false

namespace Bbn

open Finset

variable {α : Type}

/-- What has been decided before the time `r` determines sums of what depends on earlier variables only. -/
theorem strategies_before [Field α] [LinearOrder α] [IsStrictOrderedRing α] {n : Net α} (hn : n.Valid) (hr : n.Regular)
    {order : List String} {rank : String → Nat} (ht : n.Timed order rank) (hp : order.Perm n.decisions)
    {δ : String → World → α} (hδ : ∀ A d B, order = A ++ d :: B → n.Strategy A d (δ d)) {r : Nat} {F : World → α}
    (hF : ∀ v ∈ n.stateVars, r ≤ rank v.name → Blind F v.name) :
    sumWorlds n.stateVars (fun w => (n.chanceTables.map (fun f => n.prob f w)).prod *
      (n.decisions.map (fun d => δ d w)).prod * F w) (fun _ => 0) =
    sumWorlds (n.stateVars.filter (fun v => rank v.name < r)) (fun w => ((n.stateVars.filter (fun v => rank v.name < r)).map
      (fun v => n.kernel v w * (if v.nodeType = .decision then δ v.name (n.clip w) else 1))).prod * F w) (fun _ => 0) := by
  set K : NVar → World → α := fun v w => n.kernel v w * (if v.nodeType = .decision then δ v.name (n.clip w) else 1) with hK
  have hstr : ∀ v ∈ n.variables, v.nodeType = .decision → ∃ A B, order = A ++ v.name :: B ∧ n.Strategy A v.name (δ v.name) := by
    intro v hv hd
    have : v.name ∈ order := hp.symm.subset (mem_decisions.2 ((isKind_iff hn hv _).2 hd))
    obtain ⟨A, B, e⟩ := List.append_of_mem this
    exact ⟨A, B, e, hδ A _ B e⟩
  have hord : ∀ d ∈ order, n.isKind .decision d = true := fun d hd => mem_decisions.1 (hp.subset hd)
  -- in terms of one factor per variable
  have hdec : ∀ w, n.Allowed w → (n.decisions.map (fun d => δ d w)).prod =
      (n.stateVars.map (fun v => if v.nodeType = .decision then δ v.name (n.clip w) else 1)).prod := by
    intro w hw
    rw [clip_eq hn hw]
    unfold Net.decisions Net.stateVars
    generalize n.variables = l
    induction l with
    | nil => rfl
    | cons v l ih =>
      cases hk : v.nodeType <;> simp [List.filter_cons, hk, -mul_eq_mul_left_iff] at ih ⊢ <;> rw [ih]
  have e1 : sumWorlds n.stateVars (fun w => (n.chanceTables.map (fun f => n.prob f w)).prod *
      (n.decisions.map (fun d => δ d w)).prod * F w) (fun _ => 0) =
      sumWorlds n.stateVars (fun w => (n.stateVars.map (fun v => K v w)).prod * F w) (fun _ => 0) := by
    refine sumWorlds_congr _ _ (stateVars_names hn) (fun w hw _ => ?_)
    have := joint_kernel hn w
    unfold Net.joint at this
    simp only [List.map_nil, List.prod_nil, mul_one] at this
    rw [this, hdec w hw, ← List.prod_map_mul]
  rw [e1]
  set le : NVar → NVar → Bool := fun a b => decide (rank a.name ≤ rank b.name) with hle
  set S := n.stateVars.filter (fun v => rank v.name < r) with hS
  set bs := (n.stateVars.filter (fun v => ¬ rank v.name < r)).mergeSort le with hbs
  have hperm0 : (n.stateVars.filter (fun v => ¬ rank v.name < r)).Perm bs := (List.mergeSort_perm _ _).symm
  have hperm : n.stateVars.Perm (S ++ bs) := by
    refine List.Perm.trans ?_ (hperm0.append_left S)
    have := List.filter_append_perm (fun v : NVar => decide (rank v.name < r)) n.stateVars
    refine this.symm.trans (List.Perm.append_left _ (List.Perm.of_eq (List.filter_congr (fun v _ => ?_))))
    rw [decide_not]
  have hnd : ((S ++ bs).map NVar.name).Nodup := (hperm.map NVar.name).nodup_iff.1 (stateVars_names hn)
  have hsort : bs.Pairwise (fun a b => le a b = true) := by
    refine List.pairwise_mergeSort ?_ ?_ _
    · intro a b c h1 h2; simp only [hle, decide_eq_true_eq] at *; omega
    · intro a b; simp only [hle, Bool.or_eq_true, decide_eq_true_eq]; omega
  have hlate : ∀ v ∈ bs, v ∈ n.stateVars ∧ r ≤ rank v.name := by
    intro v hv
    have := List.mem_filter.1 (hperm0.symm.subset hv)
    exact ⟨this.1, by simpa using this.2⟩
  have hearly : ∀ v ∈ S, rank v.name < r := fun v hv => by simpa using (List.mem_filter.1 hv).2
  rw [sumWorlds_perm _ hperm _ (stateVars_names hn)]
  have e2 : (fun w => (n.stateVars.map (fun v => K v w)).prod * F w) = fun w => ((S ++ bs).map (fun v => K v w)).prod * F w := by
    funext w
    rw [(hperm.map (fun v => K v w)).prod_eq]
  rw [e2]
  have e3 := drop_barren K (fun _ => (1 : α)) F S (fun _ => 0) bs hnd ?_ ?_ ?_
  · rw [e3, List.map_const', List.prod_replicate, one_pow, one_mul]
  · intro pre v post e u hu
    have hum : u ∈ n.stateVars := hperm.symm.subset (by
      rw [e]; simp only [List.mem_append, List.mem_cons] at hu ⊢; tauto)
    have hrk : rank u.name ≤ rank v.name := by
      rcases List.mem_append.1 hu with hu | hu
      · have := hearly u hu
        have := (hlate v (by rw [e]; simp)).2
        omega
      · rw [e, List.pairwise_append] at hsort
        simpa [hle] using hsort.2.2 u hu v (by simp)
    have hne : u.name ≠ v.name := by
      intro e'
      rw [e, ← List.append_assoc, List.map_append, List.nodup_append] at hnd
      exact hnd.2.2 _ (List.mem_map_of_mem hu) _ (List.mem_map_of_mem (List.mem_cons_self ..)) e'
    refine Blind.mul (kernel_blind hne (fun f hf hfu hg => ?_)) (fun w k => ?_)
    · have := ht.chance f hf _ hg
      rw [hfu] at this
      omega
    · by_cases hd : u.nodeType = .decision
      · simp only [if_pos hd]
        obtain ⟨A, B, hl, hs⟩ := hstr u (mem_stateVars.1 hum).1 hd
        refine hs.known _ _ (clip_allowed hn _) (clip_allowed hn _) (fun s hks => clip_set _ _ _ (fun e' => ?_))
        rcases ht.known hord hl hks with h | h
        · exact hne (h.symm.trans e')
        · rw [e'] at h; omega
      · simp only [if_neg hd]
  · intro v hv; exact hF v (hlate v hv).1 (hlate v hv).2
  · intro v hv w' h1 _
    have hvm := (hlate v hv).1
    have hv' := mem_stateVars.1 hvm
    have hall : n.Allowed w' := by
      intro u hu
      rcases h1 u (hperm.subset hu) with h | h
      · exact h
      · rw [h]; exact allowed_zero hn u hu
    have hk := kernel_sum hn hr hvm hall
    by_cases hd : v.nodeType = .decision
    · have hkn : n.kernel v = fun _ => 1 := kernel_none (by
        rw [Bool.eq_false_iff, ne_eq, isKind_iff hn hv'.1, hd]; decide)
      obtain ⟨A, B, hl, hs⟩ := hstr v hv'.1 hd
      simp only [hK, if_pos hd, hkn, one_mul]
      rw [← hs.one w' hall, count_eq hn hv'.1]
      refine Finset.sum_congr rfl (fun k hk => ?_)
      rw [clip_eq hn (Allowed.set hn hall (by rw [count_eq hn hv'.1]; exact Finset.mem_range.1 hk))]
    · simp only [hK, if_neg hd, mul_one]
      rw [hk]
      unfold openCount
      rw [if_pos]
      cases hc : v.nodeType with
      | chance => rfl
      | utility => exact absurd hc hv'.2
      | decision => exact absurd hc hd

end Bbn
