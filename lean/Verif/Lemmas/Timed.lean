import Verif.Spec.Timed
import Verif.Lemmas.NetMass
import Verif.Props.NetOptimal
import Verif.Props.NetStepwise

/-!
# Strategies that can be carried out: the probabilities of the worlds sum to one
-/

set_option autoImplicit false

namespace Bbn

open Finset

variable {α : Type}

/-- The world with all chance and decision variables brought into their range. -/
def Net.clip (n : Net α) (w : World) : World :=
  fun s => if n.stateVars.any (fun v => v.name = s) then w s % n.count s else w s

theorem clip_allowed {n : Net α} (hn : n.Valid) (w : World) : n.Allowed (n.clip w) := by
  intro v hv
  unfold Net.clip
  rw [if_pos (by simpa using ⟨v, hv, rfl⟩), ← count_eq hn (mem_stateVars.1 hv).1]
  refine Nat.mod_lt _ ?_
  rw [count_eq hn (mem_stateVars.1 hv).1]
  exact (hn.outcomes v (mem_stateVars.1 hv).1).1

theorem clip_eq {n : Net α} (hn : n.Valid) {w : World} (hw : n.Allowed w) : n.clip w = w := by
  funext s
  unfold Net.clip
  split_ifs with h
  · simp only [List.any_eq_true, decide_eq_true_eq] at h
    obtain ⟨v, hv, rfl⟩ := h
    exact Nat.mod_eq_of_lt (by rw [count_eq hn (mem_stateVars.1 hv).1]; exact hw v hv)
  · rfl

theorem clip_set {n : Net α} (w : World) (s : String) (k : Nat) {t : String} (h : t ≠ s) :
    n.clip (w.set s k) t = n.clip w t := by
  unfold Net.clip
  rw [World.set_ne _ h]

theorem Allowed.set {n : Net α} (hn : n.Valid) {w : World} (hw : n.Allowed w) {s : String} {k : Nat} (hk : k < n.count s) :
    n.Allowed (w.set s k) := by
  intro v hv
  unfold World.set
  split_ifs with e
  · rw [← count_eq hn (mem_stateVars.1 hv).1, e]; exact hk
  · exact hw v hv

theorem Net.Timed.known {n : Net α} {order : List String} {rank : String → Nat} (ht : n.Timed order rank)
    (hord : ∀ d ∈ order, n.isKind .decision d = true) {A B : List String} {d s : String} (hl : order = A ++ d :: B)
    (h : n.Known (A ++ [d]) s) : s = d ∨ rank s < rank d := by
  have hp := ht.order
  rw [hl, List.pairwise_append] at hp
  have hle : ∀ e ∈ A ++ [d], rank e ≤ rank d := by
    intro e he
    rcases List.mem_append.1 he with he | he
    · exact (hp.2.2 e he d (by simp)).le
    · rw [List.mem_singleton.1 he]
  rcases h with h | ⟨f, hf, h1, h2⟩
  · rcases List.mem_append.1 h with h | h
    · exact .inr (hp.2.2 s h d (by simp))
    · exact .inl (List.mem_singleton.1 h)
  · have := ht.decision f hf (hord _ (by
      rw [hl]; simp only [List.mem_append, List.mem_cons, List.not_mem_nil, or_false] at h1 ⊢; tauto)) s h2
    have := hle _ h1
    right; omega

/-- If the variables get their outcomes one after another, the probabilities of all worlds sum to one, whatever the
strategies. -/
theorem strategies_one [Field α] [LinearOrder α] [IsStrictOrderedRing α] {n : Net α} (hn : n.Valid) (hr : n.Regular)
    {order : List String} {rank : String → Nat} (ht : n.Timed order rank) (hp : order.Perm n.decisions)
    {δ : String → World → α} (hδ : ∀ A d B, order = A ++ d :: B → n.Strategy A d (δ d)) :
    sumWorlds n.stateVars (fun w => (n.chanceTables.map (fun f => n.prob f w)).prod *
      (n.decisions.map (fun d => δ d w)).prod) (fun _ => 0) = 1 := by
  set K : NVar → World → α := fun v w => n.kernel v w * (if v.nodeType = .decision then δ v.name (n.clip w) else 1) with hK
  have hstr : ∀ v ∈ n.variables, v.nodeType = .decision → ∃ A B, order = A ++ v.name :: B ∧ n.Strategy A v.name (δ v.name) := by
    intro v hv hd
    have : v.name ∈ order := hp.symm.subset (mem_decisions.2 ((isKind_iff hn hv _).2 hd))
    obtain ⟨A, B, e⟩ := List.append_of_mem this
    exact ⟨A, B, e, hδ A _ B e⟩
  have hord : ∀ d ∈ order, n.isKind .decision d = true := fun d hd => mem_decisions.1 (hp.subset hd)
  -- in terms of one factor per variable
  have hdec : ∀ w, n.Allowed w → (n.decisions.map (fun d => δ d w)).prod =
      (n.stateVars.map (fun v => if v.nodeType = .decision then δ v.name (n.clip w) else 1)).prod := by
    intro w hw
    rw [clip_eq hn hw]
    unfold Net.decisions Net.stateVars
    generalize n.variables = l
    induction l with
    | nil => rfl
    | cons v l ih =>
      cases hk : v.nodeType <;> simp [List.filter_cons, hk, -mul_eq_mul_left_iff] at ih ⊢ <;> rw [ih]
  have e1 : sumWorlds n.stateVars (fun w => (n.chanceTables.map (fun f => n.prob f w)).prod *
      (n.decisions.map (fun d => δ d w)).prod) (fun _ => 0) =
      sumWorlds n.stateVars (fun w => (n.stateVars.map (fun v => K v w)).prod * 1) (fun _ => 0) := by
    refine sumWorlds_congr _ _ (stateVars_names hn) (fun w hw _ => ?_)
    have := joint_kernel hn w
    unfold Net.joint at this
    simp only [List.map_nil, List.prod_nil, mul_one] at this
    rw [this, hdec w hw, mul_one, ← List.prod_map_mul]
  rw [e1]
  set le : NVar → NVar → Bool := fun a b => decide (rank a.name ≤ rank b.name) with hle
  set bs := n.stateVars.mergeSort le with hbs
  have hperm : n.stateVars.Perm bs := (List.mergeSort_perm _ _).symm
  have hnd : (bs.map NVar.name).Nodup := (hperm.map NVar.name).nodup_iff.1 (stateVars_names hn)
  have hsort : bs.Pairwise (fun a b => le a b = true) := by
    refine List.pairwise_mergeSort ?_ ?_ _
    · intro a b c h1 h2; simp only [hle, decide_eq_true_eq] at *; omega
    · intro a b; simp only [hle, Bool.or_eq_true, decide_eq_true_eq]; omega
  rw [sumWorlds_perm _ hperm _ (stateVars_names hn)]
  have e2 : (fun w => (n.stateVars.map (fun v => K v w)).prod * 1) = fun w => ((([] : List NVar) ++ bs).map (fun v => K v w)).prod * 1 := by
    funext w
    rw [List.nil_append, (hperm.map (fun v => K v w)).prod_eq]
  rw [e2]
  have e3 := drop_barren K (fun _ => (1 : α)) (fun _ => 1) [] (fun _ => 0) bs (by simpa using hnd) ?_ ?_ ?_
  · rw [List.nil_append] at e3 ⊢
    rw [e3]
    simp [sumWorlds]
  · intro pre v post e u hu
    rw [List.nil_append] at hu
    have hum : u ∈ n.stateVars := hperm.symm.subset (by rw [e]; simp [hu])
    have hrk : rank u.name ≤ rank v.name := by
      rw [e, List.pairwise_append] at hsort
      simpa [hle] using hsort.2.2 u hu v (by simp)
    have hne : u.name ≠ v.name := by
      intro e'
      rw [e, List.map_append, List.nodup_append] at hnd
      exact hnd.2.2 _ (List.mem_map_of_mem hu) _ (List.mem_map_of_mem (List.mem_cons_self ..)) e'
    refine Blind.mul (kernel_blind hne (fun f hf hfu hg => ?_)) (fun w k => ?_)
    · have := ht.chance f hf _ hg
      rw [hfu] at this
      omega
    · by_cases hd : u.nodeType = .decision
      · simp only [if_pos hd]
        obtain ⟨A, B, hl, hs⟩ := hstr u (mem_stateVars.1 hum).1 hd
        refine hs.known _ _ (clip_allowed hn _) (clip_allowed hn _) (fun s hks => clip_set _ _ _ (fun e' => ?_))
        rcases ht.known hord hl hks with h | h
        · exact hne (h.symm.trans e')
        · rw [e'] at h; omega
      · simp only [if_neg hd]
  · intro v _ w k; rfl
  · intro v hv w' h1 _
    have hvm := hperm.symm.subset hv
    have hv' := mem_stateVars.1 hvm
    have hall : n.Allowed w' := by
      intro u hu
      rcases h1 u (by rw [List.nil_append]; exact hperm.subset hu) with h | h
      · exact h
      · rw [h]; exact allowed_zero hn u hu
    have hk := kernel_sum hn hr hvm hall
    by_cases hd : v.nodeType = .decision
    · have hkn : n.kernel v = fun _ => 1 := kernel_none (by
        rw [Bool.eq_false_iff, ne_eq, isKind_iff hn hv'.1, hd]; decide)
      obtain ⟨A, B, hl, hs⟩ := hstr v hv'.1 hd
      simp only [hK, if_pos hd, hkn, one_mul]
      rw [← hs.one w' hall, count_eq hn hv'.1]
      refine Finset.sum_congr rfl (fun k hk => ?_)
      rw [clip_eq hn (Allowed.set hn hall (by rw [count_eq hn hv'.1]; exact Finset.mem_range.1 hk))]
    · simp only [hK, if_neg hd, mul_one]
      rw [hk]
      unfold openCount
      rw [if_pos]
      cases hc : v.nodeType with
      | chance => rfl
      | utility => exact absurd hc hv'.2
      | decision => exact absurd hc hd

end Bbn
