import Verif.Lemmas.Timed
import Verif.Props.NetSeparation

/-!
# How likely the present situation is does not depend on what is decided in it
-/

set_option autoImplicit false

namespace Bbn

open Finset

variable {α : Type} [Field α] [LinearOrder α]

/-- Summed over all that is hidden from a decision, the probabilities do not depend on the outcome of the decision. -/
theorem hidden_constant {n : Net α} (hn : n.Valid) (hr : n.Regular) {rank : String → Nat} (ht : n.Timed n.decisions rank)
    {δ : String → World → α} (hδ : ∀ A d B, n.decisions = A ++ d :: B → n.Strategy A d (δ d)) {A B : List String} {d : String}
    (he : n.decisions = A ++ d :: B) {w : World} (hw : n.Allowed w) {k : Nat} (hk : k < n.count d) :
    sumWorlds (n.hiddenFrom B d) (fun w => (n.chanceTables.map (fun f => n.prob f w)).prod * (B.map (fun e => δ e w)).prod)
      (w.set d k) =
    sumWorlds (n.hiddenFrom B d) (fun w => (n.chanceTables.map (fun f => n.prob f w)).prod * (B.map (fun e => δ e w)).prod) w := by
  have hord : ∀ d ∈ n.decisions, n.isKind .decision d = true := fun d hd => mem_decisions.1 hd
  have hdd : d ∈ n.decisions := by rw [he]; simp
  have hdk := hord d hdd
  have hpw := ht.order
  rw [he, List.pairwise_append, List.pairwise_cons] at hpw
  have hB : ∀ e ∈ B, rank d < rank e := hpw.2.1.1
  have hBd : ∀ e ∈ B, e ∈ n.decisions := fun e h => by rw [he]; simp [h]
  have hkr : ∀ s, n.Known [d] s → s = d ∨ rank s < rank d := by
    rintro s (h | ⟨f, hf, h1, h2⟩)
    · exact .inl (by simpa using h)
    · have e : f.forVar = d := by simpa using h1
      exact .inr (by have := ht.decision f hf (by rw [e]; exact hdk) s h2; rwa [e] at this)
  have hBk : ∀ e ∈ B, ¬ n.Known [d] e := by
    intro e h h'
    have := hB e h
    rcases hkr e h' with rfl | h'
    · omega
    · omega
  have hstr : ∀ v ∈ n.variables, v.nodeType = .decision →
      ∃ A B, n.decisions = A ++ v.name :: B ∧ n.Strategy A v.name (δ v.name) := by
    intro v hv hd
    have : v.name ∈ n.decisions := mem_decisions.2 ((isKind_iff hn hv _).2 hd)
    obtain ⟨A, B, e⟩ := List.append_of_mem this
    exact ⟨A, B, e, hδ A _ B e⟩
  set hid : NVar → Bool := fun v =>
    decide ((v.nodeType = .chance ∨ v.nodeType = .decision ∧ v.name ∈ B) ∧ ¬ n.Known [d] v.name) with hhid
  set H := n.hiddenFrom B d with hH
  have hHs : H = n.stateVars.filter hid := by
    rw [hH]
    unfold Net.hiddenFrom Net.stateVars
    rw [List.filter_filter]
    refine List.filter_congr (fun v _ => ?_)
    rw [hhid]
    rcases hv : v.nodeType <;> simp [hv]
  have hHm : ∀ v ∈ H, v ∈ n.stateVars ∧ (v.nodeType = .chance ∨ v.nodeType = .decision ∧ v.name ∈ B) ∧ ¬ n.Known [d] v.name := by
    intro v hv
    rw [hHs] at hv
    obtain ⟨h1, h2⟩ := List.mem_filter.1 hv
    exact ⟨h1, by simpa [hhid] using h2⟩
  have hHnd : (H.map NVar.name).Nodup := by
    rw [hHs]; exact (stateVars_names hn).sublist (List.filter_sublist.map _)
  set K : NVar → World → α := fun v w => n.kernel v w * (if v.nodeType = .decision then δ v.name (n.clip w) else 1) with hK
  set F : World → α := fun w => ((n.stateVars.filter (fun v => !hid v)).map (fun v => n.kernel v w)).prod with hF
  have hFb : ∀ s, rank d ≤ rank s → Blind F s := by
    intro s hs
    refine Blind.prod (fun v hv => ?_)
    obtain ⟨h1, h2⟩ := List.mem_filter.1 hv
    have hv' := mem_stateVars.1 h1
    by_cases hc : v.nodeType = .chance
    · have hkn : n.Known [d] v.name := by
        by_contra h
        simp [hhid, hc, h] at h2
      have hne : v.name ≠ d := by
        intro e
        rw [← e, isKind_iff hn hv'.1, hc] at hdk
        exact absurd hdk (by decide)
      have hlt := (hkr _ hkn).resolve_left hne
      refine kernel_blind (fun e => ?_) (fun f hf hfv hg => ?_)
      · rw [e] at hlt; omega
      · have := ht.chance f hf _ hg
        rw [hfv] at this
        omega
    · rw [kernel_none (by rw [Bool.eq_false_iff, ne_eq, isKind_iff hn hv'.1]; exact hc)]
      exact Blind.const _ _
  -- in terms of one factor per variable
  have hprod : ∀ w, n.Allowed w → (n.chanceTables.map (fun f => n.prob f w)).prod * (B.map (fun e => δ e w)).prod =
      (H.map (fun v => K v w)).prod * F w := by
    intro w hw
    have h1 := joint_kernel hn w
    unfold Net.joint at h1
    simp only [List.map_nil, List.prod_nil, mul_one] at h1
    have h2 : (n.stateVars.map (fun v => n.kernel v w)).prod = (H.map (fun v => n.kernel v w)).prod * F w := by
      rw [hF, hHs]
      dsimp only
      rw [← List.prod_append, ← List.map_append]
      refine ((List.Perm.map _ ?_).prod_eq).symm
      exact List.filter_append_perm _ _
    have h3 : (B.map (fun e => δ e w)).prod = (H.map (fun v => if v.nodeType = .decision then δ v.name (n.clip w) else 1)).prod := by
      rw [clip_eq hn hw]
      have h4 : (H.map (fun v => if v.nodeType = .decision then δ v.name w else 1)).prod =
          (((H.filter (fun v => v.nodeType = .decision)).map NVar.name).map (fun e => δ e w)).prod := by
        generalize H = l
        induction l with
        | nil => rfl
        | cons v l ih =>
          rw [List.map_cons, List.prod_cons, ih, List.filter_cons]
          by_cases h : v.nodeType = .decision
          · simp [h]
          · simp [h]
      rw [h4]
      refine (List.Perm.map _ ?_).prod_eq
      refine (List.perm_ext_iff_of_nodup ?_ (hHnd.sublist (List.filter_sublist.map _))).2 (fun e => ?_)
      · have hnd : n.decisions.Nodup := hn.names.sublist (List.filter_sublist.map _)
        rw [he] at hnd
        exact (List.nodup_cons.1 (List.nodup_append.1 hnd).2.1).2
      · simp only [List.mem_map, List.mem_filter, decide_eq_true_eq]
        constructor
        · intro h
          obtain ⟨v, hv, hv1, hv2⟩ := isKind_mem.1 (hord e (hBd e h))
          refine ⟨v, ⟨?_, hv2⟩, hv1⟩
          rw [hHs]
          refine List.mem_filter.2 ⟨mem_stateVars.2 ⟨hv, by rw [hv2]; decide⟩, ?_⟩
          rw [hhid]
          simp only [decide_eq_true_eq]
          exact ⟨.inr ⟨hv2, by rw [hv1]; exact h⟩, by rw [hv1]; exact hBk e h⟩
        · rintro ⟨v, ⟨hv, hv2⟩, rfl⟩
          rcases (hHm v hv).2.1 with h | h
          · rw [h] at hv2; exact absurd hv2 (by decide)
          · exact h.2
    rw [h1, h2, h3, hK]
    dsimp only
    rw [List.prod_map_mul]
    ring
  set le : NVar → NVar → Bool := fun a b => decide (rank a.name ≤ rank b.name) with hle
  set S := H.filter (fun v => rank v.name < rank d) with hS
  set bs := (H.filter (fun v => ¬ rank v.name < rank d)).mergeSort le with hbs
  have hperm0 : (H.filter (fun v => ¬ rank v.name < rank d)).Perm bs := (List.mergeSort_perm _ _).symm
  have hperm : H.Perm (S ++ bs) := by
    refine List.Perm.trans ?_ (hperm0.append_left S)
    have := List.filter_append_perm (fun v : NVar => decide (rank v.name < rank d)) H
    refine this.symm.trans (List.Perm.append_left _ (List.Perm.of_eq (List.filter_congr (fun v _ => ?_))))
    rw [decide_not]
  have hnd : ((S ++ bs).map NVar.name).Nodup := (hperm.map NVar.name).nodup_iff.1 hHnd
  have hsort : bs.Pairwise (fun a b => le a b = true) := by
    refine List.pairwise_mergeSort ?_ ?_ _
    · intro a b c h1 h2; simp only [hle, decide_eq_true_eq] at *; omega
    · intro a b; simp only [hle, Bool.or_eq_true, decide_eq_true_eq]; omega
  have hlate : ∀ v ∈ bs, v ∈ H ∧ rank d ≤ rank v.name := by
    intro v hv
    have := List.mem_filter.1 (hperm0.symm.subset hv)
    exact ⟨this.1, by simpa using this.2⟩
  have hearly : ∀ v ∈ S, v ∈ H ∧ rank v.name < rank d := fun v hv => by simpa using List.mem_filter.1 hv
  -- what is decided or happens later sums to one
  have key : ∀ w, n.Allowed w → sumWorlds H (fun w => (n.chanceTables.map (fun f => n.prob f w)).prod *
      (B.map (fun e => δ e w)).prod) w = sumWorlds S (fun w => (S.map (fun v => K v w)).prod * F w) w := by
    intro w hw
    have e1 : sumWorlds H (fun w => (n.chanceTables.map (fun f => n.prob f w)).prod * (B.map (fun e => δ e w)).prod) w =
        sumWorlds H (fun w => (H.map (fun v => K v w)).prod * F w) w := by
      refine sumWorlds_congr _ _ hHnd (fun w' h1 h2 => hprod w' (fun v hv => ?_))
      by_cases hu : v.name ∈ H.map NVar.name
      · obtain ⟨u, hu1, hu2⟩ := List.mem_map.1 hu
        have := name_unique hn (mem_stateVars.1 (hHm u hu1).1).1 (mem_stateVars.1 hv).1 hu2
        exact this ▸ h1 u hu1
      · rw [h2 _ hu]; exact hw v hv
    rw [e1, sumWorlds_perm _ hperm _ hHnd]
    have e2 : (fun w => (H.map (fun v => K v w)).prod * F w) = fun w => ((S ++ bs).map (fun v => K v w)).prod * F w := by
      funext w
      rw [(hperm.map (fun v => K v w)).prod_eq]
    rw [e2]
    have e3 := drop_barren K (fun _ => (1 : α)) F S w bs hnd ?_ ?_ ?_
    · rw [e3, List.map_const', List.prod_replicate, one_pow, one_mul]
    · intro pre v post e u hu
      have hum : u ∈ n.stateVars := (hHm u (hperm.symm.subset (by
        rw [e]; simp only [List.mem_append, List.mem_cons] at hu ⊢; tauto))).1
      have hrk : rank u.name ≤ rank v.name := by
        rcases List.mem_append.1 hu with hu | hu
        · have := (hearly u hu).2
          have := (hlate v (by rw [e]; simp)).2
          omega
        · rw [e, List.pairwise_append] at hsort
          simpa [hle] using hsort.2.2 u hu v (by simp)
      have hne : u.name ≠ v.name := by
        intro e'
        rw [e, ← List.append_assoc, List.map_append, List.nodup_append] at hnd
        exact hnd.2.2 _ (List.mem_map_of_mem hu) _ (List.mem_map_of_mem (List.mem_cons_self ..)) e'
      refine Blind.mul (kernel_blind hne (fun f hf hfu hg => ?_)) (fun w k => ?_)
      · have := ht.chance f hf _ hg
        rw [hfu] at this
        omega
      · by_cases hd : u.nodeType = .decision
        · simp only [if_pos hd]
          obtain ⟨A, B, hl, hs⟩ := hstr u (mem_stateVars.1 hum).1 hd
          refine hs.known _ _ (clip_allowed hn _) (clip_allowed hn _) (fun s hks => clip_set _ _ _ (fun e' => ?_))
          rcases ht.known hord hl hks with h | h
          · exact hne (h.symm.trans e')
          · rw [e'] at h; omega
        · simp only [if_neg hd]
    · intro v hv; exact hFb _ (hlate v hv).2
    · intro v hv w' h1 h2
      have hvm := (hHm v (hlate v hv).1).1
      have hv' := mem_stateVars.1 hvm
      have hall : n.Allowed w' := by
        intro u hu
        by_cases hin : u.name ∈ (S ++ bs).map NVar.name
        · obtain ⟨x, hx1, hx2⟩ := List.mem_map.1 hin
          have hxH := hperm.symm.subset hx1
          obtain rfl := name_unique hn (mem_stateVars.1 (hHm x hxH).1).1 (mem_stateVars.1 hu).1 hx2
          rcases h1 x hx1 with h | h
          · exact h
          · rw [h]; exact hw x hu
        · rw [h2 _ hin]; exact hw u hu
      have hk := kernel_sum hn hr hvm hall
      by_cases hd : v.nodeType = .decision
      · have hkn : n.kernel v = fun _ => 1 := kernel_none (by
          rw [Bool.eq_false_iff, ne_eq, isKind_iff hn hv'.1, hd]; decide)
        obtain ⟨A, B, hl, hs⟩ := hstr v hv'.1 hd
        simp only [hK, if_pos hd, hkn, one_mul]
        rw [← hs.one w' hall, count_eq hn hv'.1]
        refine Finset.sum_congr rfl (fun k hk => ?_)
        rw [clip_eq hn (Allowed.set hn hall (by rw [count_eq hn hv'.1]; exact Finset.mem_range.1 hk))]
      · simp only [hK, if_neg hd, mul_one]
        rw [hk]
        unfold openCount
        rw [if_pos]
        cases hc : v.nodeType with
        | chance => rfl
        | utility => exact absurd hc hv'.2
        | decision => exact absurd hc hd
  rw [key w hw, key _ (Allowed.set hn hw hk)]
  refine sumWorlds_blind (Blind.mul (Blind.prod (fun u hu => ?_)) (hFb d le_rfl)) S ?_ w k
  · obtain ⟨h1, h2⟩ := hearly u hu
    have hnd : u.nodeType ≠ .decision := by
      intro h
      rcases (hHm u h1).2.1 with h' | h'
      · rw [h] at h'; exact absurd h' (by decide)
      · have := hB _ h'.2; omega
    refine Blind.mul (kernel_blind (fun e => ?_) (fun f hf hfu hg => ?_)) (fun w k => by simp only [if_neg hnd])
    · rw [e] at h2; omega
    · have := ht.chance f hf _ hg
      rw [hfu] at this
      omega
  · intro h
    obtain ⟨u, hu, e⟩ := List.mem_map.1 h
    have := (hearly u hu).2
    rw [e] at this; omega

end Bbn
