import Verif.Lemmas.Cost

/-!
# The game of taking out variables
-/

set_option autoImplicit false

namespace Bbn

open Finset

variable {k : Nat → Nat}

theorem mem_around {i a : Nat} {S : Multiset (Finset Nat)} : a ∈ around i S ↔ ∃ s ∈ S, i ∈ s ∧ a ∈ s := by
  unfold around
  rw [mem_sup]
  simp only [Multiset.mem_filter]
  exact ⟨fun ⟨s, ⟨h1, h2⟩, h3⟩ => ⟨s, h1, h2, h3⟩, fun ⟨s, h1, h2, h3⟩ => ⟨s, ⟨h1, h2⟩, h3⟩⟩

theorem mem_takeOut {i : Nat} {S : Multiset (Finset Nat)} {s : Finset Nat} :
    s ∈ takeOut i S ↔ (s ∈ S ∧ i ∉ s) ∨ s = (around i S).erase i := by
  unfold takeOut
  rw [Multiset.mem_add, Multiset.mem_filter, Multiset.mem_singleton]

/-- Variables that occur together go on to do so. -/
theorem together_takeOut {i a b : Nat} {S : Multiset (Finset Nat)} (ha : a ≠ i) (hb : b ≠ i)
    (h : ∃ s ∈ S, a ∈ s ∧ b ∈ s) : ∃ s ∈ takeOut i S, a ∈ s ∧ b ∈ s := by
  obtain ⟨s, h1, h2, h3⟩ := h
  by_cases hi : i ∈ s
  · refine ⟨_, mem_takeOut.2 (.inr rfl), ?_, ?_⟩
    · exact mem_erase.2 ⟨ha, mem_around.2 ⟨s, h1, hi, h2⟩⟩
    · exact mem_erase.2 ⟨hb, mem_around.2 ⟨s, h1, hi, h3⟩⟩
  · exact ⟨s, mem_takeOut.2 (.inl ⟨h1, hi⟩), h2, h3⟩

/-- A variable that is taken out before its neighbours makes a table over all of these. -/
theorem biggest_before (hk : ∀ i, 0 < k i) {i : Nat} {T : Finset Nat} (before after : List Nat)
    {S : Multiset (Finset Nat)} (hi : i ∉ before) (hT : ∀ a ∈ T, a ∉ before) (h : ∀ a ∈ T, ∃ s ∈ S, i ∈ s ∧ a ∈ s) :
    entriesOver k T ≤ biggest k (before ++ i :: after) S := by
  induction before generalizing S with
  | nil =>
    refine le_trans (entriesOver_mono hk (fun a ha => ?_)) (le_max_left _ _)
    exact mem_around.2 (h a ha)
  | cons b before ih =>
    refine le_trans (ih (fun h => hi (List.mem_cons_of_mem _ h)) (fun a ha h => hT a ha (List.mem_cons_of_mem _ h)) ?_)
      (le_max_right _ _)
    intro a ha
    refine together_takeOut ?_ ?_ (h a ha)
    · rintro rfl; exact hi List.mem_cons_self
    · rintro rfl; exact hT _ ha List.mem_cons_self

theorem entriesOver_le {K : Nat} (hk : ∀ i, k i ≤ K) (hK : 0 < K) {s : Finset Nat} {m : Nat} (h : s.card ≤ m) :
    entriesOver k s ≤ K ^ m :=
  le_trans (Finset.prod_le_pow_card s k K (fun i _ => hk i)) (Nat.pow_le_pow_right hK h)

theorem sup_subset {S : Multiset (Finset Nat)} {Q : Finset Nat} (h : ∀ s ∈ S, ∀ a ∈ s, a ∈ Q) : S.sup ⊆ Q := by
  intro a ha
  obtain ⟨s, hs, h'⟩ := mem_sup.1 ha
  exact h s hs a h'

theorem mem_takeOut_sub {i : Nat} {S : Multiset (Finset Nat)} {is : List Nat} {Q : Finset Nat}
    (h : ∀ s ∈ S, ∀ a ∈ s, a ∈ i :: is ∨ a ∈ Q) : ∀ s ∈ takeOut i S, ∀ a ∈ s, a ∈ is ∨ a ∈ Q := by
  intro s hs a ha
  have key : (a ∈ i :: is ∨ a ∈ Q) ∧ a ≠ i := by
    rcases mem_takeOut.1 hs with ⟨h1, h2⟩ | rfl
    · exact ⟨h s h1 a ha, fun e => h2 (e ▸ ha)⟩
    · obtain ⟨h1, h2⟩ := mem_erase.1 ha
      obtain ⟨t, t1, _, t3⟩ := mem_around.1 h2
      exact ⟨h t t1 a t3, h1⟩
  rcases key.1 with h1 | h1
  · exact .inl ((List.mem_cons.1 h1).resolve_left key.2)
  · exact .inr h1

/-- Taking out variables on a line, in any order. -/
theorem biggest_line {K : Nat} (hkK : ∀ i, k i ≤ K) (hK : 0 < K) (pos : Nat → Nat) (Q : Finset Nat) (is : List Nat)
    (S : Multiset (Finset Nat)) (hnd : is.Nodup) (hinj : ∀ a ∈ is, ∀ b ∈ is, pos a = pos b → a = b)
    (hS : ∀ s ∈ S, ∀ a ∈ s, a ∈ is ∨ a ∈ Q)
    (hbet : ∀ s ∈ S, ∀ a ∈ s, ∀ b ∈ s, a ∈ is → b ∈ is → ∀ c ∈ is, pos a < pos c → ¬ pos c < pos b) :
    biggest k is S ≤ K ^ (3 + Q.card) := by
  induction is generalizing S with
  | nil =>
    refine entriesOver_le hkK hK (le_trans (card_le_card (sup_subset (Q := Q) ?_)) (by omega))
    intro s hs a ha
    simpa using hS s hs a ha
  | cons i is ih =>
    have hor : ∀ a ∈ around i S, a ∈ i :: is ∨ a ∈ Q := by
      intro a ha
      obtain ⟨s, h1, _, h3⟩ := mem_around.1 ha
      exact hS s h1 a h3
    have hi : i ∈ i :: is := List.mem_cons_self
    -- a neighbour on one side hides all that is behind it
    have hbelow : ∀ a ∈ around i S, a ∈ i :: is → ∀ b ∈ i :: is, pos a < pos b → pos b < pos i → False := by
      intro a ha hai b hb h1 h2
      obtain ⟨s, s1, s2, s3⟩ := mem_around.1 ha
      exact hbet s s1 a s3 i s2 hai hi b hb h1 h2
    have habove : ∀ a ∈ around i S, a ∈ i :: is → ∀ b ∈ i :: is, pos i < pos b → pos b < pos a → False := by
      intro a ha hai b hb h1 h2
      obtain ⟨s, s1, s2, s3⟩ := mem_around.1 ha
      exact hbet s s1 i s2 a s3 hi hai b hb h1 h2
    refine max_le (entriesOver_le hkK hK ?_) (ih (takeOut i S) hnd.of_cons
      (fun a ha b hb => hinj a (List.mem_cons_of_mem _ ha) b (List.mem_cons_of_mem _ hb)) (mem_takeOut_sub hS) ?_)
    · have hsub : around i S ⊆ Q ∪ ({i} ∪ (((around i S).filter (fun a => a ∈ i :: is ∧ pos a < pos i)) ∪
          ((around i S).filter (fun a => a ∈ i :: is ∧ pos i < pos a)))) := by
        intro a ha
        simp only [mem_union, mem_singleton, mem_filter]
        rcases hor a ha with h | h
        · rcases Nat.lt_trichotomy (pos a) (pos i) with h' | h' | h'
          · exact .inr (.inr (.inl ⟨ha, h, h'⟩))
          · exact .inr (.inl (hinj a h i hi h'))
          · exact .inr (.inr (.inr ⟨ha, h, h'⟩))
        · exact .inl h
      have c1 : ((around i S).filter (fun a => a ∈ i :: is ∧ pos a < pos i)).card ≤ 1 := by
        rw [card_le_one]
        intro a ha b hb
        obtain ⟨a1, a2, a3⟩ := mem_filter.1 ha
        obtain ⟨b1, b2, b3⟩ := mem_filter.1 hb
        rcases Nat.lt_trichotomy (pos a) (pos b) with h | h | h
        · exact (hbelow a a1 a2 b b2 h b3).elim
        · exact hinj a a2 b b2 h
        · exact (hbelow b b1 b2 a a2 h a3).elim
      have c2 : ((around i S).filter (fun a => a ∈ i :: is ∧ pos i < pos a)).card ≤ 1 := by
        rw [card_le_one]
        intro a ha b hb
        obtain ⟨a1, a2, a3⟩ := mem_filter.1 ha
        obtain ⟨b1, b2, b3⟩ := mem_filter.1 hb
        rcases Nat.lt_trichotomy (pos a) (pos b) with h | h | h
        · exact (habove b b1 b2 a a2 a3 h).elim
        · exact hinj a a2 b b2 h
        · exact (habove a a1 a2 b b2 b3 h).elim
      refine le_trans (card_le_card hsub) (le_trans (card_union_le _ _) ?_)
      have := card_union_le ({i} : Finset Nat) (((around i S).filter (fun a => a ∈ i :: is ∧ pos a < pos i)) ∪
          ((around i S).filter (fun a => a ∈ i :: is ∧ pos i < pos a)))
      have := card_union_le ((around i S).filter (fun a => a ∈ i :: is ∧ pos a < pos i))
          ((around i S).filter (fun a => a ∈ i :: is ∧ pos i < pos a))
      have := card_singleton i
      omega
    · intro s hs a ha b hb hai hbi c hci h1 h2
      have hai' := List.mem_cons_of_mem i hai
      have hbi' := List.mem_cons_of_mem i hbi
      have hci' := List.mem_cons_of_mem i hci
      rcases mem_takeOut.1 hs with ⟨s1, _⟩ | rfl
      · exact hbet s s1 a ha b hb hai' hbi' c hci' h1 h2
      · have ha' := (mem_erase.1 ha).2
        have hb' := (mem_erase.1 hb).2
        have hci2 : pos c ≠ pos i := fun e => by
          have := hinj c hci' i hi e
          exact (List.nodup_cons.1 hnd).1 (this ▸ hci)
        rcases Nat.lt_or_gt_of_ne hci2 with h | h
        · exact hbelow a ha' hai' c hci' h1 h
        · exact habove b hb' hbi' c hci' h h2

/-- Taking out the variables of a network around a line, those with few neighbours first. -/
theorem biggest_aroundLine {K : Nat} (hkK : ∀ i, k i ≤ K) (hK : 0 < K) (pos : Nat → Nat) (line : Finset Nat)
    (hinj : ∀ a ∈ line, ∀ b ∈ line, pos a = pos b → a = b) {S₀ : Multiset (Finset Nat)}
    (hline : ∀ s ∈ S₀, ∀ a ∈ s, ∀ b ∈ s, a ∈ line → b ∈ line → pos b ≤ pos a + 1)
    (Q : Finset Nat) (is : List Nat) (hleaf : ∀ i ∈ is, i ∉ line → (around i S₀).card ≤ 2) (hnd : is.Nodup)
    (hsort : is.Pairwise (fun i j => (around i S₀).card ≤ (around j S₀).card))
    (S : Multiset (Finset Nat)) (hS : ∀ s ∈ S, ∀ a ∈ s, a ∈ is ∨ a ∈ Q)
    (hsub : ∀ s ∈ S, s.card ≤ 1 ∨ ∃ t ∈ S₀, s ⊆ t) : biggest k is S ≤ K ^ (3 + Q.card) := by
  induction is generalizing S with
  | nil =>
    refine entriesOver_le hkK hK (le_trans (card_le_card (sup_subset (Q := Q) ?_)) (by omega))
    intro s hs a ha
    simpa using hS s hs a ha
  | cons i is ih =>
    by_cases hdeg : (around i S₀).card ≤ 2
    · -- few neighbours: nothing new gets connected
      have hle : around i S ⊆ insert i (around i S₀) := by
        intro a ha
        obtain ⟨s, s1, s2, s3⟩ := mem_around.1 ha
        rcases hsub s s1 with h | ⟨t, t1, t2⟩
        · rw [card_le_one.1 h a s3 i s2]; exact mem_insert_self _ _
        · exact mem_insert_of_mem (mem_around.2 ⟨t, t1, t2 s2, t2 s3⟩)
      have hins : (insert i (around i S₀)).card ≤ 2 := by
        by_cases hi : i ∈ around i S₀
        · rwa [insert_eq_of_mem hi]
        · have : around i S₀ = ∅ := by
            rw [eq_empty_iff_forall_notMem]
            intro a ha
            obtain ⟨s, s1, s2, _⟩ := mem_around.1 ha
            exact hi (mem_around.2 ⟨s, s1, s2, s2⟩)
          rw [this]; simp
      refine max_le (entriesOver_le hkK hK (le_trans (card_le_card hle) (by omega)))
        (ih (fun j hj => hleaf j (List.mem_cons_of_mem _ hj)) hnd.of_cons hsort.of_cons _ (mem_takeOut_sub hS) ?_)
      intro s hs
      rcases mem_takeOut.1 hs with ⟨s1, _⟩ | rfl
      · exact hsub s s1
      · refine .inl ?_
        have h1 : (around i S).erase i ⊆ (insert i (around i S₀)).erase i := erase_subset_erase _ hle
        have h2 := card_le_card h1
        rw [card_erase_of_mem (mem_insert_self _ _)] at h2
        omega
    · -- from here on all variables are on the line
      have hin : ∀ j ∈ i :: is, j ∈ line := by
        intro j hj
        by_contra hc
        have h1 := hleaf j hj hc
        rcases List.mem_cons.1 hj with rfl | hj
        · exact hdeg h1
        · have := List.rel_of_pairwise_cons hsort hj
          omega
      refine biggest_line hkK hK pos Q (i :: is) S hnd
        (fun a ha b hb => hinj a (hin a ha) b (hin b hb)) hS ?_
      intro s hs a ha b hb hai hbi c _ h1 h2
      rcases hsub s hs with h | ⟨t, t1, t2⟩
      · have := card_le_one.1 h a ha b hb
        subst this
        omega
      · have := hline t t1 a (t2 ha) b (t2 hb) (hin a hai) (hin b hbi)
        omega

/-- Taking out the variables of a network with single parents, children before parents. -/
theorem biggest_childrenFirst {K : Nat} (hkK : ∀ i, k i ≤ K) (hK : 0 < K) (par : Nat → Nat) (Q : Finset Nat)
    (is : List Nat) (S : Multiset (Finset Nat)) (hnd : is.Nodup)
    (hord : ∀ j ∈ is, par j ∈ is → par j ≠ j → List.Sublist [j, par j] is)
    (hS : ∀ s ∈ S, ∀ a ∈ s, a ∈ is ∨ a ∈ Q)
    (hpar : ∀ s ∈ S, ∃ j, ∀ a ∈ s, a ∈ is → a = j ∨ a = par j) : biggest k is S ≤ K ^ (2 + Q.card) := by
  induction is generalizing S with
  | nil =>
    refine entriesOver_le hkK hK (le_trans (card_le_card (sup_subset (Q := Q) ?_)) (by omega))
    intro s hs a ha
    simpa using hS s hs a ha
  | cons i is ih =>
    have hi : i ∉ is := (List.nodup_cons.1 hnd).1
    have htail : ∀ j b, j ≠ i → List.Sublist [j, b] (i :: is) → List.Sublist [j, b] is := by
      intro j b hj h
      cases h with
      | cons _ h => exact h
      | cons_cons _ h => exact absurd rfl hj
    have hin : ∀ a ∈ around i S, a ∈ i :: is → a = i ∨ a = par i := by
      intro a ha h
      obtain ⟨s, s1, s2, s3⟩ := mem_around.1 ha
      obtain ⟨j, hj⟩ := hpar s s1
      by_cases hai : a = i
      · exact .inl hai
      rcases hj i s2 List.mem_cons_self with rfl | e
      · exact hj a s3 h
      · rcases hj a s3 h with rfl | h'
        · exfalso
          have := htail a (par a) hai (hord a h (e ▸ List.mem_cons_self) (by rw [← e]; exact fun h => hai h.symm))
          exact hi (e ▸ this.subset (by simp))
        · exact .inl (h'.trans e.symm)
    have hor : ∀ a ∈ around i S, a = i ∨ a = par i ∨ a ∈ Q := by
      intro a ha
      obtain ⟨s, s1, _, s3⟩ := mem_around.1 ha
      rcases hS s s1 a s3 with h | h
      · exact (hin a ha h).imp_right .inl
      · exact .inr (.inr h)
    refine max_le (entriesOver_le hkK hK ?_) (ih (takeOut i S) hnd.of_cons ?_ (mem_takeOut_sub hS) ?_)
    · have hsub : around i S ⊆ insert i (insert (par i) Q) := by
        intro a ha
        rcases hor a ha with rfl | rfl | h <;> simp [*]
      refine le_trans (card_le_card hsub) ?_
      have h1 := card_insert_le i (insert (par i) Q)
      have h2 := card_insert_le (par i) Q
      omega
    · intro j hj hp hne
      exact htail j _ (fun h => hi (h ▸ hj)) (hord j (List.mem_cons_of_mem _ hj) (List.mem_cons_of_mem _ hp) hne)
    · intro s hs
      rcases mem_takeOut.1 hs with ⟨s1, _⟩ | rfl
      · obtain ⟨j, hj⟩ := hpar s s1
        exact ⟨j, fun a ha h => hj a ha (List.mem_cons_of_mem _ h)⟩
      · refine ⟨par i, fun a ha h => .inl ?_⟩
        obtain ⟨h1, h2⟩ := mem_erase.1 ha
        exact (hin a h2 (List.mem_cons_of_mem _ h)).resolve_left h1

/-- What is contained in bigger sets needs smaller tables, if the common variables go in the same order. -/
theorem biggest_sublist (hk : ∀ i, 0 < k i) {is' is : List Nat} (hsub : List.Sublist is' is)
    {S' S : Multiset (Finset Nat)} (h : ∀ s' ∈ S', ∃ s ∈ S, s' ⊆ s) (hout : ∀ s' ∈ S', ∀ a ∈ s', a ∈ is → a ∈ is')
    (hnd : is.Nodup) : biggest k is' S' ≤ biggest k is S := by
  induction hsub generalizing S' S with
  | slnil =>
    refine entriesOver_mono hk ?_
    intro a ha
    obtain ⟨s, s1, s2⟩ := mem_sup.1 ha
    obtain ⟨t, t1, t2⟩ := h s s1
    exact mem_sup.2 ⟨t, t1, t2 s2⟩
  | @cons is' is x hsub ih =>
    refine le_trans (ih ?_ ?_ hnd.of_cons) (le_max_right _ _)
    · intro s' hs'
      obtain ⟨s, s1, s2⟩ := h s' hs'
      have hx : x ∉ s' := fun hx => (List.nodup_cons.1 hnd).1 (hsub.subset (hout s' hs' x hx List.mem_cons_self))
      by_cases hxs : x ∈ s
      · refine ⟨_, mem_takeOut.2 (.inr rfl), fun a ha => mem_erase.2 ⟨fun e => hx (e ▸ ha), ?_⟩⟩
        exact mem_around.2 ⟨s, s1, hxs, s2 ha⟩
      · exact ⟨s, mem_takeOut.2 (.inl ⟨s1, hxs⟩), s2⟩
    · exact fun s' hs' a ha hai => hout s' hs' a ha (List.mem_cons_of_mem _ hai)
  | @cons_cons is' is x hsub ih =>
    have hi : x ∉ is := (List.nodup_cons.1 hnd).1
    refine max_le_max (entriesOver_mono hk ?_) (ih ?_ ?_ hnd.of_cons)
    · intro a ha
      obtain ⟨s, s1, s2, s3⟩ := mem_around.1 ha
      obtain ⟨t, t1, t2⟩ := h s s1
      exact mem_around.2 ⟨t, t1, t2 s2, t2 s3⟩
    · intro s' hs'
      rcases mem_takeOut.1 hs' with ⟨s1, s2⟩ | rfl
      · obtain ⟨s, t1, t2⟩ := h s' s1
        by_cases hxs : x ∈ s
        · refine ⟨_, mem_takeOut.2 (.inr rfl), fun a ha => mem_erase.2 ⟨fun e => s2 (e ▸ ha), ?_⟩⟩
          exact mem_around.2 ⟨s, t1, hxs, t2 ha⟩
        · exact ⟨s, mem_takeOut.2 (.inl ⟨t1, hxs⟩), t2⟩
      · refine ⟨_, mem_takeOut.2 (.inr rfl), fun a ha => ?_⟩
        obtain ⟨h1, h2⟩ := mem_erase.1 ha
        obtain ⟨s, s1, s2, s3⟩ := mem_around.1 h2
        obtain ⟨t, t1, t2⟩ := h s s1
        exact mem_erase.2 ⟨h1, mem_around.2 ⟨t, t1, t2 s2, t2 s3⟩⟩
    · intro s' hs' a ha hai
      have hne : a ≠ x := fun e => hi (e ▸ hai)
      refine List.mem_of_ne_of_mem hne ?_
      rcases mem_takeOut.1 hs' with ⟨s1, _⟩ | rfl
      · exact hout s' s1 a ha (List.mem_cons_of_mem _ hai)
      · obtain ⟨s, s1, _, s3⟩ := mem_around.1 (mem_erase.1 ha).2
        exact hout s s1 a s3 (List.mem_cons_of_mem _ hai)

end Bbn
