import Mathlib.Algebra.Order.BigOperators.GroupWithZero.List
import Verif.Spec.Recall
import Verif.Lemmas.Worlds
import Verif.Props.NetStepwise

/-!
# Decisions solved one after another, with all information declared
-/

set_option autoImplicit false

namespace Bbn

open Finset

variable {α : Type}

theorem sumWorlds_le [AddCommMonoid α] [PartialOrder α] [IsOrderedAddMonoid α] {F G : World → α} :
    ∀ (l : List NVar) (w : World), (l.map NVar.name).Nodup →
    (∀ w' : World, (∀ v ∈ l, w' v.name < v.outcomes.length) → (∀ s, s ∉ l.map NVar.name → w' s = w s) → F w' ≤ G w') →
    sumWorlds l F w ≤ sumWorlds l G w := by
  intro l
  induction l with
  | nil => intro w _ h; exact h w (by simp) (by simp)
  | cons v l ih =>
    intro w hnd h
    rw [List.map_cons, List.nodup_cons] at hnd
    simp only [sumWorlds]
    apply Finset.sum_le_sum
    intro k hk
    apply ih _ hnd.2
    intro w' h1 h2
    apply h w'
    · intro u hu
      rcases List.mem_cons.1 hu with rfl | hu
      · rw [h2 _ hnd.1]; simpa [World.set] using hk
      · exact h1 u hu
    · intro s hs
      simp only [List.map_cons, List.mem_cons, not_or] at hs
      rw [h2 s hs.2]
      simp [World.set, hs.1]

/-- An average is not above the average by a distribution on maximal values only. -/
theorem average_le_best [Field α] [LinearOrder α] [IsStrictOrderedRing α] {m : Nat} {p q W : Nat → α}
    (hp : ∀ k < m, 0 ≤ p k) (hp1 : ∑ k ∈ range m, p k = 1) (hq1 : ∑ k ∈ range m, q k = 1)
    (hb : ∀ k < m, q k ≠ 0 → ∀ j < m, W j ≤ W k) :
    ∑ k ∈ range m, p k * W k ≤ ∑ k ∈ range m, q k * W k := by
  obtain ⟨k0, hk0, hne⟩ : ∃ k < m, q k ≠ 0 := by
    by_contra h
    push Not at h
    rw [Finset.sum_eq_zero (fun k hk => h k (mem_range.1 hk))] at hq1
    exact absurd hq1 zero_ne_one
  have hr : ∑ k ∈ range m, q k * W k = ∑ k ∈ range m, q k * W k0 := by
    apply Finset.sum_congr rfl
    intro k hk
    by_cases h : q k = 0
    · rw [h, zero_mul, zero_mul]
    · rw [le_antisymm (hb k0 hk0 hne k (mem_range.1 hk)) (hb k (mem_range.1 hk) h k0 hk0)]
  rw [hr, ← Finset.sum_mul, hq1, ← hp1, Finset.sum_mul]
  exact Finset.sum_le_sum (fun k hk =>
    mul_le_mul_of_nonneg_left (hb k0 hk0 hne k (mem_range.1 hk)) (hp k (mem_range.1 hk)))

/-- In an order, all that was known before is still known. -/
theorem Net.Recall.known {n : Net α} (hn : n.Valid) (hr : n.Recall) {order : List String} (hp : order.Perm n.decisions)
    (ho : n.Ordered order) {A : List String} {d : String} {B : List String} (hl : order = A ++ d :: B) {s : String}
    (h : n.Known (A ++ [d]) s) : n.Known [d] s := by
  have hnd : order.Nodup := hp.nodup_iff.2 (decisions_nodup hn)
  have hdd : d ∈ n.decisions := hp.subset (by rw [hl]; simp)
  have key : ∀ a ∈ A, n.Remembers a d := by
    intro a ha
    have had : a ∈ n.decisions := hp.subset (by rw [hl]; simp [ha])
    rcases hr a had d hdd with rfl | h | ⟨h1, h2⟩
    · rw [hl, List.nodup_append] at hnd
      exact absurd rfl (hnd.2.2 a ha a (by simp))
    · exact h
    · exfalso
      obtain ⟨A1, A2, rfl⟩ := List.append_of_mem ha
      rcases h2 d (.inl (by simp)) with h | ⟨f, hf, h3, h4⟩
      · exact h1 (List.mem_singleton.1 h)
      have : d ∈ A1 := ho A1 a (A2 ++ d :: B) (by rw [hl]; simp) d
        ⟨mem_decisions.1 hdd, mem_decisions.1 had, f, hf, List.mem_singleton.1 h3, h4⟩
      rw [hl, List.nodup_append] at hnd
      exact hnd.2.2 d (by simp [this]) d (by simp) rfl
  rcases h with h | ⟨f, hf, h1, h2⟩
  · rcases List.mem_append.1 h with h | h
    · exact (key s h).2 s (.inl (by simp))
    · exact .inl h
  · rcases List.mem_append.1 h1 with h | h
    · exact (key _ h).2 s (.inr ⟨f, hf, by simp, h2⟩)
    · exact .inr ⟨f, hf, h, h2⟩

theorem Net.Recall.inLine {n : Net α} (hr : n.Recall) : n.InLine := by
  have key : ∀ d ∈ n.decisions, ∀ e ∈ n.decisions, n.Remembers d e → Relation.TransGen n.DecisionParent d e := by
    intro d hd e he h
    rcases h.2 d (.inl (by simp)) with h' | ⟨f, hf, h3, h4⟩
    · exact absurd (List.mem_singleton.1 h') h.1
    · exact .single ⟨mem_decisions.1 hd, mem_decisions.1 he, f, hf, List.mem_singleton.1 h3, h4⟩
  intro d hd e he
  rcases hr d hd e he with h | h | h
  · exact .inl h
  · exact .inr (.inl (key d hd e he h))
  · exact .inr (.inr (key e he d hd h))

/-- The expected total utility if the decisions in `A` are taken as `δ` says, those in `B` as `π` says. -/
def Net.mixed [Field α] [DecidableEq α] (n : Net α) (δ π : String → World → α) (A B : List String) : α :=
  sumWorlds n.stateVars (fun w => (n.chanceTables.map (fun f => n.prob f w)).prod * n.totalIn w *
    ((A.map (fun d => δ d w)).prod * (B.map (fun d => π d w)).prod)) (fun _ => 0)

/-- One decision more by `π`, the later ones as well, is not worse if `π` is a best response. -/
theorem mixed_step [Field α] [LinearOrder α] [IsStrictOrderedRing α] {n : Net α} (hn : n.Valid) (hr : n.Recall)
    {order : List String} (hp : order.Perm n.decisions) (ho : n.Ordered order) {A : List String} {d : String}
    {B : List String} (hl : order = A ++ d :: B) {δ π : String → World → α}
    (hδ : ∀ A d B, order = A ++ d :: B → n.Strategy A d (δ d)) (hπ : n.Strategy A d (π d))
    (hb : ∀ w : World, (∀ v ∈ n.variables, w v.name < v.outcomes.length) → π d w ≠ 0 → ∀ k < n.count d,
      n.worthTo π B d (w.set d k) ≤ n.worthTo π B d w) :
    n.mixed δ π (A ++ [d]) B ≤ n.mixed δ π A (d :: B) := by
  have hnd : order.Nodup := hp.nodup_iff.2 (decisions_nodup hn)
  have hdd : d ∈ n.decisions := hp.subset (by rw [hl]; simp)
  obtain ⟨dv, hdv, hdn, hdt⟩ := isKind_mem.1 (mem_decisions.1 hdd)
  have hkn : ∀ s, n.Known (A ++ [d]) s → n.Known [d] s := fun s h => hr.known hn hp ho hl h
  have hkd : n.Known [d] d := .inl (by simp)
  -- the variables: known ones, the decision, hidden ones
  set K := n.stateVars.filter (fun v => n.Known [d] v.name ∧ v.name ≠ d) with hK
  have hperm : n.stateVars.Perm (K ++ ([dv] ++ n.hiddenFrom B d)) := by
    apply (List.perm_ext_iff_of_nodup ?_ ?_).2
    · intro v
      simp only [hK, List.mem_append, List.mem_filter, List.mem_singleton, Net.hiddenFrom, decide_eq_true_eq, mem_stateVars]
      constructor
      · rintro ⟨h1, h2⟩
        by_cases hvd : v.name = d
        · exact .inr (.inl (name_unique hn h1 hdv (by rw [hvd, hdn])))
        by_cases hv : n.Known [d] v.name
        · exact .inl ⟨⟨h1, h2⟩, hv, hvd⟩
        · refine .inr (.inr ⟨h1, ?_, hv⟩)
          match ht : v.nodeType, h2 with
          | .chance, _ => exact .inl rfl
          | .decision, _ =>
            refine .inr ⟨rfl, ?_⟩
            have : v.name ∈ order := hp.symm.subset (mem_decisions.2 (isKind_mem.2 ⟨v, h1, rfl, ht⟩))
            rw [hl, List.mem_append, List.mem_cons] at this
            rcases this with h | h | h
            · exact absurd (hkn _ (.inl (by simp [h]))) hv
            · exact absurd h hvd
            · exact h
          | .utility, h => exact absurd rfl h
      · rintro (⟨h, _⟩ | rfl | ⟨h1, h2, _⟩)
        · exact h
        · exact ⟨hdv, by rw [hdt]; decide⟩
        · refine ⟨h1, ?_⟩
          rcases h2 with h2 | ⟨h2, _⟩ <;> rw [h2] <;> decide
    · exact List.Nodup.of_map NVar.name (hn.names.sublist (List.filter_sublist.map _))
    · rw [List.nodup_append, List.nodup_append]
      refine ⟨List.Nodup.of_map NVar.name (hn.names.sublist
        ((List.filter_sublist.trans List.filter_sublist).map _)), ⟨by simp,
        List.Nodup.of_map NVar.name (hn.names.sublist (List.filter_sublist.map _)), ?_⟩, ?_⟩
      · intro a ha b hb' e
        rw [List.mem_singleton.1 ha] at e
        rw [← e] at hb'
        simp only [Net.hiddenFrom, List.mem_filter, decide_eq_true_eq] at hb'
        exact hb'.2.2 (hdn ▸ hkd)
      · intro a ha b hb' e
        subst e
        simp only [hK, List.mem_filter, decide_eq_true_eq] at ha
        rcases List.mem_append.1 hb' with h | h
        · exact ha.2.2 (by rw [List.mem_singleton.1 h, hdn])
        · simp only [Net.hiddenFrom, List.mem_filter, decide_eq_true_eq] at h
          exact h.2.2 ha.2.1
  have hhn : ((n.hiddenFrom B d).map NVar.name).Nodup := hn.names.sublist (List.filter_sublist.map _)
  -- one of the decisions up to `d` does not depend on what is hidden
  have hkeep : ∀ w w' : World, (∀ v ∈ n.variables, w v.name < v.outcomes.length) →
      (∀ v ∈ n.hiddenFrom B d, w' v.name < v.outcomes.length) → (∀ s, s ∉ (n.hiddenFrom B d).map NVar.name → w' s = w s) →
      n.Allowed w' ∧ ∀ s, n.Known [d] s → w' s = w s := by
    intro w w' hw h1 h2
    constructor
    · intro v hv
      by_cases hu : v.name ∈ (n.hiddenFrom B d).map NVar.name
      · obtain ⟨u, hu1, hu2⟩ := List.mem_map.1 hu
        have := name_unique hn (List.mem_filter.1 hu1).1 (mem_stateVars.1 hv).1 hu2
        exact this ▸ h1 u hu1
      · rw [h2 _ hu]; exact hw v (mem_stateVars.1 hv).1
    · intro s hs
      apply h2
      intro hu
      obtain ⟨u, hu1, rfl⟩ := List.mem_map.1 hu
      simp only [Net.hiddenFrom, List.mem_filter, decide_eq_true_eq] at hu1
      exact hu1.2.2 hs
  have hsubA : ∀ (A1 : List String) (a : String) (A2 : List String), A = A1 ++ a :: A2 → ∀ s, n.Known (A1 ++ [a]) s →
      n.Known (A ++ [d]) s := by
    intro A1 a A2 e s h
    have hsub : ∀ x ∈ A1 ++ [a], x ∈ A ++ [d] := by
      intro x hx
      rw [e]
      simp only [List.mem_append, List.mem_cons, List.not_mem_nil, or_false] at hx ⊢
      tauto
    rcases h with h | ⟨f, hf, h1, h2⟩
    · exact .inl (hsub s h)
    · exact .inr ⟨f, hf, hsub _ h1, h2⟩
  have hallow : ∀ w : World, (∀ v ∈ n.variables, w v.name < v.outcomes.length) → n.Allowed w :=
    fun w hw v hv => hw v (mem_stateVars.1 hv).1
  have inner : ∀ (ε : World → α), n.Strategy A d ε → ∀ w : World, (∀ v ∈ n.variables, w v.name < v.outcomes.length) →
      sumWorlds (n.hiddenFrom B d) (fun w => (n.chanceTables.map (fun f => n.prob f w)).prod * n.totalIn w *
        ((A.map (fun d => δ d w)).prod * ε w * (B.map (fun d => π d w)).prod)) w =
      (A.map (fun d => δ d w)).prod * (ε w * n.worthTo π B d w) := by
    intro ε hε w hw
    rw [← mul_assoc]
    unfold Net.worthTo
    rw [← sumWorlds_mul]
    apply sumWorlds_congr _ _ hhn
    intro w' h1 h2
    obtain ⟨h3, h4⟩ := hkeep w w' hw h1 h2
    have e1 : A.map (fun d => δ d w') = A.map (fun d => δ d w) := by
      apply List.map_congr_left
      intro a ha
      obtain ⟨A1, A2, e⟩ := List.append_of_mem ha
      refine (hδ A1 a (A2 ++ d :: B) (by rw [hl, e]; simp)).known w' w h3 (hallow w hw) (fun s hs => ?_)
      exact h4 s (hkn s (hsubA A1 a A2 e s hs))
    have e2 : ε w' = ε w := hε.known w' w h3 (hallow w hw) (fun s hs => h4 s (hkn s hs))
    rw [e1, e2]
    ring
  have hδd := hδ A d B hl
  have e1 : n.mixed δ π (A ++ [d]) B = sumWorlds (K ++ ([dv] ++ n.hiddenFrom B d))
      (fun w => (n.chanceTables.map (fun f => n.prob f w)).prod * n.totalIn w *
        ((A.map (fun d => δ d w)).prod * δ d w * (B.map (fun d => π d w)).prod)) (fun _ => 0) := by
    unfold Net.mixed
    rw [sumWorlds_perm _ hperm]
    · congr 1; funext w; simp
    · exact hn.names.sublist (List.filter_sublist.map _)
  have e2 : n.mixed δ π A (d :: B) = sumWorlds (K ++ ([dv] ++ n.hiddenFrom B d))
      (fun w => (n.chanceTables.map (fun f => n.prob f w)).prod * n.totalIn w *
        ((A.map (fun d => δ d w)).prod * π d w * (B.map (fun d => π d w)).prod)) (fun _ => 0) := by
    unfold Net.mixed
    rw [sumWorlds_perm _ hperm]
    · congr 1; funext w; simp [mul_assoc]
    · exact hn.names.sublist (List.filter_sublist.map _)
  rw [e1, e2, sumWorlds_append, sumWorlds_append]
  apply sumWorlds_le
  · exact hn.names.sublist ((List.filter_sublist.trans List.filter_sublist).map _)
  intro w h1 h2
  have hw : ∀ v ∈ n.variables, w v.name < v.outcomes.length := by
    intro v hv
    by_cases hu : v.name ∈ K.map NVar.name
    · obtain ⟨u, hu1, hu2⟩ := List.mem_map.1 hu
      have := name_unique hn (mem_stateVars.1 (List.mem_filter.1 hu1).1).1 hv hu2
      exact this ▸ h1 u hu1
    · rw [h2 _ hu]; exact (hn.outcomes v hv).1
  have hwk : ∀ k < dv.outcomes.length, ∀ v ∈ n.variables, (w.set d k) v.name < v.outcomes.length := by
    intro k hk v hv
    by_cases hvd : v.name = d
    · have := name_unique hn hv hdv (by rw [hvd, hdn])
      subst this
      simp [World.set, hvd, hk]
    · simp only [World.set, hvd, if_false]; exact hw v hv
  rw [sumWorlds_append, sumWorlds_append]
  simp only [sumWorlds, hdn]
  have hA : ∀ k < dv.outcomes.length, (A.map (fun e => δ e (w.set d k))).prod = (A.map (fun e => δ e w)).prod := by
    intro k hk
    congr 1
    apply List.map_congr_left
    intro a ha
    obtain ⟨A1, A2, e⟩ := List.append_of_mem ha
    refine (hδ A1 a (A2 ++ d :: B) (by rw [hl, e]; simp)).known _ _ (hallow _ (hwk k hk)) (hallow w hw) (fun s hs => ?_)
    have : s ≠ d := by
      rintro rfl
      have hsA : s ∉ A1 ++ [a] := by
        intro h
        rw [hl, e, List.nodup_append] at hnd
        exact hnd.2.2 s (by simp only [List.mem_append, List.mem_cons, List.not_mem_nil, or_false] at h ⊢; tauto) s
          (by simp) rfl
      rcases hs with hs | ⟨f, hf, h3, h4⟩
      · exact hsA hs
      · obtain ⟨C, D, hC⟩ := List.append_of_mem h3
        have hc1 : f.forVar ∈ n.decisions := by
          apply hp.subset
          rw [hl, e]
          simp only [List.mem_append, List.mem_cons, List.not_mem_nil, or_false] at h3 ⊢; tauto
        have : s ∈ C := by
          refine ho C f.forVar (D ++ A2 ++ s :: B) ?_ s ⟨mem_decisions.1 hdd, mem_decisions.1 hc1, f, hf, rfl, h4⟩
          have : order = (A1 ++ [a]) ++ (A2 ++ s :: B) := by rw [hl, e]; simp
          rw [this, hC]; simp
        exact hsA (by rw [hC]; simp [this])
    simp [World.set, this]
  have hnn : 0 ≤ (A.map (fun e => δ e w)).prod := by
    apply List.prod_nonneg
    intro x hx
    obtain ⟨a, ha, rfl⟩ := List.mem_map.1 hx
    obtain ⟨A1, A2, e⟩ := List.append_of_mem ha
    exact (hδ A1 a (A2 ++ d :: B) (by rw [hl, e]; simp)).nonneg w (hallow w hw)
  have hcnt : n.count d = dv.outcomes.length := by rw [← hdn]; exact count_eq hn hdv
  have red : ∀ ε : World → α, n.Strategy A d ε → ∑ k ∈ range dv.outcomes.length, sumWorlds (n.hiddenFrom B d)
      (fun w => (n.chanceTables.map (fun f => n.prob f w)).prod * n.totalIn w *
        ((A.map (fun d => δ d w)).prod * ε w * (B.map (fun d => π d w)).prod)) (w.set d k) =
      (A.map (fun e => δ e w)).prod * ∑ k ∈ range dv.outcomes.length, ε (w.set d k) * n.worthTo π B d (w.set d k) := by
    intro ε hε
    rw [Finset.mul_sum]
    apply Finset.sum_congr rfl
    intro k hk
    have hk' := mem_range.1 hk
    rw [inner ε hε _ (hwk k hk'), hA k hk']
  rw [red _ hδd, red _ hπ]
  refine mul_le_mul_of_nonneg_left (average_le_best (fun k hk => hδd.nonneg _ (hallow _ (hwk k hk))) ?_ ?_ ?_) hnn
  · rw [← hcnt]; exact hδd.one w (hallow w hw)
  · rw [← hcnt]; exact hπ.one w (hallow w hw)
  · intro k hk hne j hj
    have := hb (w.set d k) (hwk k hk) hne j (by rw [hcnt]; exact hj)
    have e : (w.set d k).set d j = w.set d j := by
      funext s; simp only [World.set]; split <;> rfl
    rwa [e] at this

/-- Best responses from the last decision to the first are best together, if nothing is forgotten. -/
theorem recall_best [Field α] [LinearOrder α] [IsStrictOrderedRing α] {n : Net α} (hn : n.Valid) (hr : n.Recall)
    {order : List String} (hp : order.Perm n.decisions) (ho : n.Ordered order) {δ π : String → World → α}
    (hδ : ∀ A d B, order = A ++ d :: B → n.Strategy A d (δ d)) (hπ : ∀ A d B, order = A ++ d :: B → n.Strategy A d (π d))
    (hb : ∀ A d B, order = A ++ d :: B → ∀ w : World, (∀ v ∈ n.variables, w v.name < v.outcomes.length) → π d w ≠ 0 →
      ∀ k < n.count d, n.worthTo π B d (w.set d k) ≤ n.worthTo π B d w) :
    n.expectedTotal δ ≤ n.expectedTotal π := by
  have key : ∀ (A B : List String), order = A ++ B → n.mixed δ π A B ≤ n.mixed δ π [] order := by
    intro A
    induction A using List.reverseRecOn with
    | nil => intro B e; rw [e]; exact le_refl _
    | append_singleton A d ih =>
      intro B e
      have e' : order = A ++ d :: B := by rw [e]; simp
      exact (mixed_step hn hr hp ho e' hδ (hπ A d B e') (hb A d B e')).trans (ih (d :: B) e')
  have h := key order [] (by simp)
  have e1 : n.expectedTotal δ = n.mixed δ π order [] := by
    unfold Net.expectedTotal Net.mixed
    congr 1; funext w
    rw [(hp.map (fun d => δ d w)).prod_eq]; simp
  have e2 : n.expectedTotal π = n.mixed δ π [] order := by
    unfold Net.expectedTotal Net.mixed
    congr 1; funext w
    rw [(hp.map (fun d => π d w)).prod_eq]; simp
  rw [e1, e2]; exact h

/-- **C99.** If nothing is forgotten, i.e. each decision is declared with all earlier decisions and all they knew as
parents: the policies from solving the decisions one after another are the best there are. No strategies, also
randomised ones, have a higher expected total utility, and `SolveUtility` reports this highest expected utility. -/
theorem C99_recall [Field α] [LinearOrder α] [IsStrictOrderedRing α] (sch sch' : NSched α) {n : Net α} (hn : n.Valid)
    (hs : n.Solvable) (hr : n.Recall) (hnn : ∀ f ∈ n.chanceTables, ∀ x ∈ f.tab, 0 ≤ x)
    (hm : ∀ d ∈ n.decisions, n.Matters [d] d) (ign : Bool) :
    ∃ tables n' order, n.solvePolicies sch true = (.ok tables, n') ∧ order.Perm n.decisions ∧ n.Ordered order ∧
      (∀ A d B, order = A ++ d :: B → n.Strategy A d (n.byTables tables d)) ∧
      (∀ δ : String → World → α, (∀ A d B, order = A ++ d :: B → n.Strategy A d (δ d)) →
        n.expectedTotal δ ≤ n.expectedTotal (n.byTables tables)) ∧
      ∃ g n'', n'.solveUtility sch' [] [] "" ign = (.ok g, n'') ∧ g.data = [n.expectedTotal (n.byTables tables)] := by
  obtain ⟨tables, n', g, n'', h1, h2, h3⟩ := C84_utility_after_policies sch sch' hn hs true ign
  obtain ⟨tables', m', order, k1, k2, k3, k4, k5⟩ := C83_stepwise sch hn (fun _ => hs) hnn
  rw [h1] at k1
  obtain ⟨e1, rfl⟩ := Prod.mk.inj k1
  obtain rfl := Except.ok.inj e1
  refine ⟨tables, n', order, h1, k2, k3, k4, fun δ hδ => ?_, g, n'', h2, h3⟩
  exact recall_best hn hr k2 k3 hδ k4 (fun A d B e => k5 A d B e (hm d (k2.subset (by rw [e]; simp))))

/-- **C99.** If nothing is forgotten, solving the decisions one after another, or together, makes no difference for the
expected utility that `SolveUtility` reports afterwards. -/
theorem C99_same_value [Field α] [LinearOrder α] [IsStrictOrderedRing α] (sch sch₁ sch' sch₁' : NSched α) {n : Net α}
    (hn : n.Valid) (hs : n.Solvable) (hd : n.decisions ≠ []) (hr : n.Recall)
    (hnn : ∀ f ∈ n.chanceTables, ∀ x ∈ f.tab, 0 ≤ x) (hm : ∀ d ∈ n.decisions, n.Matters [d] d) (ign ign₁ : Bool) :
    ∃ tables n' g n'' x tables₁ n₁' g₁ n₁'',
      n.solvePolicies sch true = (.ok tables, n') ∧ n'.solveUtility sch' [] [] "" ign = (.ok g, n'') ∧ g.data = [x] ∧
      n.solvePolicies sch₁ false = (.ok tables₁, n₁') ∧ n₁'.solveUtility sch₁' [] [] "" ign₁ = (.ok g₁, n₁'') ∧
      g₁.data = [x] := by
  obtain ⟨tables, n', order, h1, h2, h3, h4, h5, g, n'', h6, h7⟩ := C99_recall sch sch' hn hs hr hnn hm ign
  obtain ⟨tables₁, n₁', order', l1, l2, l3, l3', l4, g₁, n₁'', l5, l6⟩ := C81_optimal sch₁ sch₁' hn hs hd hnn (by
    intro o hp ho A d B e
    exact (hm d (hp.subset (by rw [e]; simp))).mono (fun s h => hr.known hn hp ho e h))
    (stepwise := false) (by simp) ign₁
  obtain rfl := hr.inLine.unique hn h2 l2 h3 l3
  refine ⟨tables, n', g, n'', _, tables₁, n₁', g₁, n₁'', h1, h6, h7, l1, l5, ?_⟩
  rw [l6, le_antisymm (l4 _ h4) (h5 _ (fun A d B e => (l3' A d B e).1))]

namespace Ex

/-- The oil drilling network (`/repo/_examples/decision/oil.yml`). -/
def oil : Net ℚ where
  name := "Oil Drilling Decision"
  info := ""
  «variables» := [⟨"Oil", .chance, ["dry", "wet", "soaking"], (1, 0), "gray", some 0⟩,
    ⟨"Test result", .chance, ["closed", "open", "diffuse"], (1, 8), "", some 1⟩,
    ⟨"Do test drill", .decision, ["yes", "no"], (38, 15), "", none⟩, ⟨"Do drill", .decision, ["yes", "no"], (38, 8), "", some 2⟩,
    ⟨"Drill utility", .utility, ["expected"], (38, 0), "", some 3⟩, ⟨"Test utility", .utility, ["expected"], (0, 17), "", some 4⟩]
  factors := [⟨"Oil", [], some [0.5, 0.3, 0.2], [], 3⟩,
    ⟨"Test result", ["Oil", "Do test drill"], some [0.1, 0.3, 0.6, 0.333, 0.333, 0.333, 0.3, 0.4, 0.3, 0.333, 0.333, 0.333,
      0.5, 0.4, 0.1, 0.333, 0.333, 0.333], [3, 2], 3⟩,
    ⟨"Do drill", ["Do test drill", "Test result"], none, [2, 3], 2⟩,
    ⟨"Drill utility", ["Oil", "Do drill"], some [-70, 0, 50, 0, 200, 0], [3, 2], 1⟩,
    ⟨"Test utility", ["Do test drill"], some [-10, 0], [2], 1⟩]
  policies := []
  vs := none
  names := []
  totalUtility := none

theorem oil_new : newNet "Oil Drilling Decision" "" [⟨"Oil", .chance, ["dry", "wet", "soaking"], (1, 0), "gray", none⟩,
    ⟨"Test result", .chance, ["closed", "open", "diffuse"], (1, 8), "", none⟩,
    ⟨"Do test drill", .decision, ["yes", "no"], (38, 15), "", none⟩, ⟨"Do drill", .decision, ["yes", "no"], (38, 8), "", none⟩,
    ⟨"Drill utility", .utility, ["expected"], (38, 0), "", none⟩, ⟨"Test utility", .utility, ["expected"], (0, 17), "", none⟩]
    [nf "Oil" [] [0.5, 0.3, 0.2],
    nf "Test result" ["Oil", "Do test drill"] [0.1, 0.3, 0.6, 0.333, 0.333, 0.333, 0.3, 0.4, 0.3, 0.333, 0.333, 0.333,
      0.5, 0.4, 0.1, 0.333, 0.333, 0.333],
    ⟨"Do drill", ["Do test drill", "Test result"], none, [], 0⟩,
    nf "Drill utility" ["Oil", "Do drill"] [-70, 0, 50, 0, 200, 0], nf "Test utility" ["Do test drill"] [-10, 0]] =
      .ok oil := rfl

theorem oil_valid : oil.Valid where
  names := by decide
  named := by decide
  few := by decide
  outcomes := by decide
  tables := by decide
  hasTable := by decide
  known := by decide
  dims := by decide
  parents := by decide
  size := by
    intro f hf h1 h2
    simp only [oil, List.mem_cons, List.not_mem_nil, or_false] at hf
    rcases hf with rfl | rfl | rfl | rfl | rfl
    · exact ⟨_, rfl, by decide⟩
    · exact ⟨_, rfl, by decide⟩
    · exact absurd h2 (by decide)
    · exact ⟨_, rfl, by decide⟩
    · exact ⟨_, rfl, by decide⟩
  single := by decide
  weights := by intro i h; cases h

theorem oil_parent {p d : String} (h : oil.DecisionParent p d) : p = "Do test drill" ∧ d = "Do drill" := by
  obtain ⟨h1, h2, f, hf, rfl, h3⟩ := h
  have : ∀ f ∈ oil.factors, oil.isKind .decision f.forVar = true → ∀ p ∈ f.given,
      oil.isKind .decision p = true → p = "Do test drill" ∧ f.forVar = "Do drill" := by decide +kernel
  exact this f hf h2 p h3 h1

theorem oil_solvable : oil.Solvable where
  utility := by decide
  used := by decide +kernel
  acyclic := by
    intro s h
    obtain ⟨a, h1, h2⟩ := Relation.TransGen.head'_iff.1 h
    obtain ⟨rfl, rfl⟩ := oil_parent h1
    rcases Relation.ReflTransGen.cases_head h2 with h | ⟨b, h3, _⟩
    · exact absurd h (by decide)
    · exact absurd (oil_parent h3).1 (by decide)

theorem oil_decisions : oil.decisions = ["Do test drill", "Do drill"] := by decide

theorem oil_recall : oil.Recall := by
  have hp : oil.Remembers "Do test drill" "Do drill" := by
    refine ⟨by decide, fun s h => ?_⟩
    rcases h with h | ⟨f, hf, h1, h2⟩
    · rw [List.mem_singleton.1 h]
      exact .inr ⟨⟨"Do drill", ["Do test drill", "Test result"], none, [2, 3], 2⟩, by decide +kernel, by decide, by decide⟩
    · have : ∀ f ∈ oil.factors, f.forVar ≠ "Do test drill" := by decide +kernel
      exact absurd (List.mem_singleton.1 h1) (this f hf)
  intro d hd e he
  rw [oil_decisions] at hd he
  simp only [List.mem_cons, List.not_mem_nil, or_false] at hd he
  rcases hd with rfl | rfl <;> rcases he with rfl | rfl
  · exact .inl rfl
  · exact .inr (.inl hp)
  · exact .inr (.inr hp)
  · exact .inl rfl

theorem oil_matters : ∀ d ∈ oil.decisions, oil.Matters [d] d := by
  intro d hd
  rw [oil_decisions] at hd
  simp only [List.mem_cons, List.not_mem_nil, or_false] at hd
  rcases hd with rfl | rfl
  · exact .utility (f := ⟨"Test utility", ["Do test drill"], some [-10, 0], [2], 1⟩) (by decide +kernel) (by decide)
      (by decide) (by decide)
  · exact .utility (f := ⟨"Drill utility", ["Oil", "Do drill"], some [-70, 0, 50, 0, 200, 0], [3, 2], 1⟩)
      (by decide +kernel) (by decide) (by decide) (by decide)

/-- A case: in the oil drilling network it makes no difference whether the decisions are solved one after another. -/
example (sch sch₁ sch' sch₁' : NSched ℚ) : ∃ tables n' g n'' x tables₁ n₁' g₁ n₁'',
    oil.solvePolicies sch true = (.ok tables, n') ∧ n'.solveUtility sch' [] [] "" false = (.ok g, n'') ∧ g.data = [x] ∧
    oil.solvePolicies sch₁ false = (.ok tables₁, n₁') ∧ n₁'.solveUtility sch₁' [] [] "" false = (.ok g₁, n₁'') ∧
    g₁.data = [x] :=
  C99_same_value sch sch₁ sch' sch₁' oil_valid oil_solvable (by rw [oil_decisions]; simp) oil_recall (by decide +kernel)
    oil_matters false false

/-- A case: one can expect at least 20 in the oil drilling network, which is what drilling without a test gives. -/
example (sch sch' : NSched ℚ) : ∃ tables n' g n'' x, oil.solvePolicies sch true = (.ok tables, n') ∧
    n'.solveUtility sch' [] [] "" false = (.ok g, n'') ∧ g.data = [x] ∧ 20 ≤ x := by
  obtain ⟨tables, n', order, h1, h2, _, _, h5, g, n'', h6, h7⟩ := C99_recall sch sch' oil_valid oil_solvable oil_recall
    (by decide +kernel) oil_matters false
  refine ⟨tables, n', g, n'', _, h1, h6, h7, ?_⟩
  have := h5 (fun d w => if d = "Do drill" then (if w d = 0 then 1 else 0) else if w d = 1 then 1 else 0) (by
    intro A d B hl
    have hd : d ∈ oil.decisions := h2.subset (by rw [hl]; simp)
    rw [oil_decisions] at hd
    simp only [List.mem_cons, List.not_mem_nil, or_false] at hd
    refine ⟨?_, ?_, ?_⟩
    · intro w _; split_ifs <;> decide
    · intro w _
      have c1 : oil.count "Do test drill" = 2 := by decide
      have c2 : oil.count "Do drill" = 2 := by decide
      rcases hd with rfl | rfl
      · rw [c1]; simp [World.set, Finset.sum_range_succ]
      · rw [c2]; simp [World.set, Finset.sum_range_succ]
    · intro w w' _ _ h
      rw [h d (.inl (by simp))])
  refine le_trans ?_ this
  decide +kernel

end Ex

end Bbn
