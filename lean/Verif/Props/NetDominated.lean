import Mathlib.Algebra.BigOperators.Intervals
import Verif.Props.NetOptions

/-!
# Dominated options are never recommended (C142), and options that are never chosen can be left out (C143)
-/

set_option autoImplicit false

namespace Bbn

open Finset

variable {α : Type}

theorem sumWorlds_lt [AddCommMonoid α] [PartialOrder α] [IsOrderedCancelAddMonoid α] {F G : World → α} :
    ∀ (l : List NVar) (w : World), (l.map NVar.name).Nodup → (∀ v ∈ l, w v.name < v.outcomes.length) →
    (∀ w' : World, (∀ v ∈ l, w' v.name < v.outcomes.length) → (∀ s, s ∉ l.map NVar.name → w' s = w s) → F w' ≤ G w') →
    F w < G w → sumWorlds l F w < sumWorlds l G w := by
  intro l
  induction l with
  | nil => intro w _ _ _ h; exact h
  | cons v l ih =>
    intro w hnd hw hle hlt
    rw [List.map_cons, List.nodup_cons] at hnd
    have hsub : ∀ k < v.outcomes.length, ∀ w' : World, (∀ u ∈ l, w' u.name < u.outcomes.length) →
        (∀ s, s ∉ l.map NVar.name → w' s = w.set v.name k s) → F w' ≤ G w' := by
      intro k hk w' h1 h2
      apply hle
      · intro u hu
        rcases List.mem_cons.1 hu with rfl | hu
        · rw [h2 _ hnd.1, World.set_eq]; exact hk
        · exact h1 u hu
      · intro s hs
        simp only [List.map_cons, List.mem_cons, not_or] at hs
        rw [h2 s hs.2, World.set_ne _ hs.1]
    simp only [sumWorlds]
    apply Finset.sum_lt_sum
    · intro k hk
      exact sumWorlds_le l _ hnd.2 (hsub k (by simpa using hk))
    · refine ⟨w v.name, by simpa using hw v List.mem_cons_self, ?_⟩
      refine ih _ hnd.2 ?_ (hsub _ (hw v List.mem_cons_self)) ?_
      · rw [World.set_self]; exact fun u hu => hw u (List.mem_cons_of_mem _ hu)
      · rw [World.set_self]; exact hlt

theorem sumWorlds_base [AddCommMonoid α] (F : World → α) {d : String} (k : Nat) : ∀ (l : List NVar), d ∉ l.map NVar.name →
    ∀ w, sumWorlds l F (w.set d k) = sumWorlds l (fun x => F (x.set d k)) w := by
  intro l
  induction l with
  | nil => intro _ w; rfl
  | cons v l ih =>
    intro h w
    simp only [List.map_cons, List.mem_cons, not_or] at h
    simp only [sumWorlds]
    apply Finset.sum_congr rfl
    intro i _
    rw [World.set_comm _ h.1, ih h.2]

/-- The world with the first outcome for everything that is no chance or decision variable. -/
def Net.bare (n : Net α) (w : World) : World := fun s =>
  if n.isKind .chance s = true ∨ n.isKind .decision s = true then w s else 0

theorem bare_state {n : Net α} {w : World} {v : NVar} (hv : v ∈ n.stateVars) : n.bare w v.name = w v.name := by
  obtain ⟨h1, h2⟩ := mem_stateVars.1 hv
  unfold Net.bare
  rw [if_pos]
  cases e : v.nodeType with
  | chance => exact .inl (isKind_mem.2 ⟨v, h1, rfl, e⟩)
  | decision => exact .inr (isKind_mem.2 ⟨v, h1, rfl, e⟩)
  | utility => exact absurd e h2

theorem bare_range {n : Net α} (hn : n.Valid) {w : World} (hw : n.Allowed w) :
    ∀ v ∈ n.variables, n.bare w v.name < v.outcomes.length := by
  intro v hv
  by_cases h : v.nodeType = .utility
  · unfold Net.bare
    rw [if_neg]
    · exact (hn.outcomes v hv).1
    · rintro (e | e) <;> rw [isKind_iff hn hv, h] at e <;> cases e
  · have hv' := mem_stateVars.2 ⟨hv, h⟩
    rw [bare_state hv']; exact hw v hv'

theorem bare_chance [Field α] [DecidableEq α] {n : Net α} (hn : n.Valid) (w : World) :
    (n.chanceTables.map (fun f => n.prob f (n.bare w))).prod = (n.chanceTables.map (fun f => n.prob f w)).prod := by
  congr 1
  apply List.map_congr_left
  intro f hf
  apply prob_congr
  intro s hs
  obtain ⟨v, hv, rfl⟩ : ∃ v ∈ n.stateVars, v.name = s := by
    obtain ⟨hf1, hf2⟩ := mem_chanceTables.1 hf
    obtain ⟨v, hv, e1, e2⟩ := isKind_mem.1 hf2
    have hv' : v ∈ n.stateVars := mem_stateVars.2 ⟨hv, by rw [e2]; decide⟩
    unfold NFactor.dims at hs
    rw [List.mem_append, List.mem_singleton] at hs
    rcases hs with hs | rfl
    · obtain ⟨u, hu, e3, e4⟩ := hn.parents f hf1 (by rw [← e1]; exact fun e => (mem_stateVars.1 hv').2 (total_utility hn hv e)) s hs
      exact ⟨u, mem_stateVars.2 ⟨hu, e4⟩, e3⟩
    · exact ⟨v, hv', e1⟩
  exact bare_state hv

/-- **C142.** For a network with one decision: an option that is worse than another one whatever happens has probability
zero in the policy, in all situations that can occur. (The decision must not have an influence on what happens.) -/
theorem C142_dominated [Field α] [LinearOrder α] [IsStrictOrderedRing α] (sch : NSched α) {n : Net α} (hn : n.Valid)
    (hs : n.Solvable) {d : String} (hd : n.decisions = [d]) (hnn : ∀ f ∈ n.chanceTables, ∀ x ∈ f.tab, 0 ≤ x)
    (hm : n.Matters [d] d) (hfree : ∀ f ∈ n.chanceTables, d ∉ f.given) (stepwise : Bool) :
    ∃ t n', n.solvePolicies sch stepwise = (.ok [(d, t)], n') ∧
      ∀ j < n.count d, ∀ k < n.count d, (∀ w, n.Allowed w → n.totalIn (w.set d j) < n.totalIn (w.set d k)) →
        ∀ w, n.Allowed w → (n.chanceTables.map (fun f => n.prob f w)).prod ≠ 0 → n.entry t (w.set d j) = 0 := by
  obtain ⟨t, n', h1, h2⟩ := C80_one_decision sch hn hs.toFeasible hd stepwise
  obtain ⟨tables, m', d', t', k1, k2, _, k3⟩ := C82_best_response sch hn hs (by rw [hd]; simp) hnn
    (by rw [hd]; intro e he; rw [List.mem_singleton] at he; subst he; exact hm) (stepwise := stepwise) (by simp [hd])
  rw [h1] at k1
  obtain ⟨e1, rfl⟩ := Prod.mk.inj k1
  obtain rfl := Except.ok.inj e1
  obtain ⟨rfl, rfl⟩ := Prod.mk.inj (List.mem_singleton.1 k2)
  have hdk : n.isKind .decision d' = true := mem_decisions.1 (by rw [hd]; simp)
  obtain ⟨dv, hdv, hdn, hdt⟩ := isKind_mem.1 hdk
  have hdv' : dv ∈ n.stateVars := mem_stateVars.2 ⟨hdv, by rw [hdt]; decide⟩
  refine ⟨t', n', h1, ?_⟩
  intro j hj k hk hdom w hw hpos
  by_contra hne
  have hbk : ∀ k, n.bare (w.set d' k) = (n.bare w).set d' k := by
    intro k
    funext s
    unfold Net.bare World.set
    by_cases e : s = d'
    · subst e; simp [hdk]
    · simp [e]
  have hentry : n.entry t' ((n.bare w).set d' j) = n.entry t' (w.set d' j) := by
    apply entry_congr
    intro s hs'
    rw [← hbk]
    obtain ⟨_, _, l1, _, _, l4, _⟩ := C46_policy_tables sch hn (fun _ => hs.toFeasible) stepwise
    rw [h1] at l1
    obtain ⟨e1, rfl⟩ := Prod.mk.inj l1
    obtain rfl := Except.ok.inj e1
    have hpt := l4 _ (List.mem_singleton_self _)
    unfold NFactor.dims at hs'
    rw [List.mem_append, List.mem_singleton] at hs'
    unfold Net.bare
    rw [if_pos]
    rcases hs' with hs' | rfl
    · exact hpt.parents s hs'
    · rw [hpt.forVar]; exact .inr hdk
  have hset : ∀ {w : World}, (∀ v ∈ n.variables, w v.name < v.outcomes.length) → ∀ k < n.count d',
      ∀ v ∈ n.variables, w.set d' k v.name < v.outcomes.length := by
    intro w hw k hk v hv
    by_cases e : v.name = d'
    · rw [e, World.set_eq, ← count_eq hn hv, e]; exact hk
    · rw [World.set_ne _ e]; exact hw v hv
  have hb := bare_range hn hw
  have hle := k3 ((n.bare w).set d' j) (hset hb j hj) (by rw [hentry]; exact hne) k hk
  rw [World.set_set, hd] at hle
  have hunseen : d' ∉ (n.unseen [d']).map NVar.name := by
    intro hmem
    obtain ⟨v, hv, e⟩ := List.mem_map.1 hmem
    simp only [Net.unseen, List.mem_filter, decide_eq_true_eq] at hv
    exact hv.2.2 (.inl (by rw [e]; simp))
  have hnd : ((n.unseen [d']).map NVar.name).Nodup := hn.names.sublist (List.filter_sublist.map _)
  have hchance : ∀ (x : World) (i : Nat), (n.chanceTables.map (fun f => n.prob f (x.set d' i))).prod =
      (n.chanceTables.map (fun f => n.prob f x)).prod := by
    intro x i
    congr 1
    apply List.map_congr_left
    intro f hf
    apply prob_congr
    intro s hs'
    rw [World.set_ne]
    rintro rfl
    unfold NFactor.dims at hs'
    rw [List.mem_append, List.mem_singleton] at hs'
    rcases hs' with hs' | rfl
    · exact hfree f hf hs'
    · have := (mem_chanceTables.1 hf).2
      rw [← hdn, isKind_iff hn hdv, hdt] at this
      cases this
  have hnonneg : ∀ x : World, 0 ≤ (n.chanceTables.map (fun f => n.prob f x)).prod := by
    intro x
    apply List.prod_nonneg
    intro y hy
    obtain ⟨f, hf, rfl⟩ := List.mem_map.1 hy
    exact prob_nonneg (hnn f hf) x
  refine absurd hle (not_le.2 ?_)
  unfold Net.worth
  rw [sumWorlds_base _ _ _ hunseen, sumWorlds_base _ _ _ hunseen]
  have hall : ∀ x : World, (∀ v ∈ n.unseen [d'], x v.name < v.outcomes.length) →
      (∀ s, s ∉ (n.unseen [d']).map NVar.name → x s = n.bare w s) → n.Allowed x := by
    intro x h1 h2 v hv
    obtain ⟨hv1, _⟩ := mem_stateVars.1 hv
    by_cases e : v.name ∈ (n.unseen [d']).map NVar.name
    · obtain ⟨u, hu, e⟩ := List.mem_map.1 e
      have := h1 u hu
      rw [e, ← count_eq hn (List.mem_filter.1 hu).1, e, count_eq hn hv1] at this
      exact this
    · rw [h2 _ e]; exact hb v hv1
  apply sumWorlds_lt _ _ hnd
  · intro v hv
    exact hb v (List.mem_filter.1 hv).1
  · intro x h1 h2
    rw [hchance, hchance]
    exact mul_le_mul_of_nonneg_left (hdom x (hall x h1 h2)).le (hnonneg x)
  · rw [hchance, hchance, bare_chance hn]
    exact mul_lt_mul_of_pos_left (hdom _ (fun v hv => hb v (mem_stateVars.1 hv).1)) (lt_of_le_of_ne (hnonneg w) (Ne.symm hpos))

section unused

variable [Field α] [LinearOrder α] [IsStrictOrderedRing α] {n m : Net α} (hn : n.Valid) (hm : m.Valid) (h : n.OffersMore m)

omit [IsStrictOrderedRing α] in
include h in
theorem options_allowed {w : World} (hw : n.Allowed w) : m.Allowed w := by
  intro u hu
  obtain ⟨v, hv, e1, e2⟩ := forall₂_left (options_tables h).flip hu
  rw [e1]
  exact lt_of_lt_of_le (hw v hv) e2

/-- Deciding in the smaller network as in the larger one: the first outcome gets what the further outcomes had. -/
def Net.giveBack (n m : Net α) (δ : String → World → α) (d : String) (w : World) : α :=
  δ d w + if w d = 0 then ∑ k ∈ Ico (n.count d) (m.count d), δ d (w.set d k) else 0

include hn hm h in
theorem giveBack_strategy {A : List String} {d : String} {δ : String → World → α} (hd : n.isKind .decision d = true)
    (hs : m.Strategy A d (δ d)) : n.Strategy A d (n.giveBack m δ d) := by
  obtain ⟨v, hv, rfl, _⟩ := isKind_mem.1 hd
  have hc := (options_count hn hm h hv).1
  have h0 : 0 < n.count v.name := by rw [count_eq hn hv]; exact (hn.outcomes v hv).1
  refine ⟨fun w hw => ?_, fun w hw => ?_, fun w w' hw hw' e => ?_⟩
  · have hw' := options_allowed h hw
    unfold Net.giveBack
    refine add_nonneg (hs.nonneg w hw') ?_
    split_ifs
    · apply Finset.sum_nonneg
      intro k hk
      exact hs.nonneg _ (Allowed.set hm hw' (Finset.mem_Ico.1 hk).2)
    · exact le_rfl
  · rw [← hs.one w (options_allowed h hw)]
    unfold Net.giveBack
    simp only [World.set_eq, World.set_set]
    rw [Finset.sum_add_distrib, Finset.sum_ite_eq' (range (n.count v.name)) 0, if_pos (by simpa using h0)]
    simp only [Finset.range_eq_Ico]
    exact Finset.sum_Ico_consecutive _ (Nat.zero_le _) hc
  · have hk : ∀ s, m.Known (A ++ [v.name]) s → w s = w' s := fun s hk => e s ((options_known h _ _).1 hk)
    have hd' : w v.name = w' v.name := hk _ (.inl (by simp))
    unfold Net.giveBack
    rw [hs.known w w' (options_allowed h hw) (options_allowed h hw') hk, hd']
    congr 1
    split_ifs
    · apply Finset.sum_congr rfl
      intro k hk'
      have hk2 := (Finset.mem_Ico.1 hk').2
      refine hs.known _ _ (Allowed.set hm (options_allowed h hw) hk2) (Allowed.set hm (options_allowed h hw') hk2) (fun s hs' => ?_)
      unfold World.set
      split_ifs
      · rfl
      · exact hk s hs'
    · rfl

omit [IsStrictOrderedRing α] in
include hn hm h in
theorem giveBack_expected {δ : String → World → α} (heq : ∀ w, n.Allowed w → m.totalIn w = n.totalIn w)
    (hu : n.NeverChosen m δ) : n.expectedTotal (n.giveBack m δ) = m.expectedTotal δ := by
  unfold Net.expectedTotal
  rw [sumWorlds_shrink (options_tables h) (stateVars_names hn)]
  · apply sumWorlds_congr _ _ (stateVars_names hn)
    intro w hw _
    have hw' : n.Allowed w := hw
    rw [options_prob hn hm h w hw', options_decisions h, heq w hw']
    by_cases h0 : (n.chanceTables.map (fun f => n.prob f w)).prod = 0
    · rw [h0]; ring
    · congr 2
      apply List.map_congr_left
      intro d hd
      unfold Net.giveBack
      rw [add_eq_left]
      split_ifs
      · apply Finset.sum_eq_zero
        intro k hk
        obtain ⟨k1, k2⟩ := Finset.mem_Ico.1 hk
        exact hu d hd w (options_allowed h hw') (by rw [options_prob hn hm h w hw']; exact h0) k k1 k2
      · rfl
  · intro w hw ⟨v, hv, hlt⟩
    obtain ⟨hv1, hv2⟩ := mem_stateVars.1 hv
    obtain ⟨u, hu', e1, e2, e3⟩ := forall₂_left h.vars hv1
    have hwu := hw u (mem_stateVars.2 ⟨hu', by rw [e2]; exact hv2⟩)
    rw [e1] at hwu
    rcases e3 with e3 | ⟨e3, _⟩
    · rw [e3] at hwu; omega
    · by_cases h0 : (m.chanceTables.map (fun f => m.prob f w)).prod = 0
      · rw [h0]; ring
      · have hdec : v.name ∈ n.decisions := mem_decisions.2 ((isKind_iff hn hv1 _).2 e3)
        rw [List.prod_eq_zero (List.mem_map.2 ⟨v.name, by rw [options_decisions h]; exact hdec, ?_⟩), mul_zero]
        rw [← World.set_self w v.name]
        refine hu v.name hdec w hw h0 _ ?_ ?_
        · rw [count_eq hn hv1]; exact hlt
        · rw [← e1, count_eq hm hu', e1]; exact hwu

end unused

/-- **C143.** If the declared order of the decisions leaves no choice, options that are never chosen can be left out: if the
policies of the larger network do not choose the further options in any situation that can occur, `SolveUtility` reports the
same expected utility for both networks after solving all decisions together. -/
theorem C143_unused [Field α] [LinearOrder α] [IsStrictOrderedRing α] (sch sch₁ sch' sch₁' : NSched α) {n m : Net α}
    (hn : n.Valid) (hm : m.Valid) (h : n.OffersMore m) (heq : ∀ w, n.Allowed w → m.totalIn w = n.totalIn w)
    (hs : n.Solvable) (hsm : m.Solvable) (hd : n.decisions ≠ [])
    (hl : n.InLine) (hnn : ∀ f ∈ n.chanceTables, ∀ x ∈ f.tab, 0 ≤ x) (hmn : ∀ f ∈ m.chanceTables, ∀ x ∈ f.tab, 0 ≤ x)
    (hmat : ∀ order, order.Perm n.decisions → n.Ordered order → ∀ A d B, order = A ++ d :: B → m.Matters (A ++ [d]) d)
    (ign ign₁ : Bool) :
    ∃ tables n' g n'' tables₁ m' g₁ m'',
      n.solvePolicies sch false = (.ok tables, n') ∧ n'.solveUtility sch' [] [] "" ign = (.ok g, n'') ∧
      m.solvePolicies sch₁ false = (.ok tables₁, m') ∧ m'.solveUtility sch₁' [] [] "" ign₁ = (.ok g₁, m'') ∧
      (n.NeverChosen m (m.byTables tables₁) → g₁.data = g.data) := by
  have hdec : m.decisions = n.decisions := options_decisions h
  have hord : ∀ o, m.Ordered o → n.Ordered o := fun o ho A d B e p hp => ho A d B e p ((options_parent h).1 hp)
  obtain ⟨tables₁, m', o', l1, l2, l3, l3', l4, g₁, m'', l5, l6⟩ := C81_optimal sch₁ sch₁' hm hsm (by rw [hdec]; exact hd) hmn
    (fun o hp ho => hmat o (by rw [← hdec]; exact hp) (hord o ho)) (stepwise := false) (by simp) ign₁
  obtain ⟨tables, n', o, k1, k2, k3, k3', k4, g, n'', k5, k6⟩ := C81_optimal sch sch' hn hs hd hnn
    (fun o hp ho A d B e => options_matters h (hmat o hp ho A d B e)) (stepwise := false) (by simp) ign
  obtain rfl := hl.unique hn k2 (by rw [← hdec]; exact l2) k3 (hord _ l3)
  refine ⟨tables, n', g, n'', tables₁, m', g₁, m'', k1, k5, l1, l5, fun hu => ?_⟩
  rw [k6, l6]
  have hkind : ∀ A d B, o = A ++ d :: B → n.isKind .decision d = true := fun A d B e =>
    mem_decisions.1 (k2.subset (by rw [e]; simp))
  congr 1
  apply le_antisymm
  · rw [← giveBack_expected hn hm h heq hu]
    exact k4 _ (fun A d B e => giveBack_strategy hn hm h (hkind A d B e) (l3' A d B e).1)
  · refine le_trans (extend_expected hn hm h hnn ?_)
      (l4 _ (fun A d B e => extend_strategy hn hm h (hkind A d B e) (k3' A d B e).1))
    intro d hd w hw
    obtain ⟨A, B, e⟩ := List.append_of_mem (k2.symm.subset hd)
    exact (k3' A d B e).1.nonneg w hw

/-- **C143, for dominated options.** In a network with one decision that has no influence on what happens, options that are
worse than another one whatever happens can be left out. -/
theorem C143_dominated [Field α] [LinearOrder α] [IsStrictOrderedRing α] (sch sch₁ sch' sch₁' : NSched α) {n m : Net α}
    (hn : n.Valid) (hm : m.Valid) (h : n.OffersMore m) (heq : ∀ w, n.Allowed w → m.totalIn w = n.totalIn w)
    (hs : n.Solvable) (hsm : m.Solvable) {d : String} (hd : n.decisions = [d])
    (hnn : ∀ f ∈ n.chanceTables, ∀ x ∈ f.tab, 0 ≤ x) (hmn : ∀ f ∈ m.chanceTables, ∀ x ∈ f.tab, 0 ≤ x)
    (hmat : m.Matters [d] d) (hfree : ∀ f ∈ m.chanceTables, d ∉ f.given)
    (hdom : ∀ j, n.count d ≤ j → j < m.count d → ∃ k < m.count d,
      ∀ w, m.Allowed w → m.totalIn (w.set d j) < m.totalIn (w.set d k)) (ign ign₁ : Bool) :
    ∃ tables n' g n'' tables₁ m' g₁ m'',
      n.solvePolicies sch false = (.ok tables, n') ∧ n'.solveUtility sch' [] [] "" ign = (.ok g, n'') ∧
      m.solvePolicies sch₁ false = (.ok tables₁, m') ∧ m'.solveUtility sch₁' [] [] "" ign₁ = (.ok g₁, m'') ∧
      g₁.data = g.data := by
  have hdm : m.decisions = [d] := by rw [options_decisions h, hd]
  obtain ⟨tables, n', g, n'', tables₁, m', g₁, m'', k1, k2, k3, k4, k5⟩ := C143_unused sch sch₁ sch' sch₁' hn hm h heq hs hsm
    (by rw [hd]; simp) (by
      intro a ha b hb
      rw [hd, List.mem_singleton] at ha hb
      exact .inl (ha.trans hb.symm)) hnn hmn (by
      intro o ho _ A e B he
      rw [hd, List.perm_singleton] at ho
      subst ho
      obtain ⟨rfl, rfl, _⟩ : A = [] ∧ d = e ∧ B = [] := by
        cases A with
        | nil => simp at he; exact ⟨rfl, he.1, he.2⟩
        | cons a A => simp at he
      exact hmat) ign ign₁
  refine ⟨tables, n', g, n'', tables₁, m', g₁, m'', k1, k2, k3, k4, k5 ?_⟩
  obtain ⟨t, m₂, l1, l2⟩ := C142_dominated sch₁ hm hsm hdm hmn hmat hfree false
  rw [k3] at l1
  obtain rfl := Except.ok.inj (Prod.mk.inj l1).1
  intro e he w hw hp k hk1 hk2
  rw [hd, List.mem_singleton] at he
  subst he
  obtain ⟨k', hk', hlt⟩ := hdom k hk1 hk2
  have := l2 k hk2 k' hk' hlt w hw hp
  simpa [Net.byTables] using this

namespace Ex

/-- The umbrella network with the option to take a hat, which is worse than the umbrella in any weather. -/
def umbHat : Net ℚ :=
  { umb with
    «variables» := [⟨"Weather", .chance, ["sun", "rain"], (0, 0), "", some 0⟩,
      ⟨"Forecast", .chance, ["good", "bad"], (0, 0), "", some 1⟩,
      ⟨"Umbrella", .decision, ["no", "yes", "hat"], (0, 0), "", some 2⟩,
      ⟨"Total", .utility, ["effort", "comfort"], (0, 0), "", some 5⟩,
      ⟨"Comfort", .utility, ["comfort"], (0, 0), "", some 3⟩, ⟨"Effort", .utility, ["effort"], (0, 0), "", some 4⟩]
    factors := [⟨"Weather", [], some [70, 30], [], 2⟩, ⟨"Forecast", ["Weather"], some [8, 2, 1, 9], [2], 2⟩,
      ⟨"Umbrella", ["Forecast"], none, [2], 3⟩,
      ⟨"Comfort", ["Weather", "Umbrella"], some [100, 20, 12, 0, 70, 55], [2, 3], 1⟩,
      ⟨"Effort", ["Umbrella"], some [0, -5, -2], [3], 1⟩, ⟨"Total", ["Effort", "Comfort"], some [2, 1], [1, 1], 2⟩] }

theorem umbHat_new : newNet "umbrella" "" [nv "Weather" .chance ["sun", "rain"], nv "Forecast" .chance ["good", "bad"],
    nv "Umbrella" .decision ["no", "yes", "hat"], nv "Total" .utility ["effort", "comfort"],
    nv "Comfort" .utility ["comfort"], nv "Effort" .utility ["effort"]]
    [nf "Weather" [] [70, 30], nf "Forecast" ["Weather"] [8, 2, 1, 9], ⟨"Umbrella", ["Forecast"], none, [], 0⟩,
      nf "Comfort" ["Weather", "Umbrella"] [100, 20, 12, 0, 70, 55], nf "Effort" ["Umbrella"] [0, -5, -2],
      nf "Total" ["Effort", "Comfort"] [2, 1]] = .ok umbHat := rfl

theorem umbHat_valid : umbHat.Valid where
  names := by decide
  named := by decide
  few := by decide
  outcomes := by decide
  tables := by decide
  hasTable := by decide
  known := by decide
  dims := by decide
  parents := by decide
  size := by
    intro f hf h1 h2
    simp only [umbHat, List.mem_cons, List.not_mem_nil, or_false] at hf
    rcases hf with rfl | rfl | rfl | rfl | rfl | rfl
    · exact ⟨_, rfl, by decide⟩
    · exact ⟨_, rfl, by decide⟩
    · exact absurd h2 (by decide)
    · exact ⟨_, rfl, by decide⟩
    · exact ⟨_, rfl, by decide⟩
    · exact absurd rfl h1
  single := by decide
  weights := by
    intro i h
    obtain rfl : 3 = i := Option.some.inj h
    exact ⟨_, _, _, rfl, rfl, rfl, rfl, rfl, by decide, by decide⟩

theorem umbHat_solvable : umbHat.Solvable where
  utility := by decide
  used := by decide
  acyclic := by
    intro s h
    obtain ⟨_, h, _⟩ := Relation.TransGen.head'_iff.1 h
    obtain ⟨h1, h2, f, hf, rfl, h3⟩ := h
    have : ∀ f ∈ umbHat.factors, umbHat.isKind .decision f.forVar = true →
        ∀ p ∈ f.given, umbHat.isKind .decision p = false := by decide
    rw [this f hf h2 _ h3] at h1
    exact absurd h1 (by simp)

theorem umbHat_total (w : World) :
    umbHat.totalIn w = umbHat.totalIn (fun s => if s = "Weather" then w "Weather" else w "Umbrella") := rfl

theorem umbHat_same (w : World) (hw : umb.Allowed w) : umbHat.totalIn w = umb.totalIn w := by
  have e : umb.totalIn w = umb.totalIn (fun s => if s = "Weather" then w "Weather" else w "Umbrella") := rfl
  rw [umbHat_total, e]
  have h1 : w "Weather" < 2 := hw ⟨"Weather", .chance, ["sun", "rain"], (0, 0), "", some 0⟩ (by decide)
  have h2 : w "Umbrella" < 2 := hw ⟨"Umbrella", .decision, ["no", "yes"], (0, 0), "", some 2⟩ (by decide)
  have : ∀ a < 2, ∀ b < 2, umbHat.totalIn (fun s => if s = "Weather" then a else b) =
      umb.totalIn (fun s => if s = "Weather" then a else b) := by decide +kernel
  exact this _ h1 _ h2

theorem umb_hat : umb.OffersMore umbHat where
  vars := by
    refine .cons ⟨rfl, rfl, .inl rfl⟩ (.cons ⟨rfl, rfl, .inl rfl⟩ (.cons ⟨rfl, rfl, .inr ⟨rfl, ⟨["hat"], rfl⟩⟩⟩ ?_))
    exact .cons ⟨rfl, rfl, .inl rfl⟩ (.cons ⟨rfl, rfl, .inl rfl⟩ (.cons ⟨rfl, rfl, .inl rfl⟩ .nil))
  parents := rfl
  totalNode := rfl
  chances := .cons ⟨rfl, fun _ _ => rfl⟩ (.cons ⟨rfl, fun _ _ => rfl⟩ .nil)
  utility := fun w hw => (umbHat_same w hw).ge

/-- The hat is worse than the umbrella. -/
theorem umbHat_worse (w : World) (hw : umbHat.Allowed w) :
    umbHat.totalIn (w.set "Umbrella" 2) < umbHat.totalIn (w.set "Umbrella" 1) := by
  rw [umbHat_total, umbHat_total (w.set "Umbrella" 1)]
  have h1 : w "Weather" < 2 := hw ⟨"Weather", .chance, ["sun", "rain"], (0, 0), "", some 0⟩ (by decide)
  have : ∀ a < 2, umbHat.totalIn (fun s => if s = "Weather" then a else 2) <
      umbHat.totalIn (fun s => if s = "Weather" then a else 1) := by decide +kernel
  exact this _ h1

theorem umbHat_matters : umbHat.Matters ["Umbrella"] "Umbrella" :=
  .utility (f := ⟨"Effort", ["Umbrella"], some [0, -5, -2], [3], 1⟩) (by decide) (by decide) (by decide) (by decide)

/-- With a good forecast, nobody is told to take the hat. -/
example (sch : NSched ℚ) : ∃ t n', umbHat.solvePolicies sch true = (.ok [("Umbrella", t)], n') ∧
    umbHat.entry t (fun s => if s = "Umbrella" then 2 else 0) = 0 := by
  obtain ⟨t, n', h1, h2⟩ := C142_dominated sch umbHat_valid umbHat_solvable (by decide) (by decide) umbHat_matters
    (by decide) true
  exact ⟨t, n', h1, h2 2 (by decide) 1 (by decide) umbHat_worse (fun _ => 0) (by unfold Net.Allowed; decide) (by decide +kernel)⟩

/-- The hat can be left out. -/
example (sch sch₁ sch' sch₁' : NSched ℚ) : ∃ tables n' g n'' tables₁ m' g₁ m'',
    umb.solvePolicies sch false = (.ok tables, n') ∧ n'.solveUtility sch' [] [] "" false = (.ok g, n'') ∧
    umbHat.solvePolicies sch₁ false = (.ok tables₁, m') ∧ m'.solveUtility sch₁' [] [] "" false = (.ok g₁, m'') ∧
    g₁.data = g.data :=
  C143_dominated sch sch₁ sch' sch₁' umb_valid umbHat_valid umb_hat umbHat_same umb_solvable umbHat_solvable (by decide)
    (by decide) (by decide) umbHat_matters (by decide) (by
      intro j h1 h2
      obtain rfl : j = 2 := by
        have e1 : umb.count "Umbrella" = 2 := by decide
        have e2 : umbHat.count "Umbrella" = 3 := by decide
        omega
      exact ⟨1, by decide, umbHat_worse⟩) false false

end Ex

end Bbn
