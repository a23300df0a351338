import Verif.Spec.Iso
import Verif.Props.NetExpect
import Verif.Props.NetInformed

/-!
# Networks with the same content: sums over worlds
-/

set_option autoImplicit false

namespace Bbn

open Finset

variable {α : Type}

/-- Lists with the same keys can be paired up. -/
theorem pair_up {A B K : Type} (k : A → K) (k' : B → K) : ∀ (L : List A) (L' : List B), (L.map k).Perm (L'.map k') →
    ∃ L'', L''.Perm L' ∧ List.Forall₂ (fun a b => k' b = k a) L L'' := by
  intro L
  induction L with
  | nil =>
    intro L' h
    have : L' = [] := by simpa using h
    exact ⟨[], by rw [this], .nil⟩
  | cons a L ih =>
    intro L' h
    have ha : k a ∈ L'.map k' := h.subset (by simp)
    obtain ⟨b, hb, e⟩ := List.mem_map.1 ha
    obtain ⟨s, t, rfl⟩ := List.append_of_mem hb
    have h2 : (L.map k).Perm ((s ++ t).map k') := by
      have : ((s ++ b :: t).map k').Perm (k' b :: (s ++ t).map k') := by
        rw [← List.map_cons]; exact List.perm_middle.map _
      have := h.trans this
      rw [List.map_cons, e] at this
      exact this.cons_inv
    obtain ⟨L'', p1, p2⟩ := ih _ h2
    exact ⟨b :: L'', (p1.cons b).trans List.perm_middle.symm, .cons e p2⟩

theorem paired_map {A B β : Type} {R : A → B → Prop} {F : A → β} {F' : B → β} {L : List A} {L' : List B}
    (h : List.Forall₂ R L L') (hF : ∀ a ∈ L, ∀ b ∈ L', R a b → F a = F' b) : L.map F = L'.map F' := by
  induction h with
  | nil => rfl
  | cons h1 _ ih =>
    rw [List.map_cons, List.map_cons, hF _ (by simp) _ (by simp) h1,
      ih (fun a ha b hb => hF a (List.mem_cons_of_mem _ ha) b (List.mem_cons_of_mem _ hb))]

/-- What is computed from lists with the same keys. -/
theorem same_keys {A B K β : Type} (k : A → K) (k' : B → K) {F : A → β} {F' : B → β} {L : List A} {L' : List B}
    (h : (L.map k).Perm (L'.map k')) (hF : ∀ a ∈ L, ∀ b ∈ L', k' b = k a → F a = F' b) :
    (L.map F).Perm (L'.map F') := by
  obtain ⟨L'', p1, p2⟩ := pair_up k k' L L' h
  rw [paired_map p2 (F' := F') (fun a ha b hb => hF a ha b (p1.subset hb))]
  exact p1.map _

/-- A sum does not depend on the order of the summands. -/
theorem sum_moved [AddCommMonoid α] {N : Nat} {p : Nat → Nat} (h1 : ∀ k < N, p k < N)
    (h2 : ∀ j < N, ∀ k < N, p j = p k → j = k) (F : Nat → α) : ∑ k ∈ range N, F (p k) = ∑ k ∈ range N, F k := by
  have hinj : Set.InjOn p (range N : Set Nat) := by
    intro j hj k hk e
    rw [Finset.mem_coe, Finset.mem_range] at hj hk
    exact h2 j hj k hk e
  have himg : (range N).image p = range N := by
    apply Finset.eq_of_subset_of_card_le
    · intro x hx
      obtain ⟨k, hk, rfl⟩ := Finset.mem_image.1 hx
      exact Finset.mem_range.2 (h1 k (Finset.mem_range.1 hk))
    · rw [Finset.card_image_of_injOn hinj]
  conv_rhs => rw [← himg]
  rw [Finset.sum_image (fun j hj k hk e => hinj (by simpa using hj) (by simpa using hk) e)]

/-- Sums over the worlds of corresponding variables. -/
theorem sumWorlds_moved [AddCommMonoid α] (r : String → String) (π : String → Nat → Nat) (S : List NVar)
    (hS : (S.map NVar.name).Nodup) (inj : ∀ v ∈ S, ∀ u ∈ S, r v.name = r u.name → v.name = u.name)
    (inside : ∀ v ∈ S, ∀ k < v.outcomes.length, π v.name k < v.outcomes.length)
    (apart : ∀ v ∈ S, ∀ j < v.outcomes.length, ∀ k < v.outcomes.length, π v.name j = π v.name k → j = k)
    {F F' : World → α}
    (hF : ∀ w w', (∀ v ∈ S, w v.name < v.outcomes.length ∧ w' (r v.name) = π v.name (w v.name)) → F w = F' w')
    {L L' : List NVar} (hL : List.Forall₂ (fun v v' => v'.name = r v.name ∧ v'.outcomes.length = v.outcomes.length) L L') :
    (∀ v ∈ L, v ∈ S) → ∀ w w',
    (∀ v ∈ S, v ∉ L → w v.name < v.outcomes.length ∧ w' (r v.name) = π v.name (w v.name)) →
    sumWorlds L F w = sumWorlds L' F' w' := by
  induction hL with
  | nil =>
    intro _ w w' h
    exact hF w w' (fun v hv => h v hv (by simp))
  | @cons v v' L L' hv _ ih =>
    intro hsub w w' h
    have hvS : v ∈ S := hsub v (by simp)
    simp only [sumWorlds]
    rw [hv.2, ← sum_moved (inside v hvS) (apart v hvS) (fun k => sumWorlds L' F' (w'.set v'.name k))]
    apply Finset.sum_congr rfl
    intro k hk
    rw [Finset.mem_range] at hk
    apply ih (fun u hu => hsub u (List.mem_cons_of_mem _ hu))
    intro u hu hul
    unfold World.set
    by_cases e : u = v
    · subst e
      rw [if_pos rfl, if_pos hv.1.symm]
      exact ⟨hk, rfl⟩
    · have hne : u.name ≠ v.name := fun e' => e (List.inj_on_of_nodup_map hS hu hvS e')
      have hne' : r u.name ≠ v'.name := by
        rw [hv.1]; exact fun e' => hne (inj u hu v hvS e')
      rw [if_neg hne, if_neg hne']
      exact h u hu (by simp [e, hul])

section iso

variable [Field α] {n m : Net α} {r : String → String} {π : String → Nat → Nat} (h : n.SameContent m r π)
  (hn : n.Valid) (hm : m.Valid)

omit [Field α] in
theorem total_isVar (hn : n.Valid) {i : Nat} (hi : n.totalUtility = some i) :
    ∃ v ∈ n.variables, v.name = n.totalName := by
  obtain ⟨v, _, _, h1, _⟩ := hn.weights i hi
  exact ⟨v, List.mem_of_getElem? h1, by simp [Net.totalName, hi, h1]⟩

include h hn hm in
theorem iso_total {v : NVar} (hv : v ∈ n.variables) : r v.name = m.totalName ↔ v.name = n.totalName := by
  obtain ⟨v', hv', e, _⟩ := h.vars v hv
  cases hi : n.totalUtility with
  | none =>
    have h1 : n.totalName = "" := by simp [Net.totalName, hi]
    have h2 : m.totalName = "" := by simp [Net.totalName, h.hasTotal.2 hi]
    rw [h1, h2, ← e]
    exact ⟨fun e => absurd e (hm.named v' hv'), fun e => absurd e (hn.named v hv)⟩
  | some i =>
    rw [h.total (by rw [hi]; simp)]
    obtain ⟨t, ht, et⟩ := total_isVar hn hi
    constructor
    · intro e; rw [← et] at e ⊢; exact h.inj v hv t ht e
    · intro e; rw [e]

include h hn hm in
theorem iso_isKind {v : NVar} (hv : v ∈ n.variables) (t : NodeType) : m.isKind t (r v.name) = n.isKind t v.name := by
  obtain ⟨v', hv', e, e2, _⟩ := h.vars v hv
  rw [Bool.eq_iff_iff, isKind_iff hn hv, ← e, isKind_iff hm hv', e2]

include h hn hm in
theorem iso_count {v : NVar} (hv : v ∈ n.variables) : m.count (r v.name) = n.count v.name := by
  obtain ⟨v', hv', e, _, e3⟩ := h.vars v hv
  rw [count_eq hn hv, ← e, count_eq hm hv', e3]

include h hn in
theorem iso_set {w w' : World} (hw : n.SameOutcomes r π w w') {v : NVar} (hv : v ∈ n.variables) {k : Nat}
    (hk : k < v.outcomes.length) : n.SameOutcomes r π (w.set v.name k) (w'.set (r v.name) (π v.name k)) := by
  intro u hu ht
  unfold World.set
  by_cases e : u.name = v.name
  · have := name_unique hn hu hv e
    subst this
    simp [hk]
  · rw [if_neg e, if_neg (fun e' => e (h.inj u hu v hv e'))]
    exact hw u hu ht

include h in
/-- The table of a corresponding variable. -/
theorem iso_table (hm : m.Valid) {f f' : NFactor α} (hf : f ∈ n.factors) (ht : f.forVar ≠ n.totalName) (hf' : f' ∈ m.factors)
    (e : f'.forVar = r f.forVar) : f'.given.Perm (f.given.map r) ∧ (n.isKind .decision f.forVar = false →
      ∀ w w', n.SameOutcomes r π w w' → m.entry f' w' = n.entry f w) := by
  obtain ⟨g, hg, e1, e2⟩ := h.tables f hf ht
  rw [List.inj_on_of_nodup_map hm.tables hf' hg (by rw [e, e1])]
  exact e2

omit [Field α] in
theorem chance_not_total (hn : n.Valid) {s : String} (hs : n.isKind .utility s = false) (hex : ∃ v ∈ n.variables, v.name = s) :
    s ≠ n.totalName := by
  intro e
  cases hi : n.totalUtility with
  | none =>
    obtain ⟨v, hv, rfl⟩ := hex
    exact hn.named v hv (by rw [e]; simp [Net.totalName, hi])
  | some i =>
    obtain ⟨v, _, _, h1, h2, _⟩ := hn.weights i hi
    have hv := List.mem_of_getElem? h1
    have : n.totalName = v.name := by simp [Net.totalName, hi, h1]
    rw [e, this, (isKind_iff hn hv _).2 h2] at hs
    cases hs

include h hn hm in
theorem iso_prob [DecidableEq α] {f f' : NFactor α} (hf : f ∈ n.chanceTables) (hf' : f' ∈ m.factors)
    (e : f'.forVar = r f.forVar) {w w' : World} (hw : n.SameOutcomes r π w w') : m.prob f' w' = n.prob f w := by
  obtain ⟨hf1, hf2⟩ := mem_chanceTables.1 hf
  obtain ⟨v, hv, hve⟩ := hn.known f hf1
  have hnt := chance_not_total hn (one_kind hn hf2 (by decide)) (hn.known f hf1)
  have hent := (iso_table h hm hf1 hnt hf' e).2 (one_kind hn hf2 (by decide))
  have hrow : m.rowSum f' w' = n.rowSum f w := by
    unfold Net.rowSum
    rw [e, ← hve, iso_count h hn hm hv, count_eq hn hv,
      ← sum_moved (h.inside v hv) (h.apart v hv) (fun k => m.entry f' (w'.set (r v.name) k))]
    apply Finset.sum_congr rfl
    intro k hk
    rw [Finset.mem_range] at hk
    exact hent _ _ (iso_set h hn hw hv hk)
  unfold Net.prob
  rw [hrow, hent _ _ hw]

/-- Corresponding lists of names. -/
theorem names_perm {L : List NVar} {L' : List NVar} (hL : (L.map NVar.name).Nodup) (hL' : (L'.map NVar.name).Nodup)
    (inj : ∀ v ∈ L, ∀ u ∈ L, r v.name = r u.name → v.name = u.name) (there : ∀ v ∈ L, ∃ v' ∈ L', v'.name = r v.name)
    (back : ∀ v' ∈ L', ∃ v ∈ L, v'.name = r v.name) : (L.map (fun v => r v.name)).Perm (L'.map NVar.name) := by
  rw [List.perm_ext_iff_of_nodup _ hL']
  · intro s
    simp only [List.mem_map]
    constructor
    · rintro ⟨v, hv, rfl⟩
      exact there v hv
    · rintro ⟨v', hv', rfl⟩
      obtain ⟨v, hv, e⟩ := back v' hv'
      exact ⟨v, hv, e.symm⟩
  · have hLn := List.Nodup.of_map _ hL
    refine List.Nodup.map_on (fun a ha b hb e => ?_) hLn
    exact List.inj_on_of_nodup_map hL ha hb (inj a ha b hb e)

include h in
/-- The variable of `n` behind a variable of `m`. -/
theorem iso_back (hm : m.Valid) {v' : NVar} (hv' : v' ∈ m.variables) : ∃ v ∈ n.variables, v'.name = r v.name ∧
    v'.nodeType = v.nodeType ∧ v'.outcomes.length = v.outcomes.length := by
  obtain ⟨v, hv, e⟩ := h.onto v' hv'
  obtain ⟨u, hu, e1, e2, e3⟩ := h.vars v hv
  have := name_unique hm hu hv' (by rw [e1, e])
  subst this
  exact ⟨v, hv, e, e2, e3⟩

include h hn hm in
theorem iso_chance [DecidableEq α] {w w' : World} (hw : n.SameOutcomes r π w w') :
    (m.chanceTables.map (fun f => m.prob f w')).prod = (n.chanceTables.map (fun f => n.prob f w)).prod := by
  refine (List.Perm.prod_eq (same_keys (fun f => r f.forVar) NFactor.forVar ?_ (fun f hf f' hf' e => ?_))).symm
  · have hnd : (n.chanceTables.map NFactor.forVar).Nodup := hn.tables.sublist (List.filter_sublist.map _)
    have hnd' : (m.chanceTables.map NFactor.forVar).Nodup := hm.tables.sublist (List.filter_sublist.map _)
    rw [List.perm_ext_iff_of_nodup _ hnd']
    · intro s
      simp only [List.mem_map]
      constructor
      · rintro ⟨f, hf, rfl⟩
        obtain ⟨hf1, hf2⟩ := mem_chanceTables.1 hf
        obtain ⟨f', hf', e, _⟩ := h.tables f hf1 (chance_not_total hn (one_kind hn hf2 (by decide)) (hn.known f hf1))
        refine ⟨f', mem_chanceTables.2 ⟨hf', ?_⟩, e⟩
        obtain ⟨v, hv, ev⟩ := hn.known f hf1
        rw [e, ← ev, iso_isKind h hn hm hv, ev]; exact hf2
      · rintro ⟨f', hf', rfl⟩
        obtain ⟨hf1, hf2⟩ := mem_chanceTables.1 hf'
        obtain ⟨f, hf, e⟩ := h.noOther f' hf1 (chance_not_total hm (one_kind hm hf2 (by decide)) (hm.known f' hf1))
        refine ⟨f, mem_chanceTables.2 ⟨hf, ?_⟩, e.symm⟩
        obtain ⟨v, hv, ev⟩ := hn.known f hf
        rw [← ev, ← iso_isKind h hn hm hv, ev, ← e]; exact hf2
    · refine List.Nodup.map_on (fun a ha b hb e => ?_) (List.Nodup.of_map _ hnd)
      obtain ⟨v, hv, ev⟩ := hn.known a (mem_chanceTables.1 ha).1
      obtain ⟨u, hu, eu⟩ := hn.known b (mem_chanceTables.1 hb).1
      rw [← ev, ← eu] at e
      exact List.inj_on_of_nodup_map hnd ha hb (by rw [← ev, ← eu]; exact h.inj v hv u hu e)
  · exact (iso_prob h hn hm hf (mem_chanceTables.1 hf').1 e hw).symm

omit [Field α] in
theorem state_not_total (hn : n.Valid) {v : NVar} (hv : v ∈ n.stateVars) : v.name ≠ n.totalName := by
  obtain ⟨h1, h2⟩ := mem_stateVars.1 hv
  refine chance_not_total hn ?_ ⟨v, h1, rfl⟩
  rw [Bool.eq_false_iff]
  exact fun e => h2 ((isKind_iff hn h1 _).1 e)

include h hn hm in
/-- Sums over all worlds of the two networks. -/
theorem iso_worlds {F F' : World → α} (hF : ∀ w w', n.SameOutcomes r π w w' → F w = F' w') :
    sumWorlds n.stateVars F (fun _ => 0) = sumWorlds m.stateVars F' (fun _ => 0) := by
  have hp : (n.stateVars.map (fun v => r v.name)).Perm (m.stateVars.map NVar.name) := by
    refine names_perm (stateVars_names hn) (stateVars_names hm) (fun v hv u hu => h.inj v (mem_stateVars.1 hv).1 u
      (mem_stateVars.1 hu).1) (fun v hv => ?_) (fun v' hv' => ?_)
    · obtain ⟨v', hv', e1, e2, _⟩ := h.vars v (mem_stateVars.1 hv).1
      exact ⟨v', mem_stateVars.2 ⟨hv', by rw [e2]; exact (mem_stateVars.1 hv).2⟩, e1⟩
    · obtain ⟨v, hv, e1, e2, _⟩ := iso_back h hm (mem_stateVars.1 hv').1
      exact ⟨v, mem_stateVars.2 ⟨hv, by rw [← e2]; exact (mem_stateVars.1 hv').2⟩, e1⟩
  obtain ⟨L, p1, p2⟩ := pair_up _ _ _ _ hp
  rw [← sumWorlds_perm F' p1 _ ((p1.map _).nodup_iff.2 (stateVars_names hm))]
  set S := n.variables.filter (fun v => v.name ≠ n.totalName) with hSdef
  have hSm : ∀ v ∈ S, v ∈ n.variables ∧ v.name ≠ n.totalName := by
    intro v hv; simpa [hSdef] using hv
  refine sumWorlds_moved r π S (hn.names.sublist (List.filter_sublist.map _))
    (fun v hv u hu => h.inj v (hSm v hv).1 u (hSm u hu).1) (fun v hv => h.inside v (hSm v hv).1)
    (fun v hv => h.apart v (hSm v hv).1) (F := F) (F' := F') ?_ (L := n.stateVars) (L' := L) ?_ ?_ _ _ ?_
  · intro w w' hw
    exact hF w w' (fun v hv ht => hw v (by rw [hSdef]; simp [hv, ht]))
  · refine List.Forall₂.imp (fun a b hab => ?_) (List.forall₂_iff_get.2 ?_ : List.Forall₂ (fun v v' => v'.name = r v.name ∧
      v ∈ n.stateVars ∧ v' ∈ m.stateVars) n.stateVars L)
    · obtain ⟨e, ha, hb⟩ := hab
      obtain ⟨u, hu, e1, _, e3⟩ := h.vars a (mem_stateVars.1 ha).1
      have := name_unique hm hu (mem_stateVars.1 hb).1 (by rw [e1, e])
      subst this
      exact ⟨e, e3⟩
    · obtain ⟨q1, q2⟩ := List.forall₂_iff_get.1 p2
      exact ⟨q1, fun i h1 h2 => ⟨q2 i h1 h2, List.get_mem _ _, p1.subset (List.get_mem _ _)⟩⟩
  · intro v hv
    rw [hSdef]
    simp [(mem_stateVars.1 hv).1, state_not_total hn hv]
  · intro v hv hns
    obtain ⟨h1, h2⟩ := hSm v hv
    have hu : v.nodeType = .utility := by
      by_contra hne
      exact hns (mem_stateVars.2 ⟨h1, hne⟩)
    have hone := hn.single v h1 hu h2
    have := h.inside v h1 0 (by omega)
    exact ⟨by omega, by show 0 = π v.name 0; omega⟩

include h hn hm in
theorem iso_utilityIn {u : NVar} (hu : u ∈ n.utilityVars) {w w' : World} (hw : n.SameOutcomes r π w w') :
    m.utilityIn (r u.name) w' = n.utilityIn u.name w := by
  simp only [Net.utilityVars, List.mem_filter, decide_eq_true_eq] at hu
  obtain ⟨h1, h2, h3⟩ := hu
  obtain ⟨f, hf, e⟩ := hn.hasTable u h1 (by rw [h2]; decide)
  obtain ⟨f', hf', e1, _, e3⟩ := h.tables f hf (by rw [e]; exact h3)
  have a := utilityIn_table hn hf w
  have b := utilityIn_table hm hf' w'
  rw [e1, e] at b
  rw [e] at a
  rw [a, b]
  have hd : n.isKind .decision f.forVar = false := by
    rw [e]; exact one_kind hn ((isKind_iff hn h1 _).2 h2) (by decide)
  have hone := hn.single u h1 h2 h3
  have h0 := h.inside u h1 0 (by omega)
  have := iso_set h hn hw h1 (k := 0) (by omega)
  rw [show π u.name 0 = 0 by omega] at this
  exact e3 hd _ _ this

include h hn hm in
theorem iso_utilityVars : (n.utilityVars.map (fun v => r v.name)).Perm (m.utilityVars.map NVar.name) := by
  have hmem : ∀ {N : Net α} {v : NVar}, v ∈ N.utilityVars ↔ v ∈ N.variables ∧ v.nodeType = .utility ∧ v.name ≠ N.totalName := by
    intro N v; simp [Net.utilityVars]
  refine names_perm (hn.names.sublist (List.filter_sublist.map _)) (hm.names.sublist (List.filter_sublist.map _))
    (fun v hv u hu => h.inj v (hmem.1 hv).1 u (hmem.1 hu).1) (fun v hv => ?_) (fun v' hv' => ?_)
  · obtain ⟨h1, h2, h3⟩ := hmem.1 hv
    obtain ⟨v', hv', e1, e2, _⟩ := h.vars v h1
    exact ⟨v', hmem.2 ⟨hv', by rw [e2, h2], by rw [e1]; exact fun e => h3 ((iso_total h hn hm h1).1 e)⟩, e1⟩
  · obtain ⟨h1, h2, h3⟩ := hmem.1 hv'
    obtain ⟨v, hv, e1, e2, _⟩ := iso_back h hm h1
    exact ⟨v, hmem.2 ⟨hv, by rw [← e2, h2], fun e => h3 (by rw [e1]; exact (iso_total h hn hm hv).2 e)⟩, e1⟩

include h hn hm in
theorem iso_totalIn {w w' : World} (hw : n.SameOutcomes r π w w') : m.totalIn w' = n.totalIn w := by
  refine (List.Perm.sum_eq (same_keys _ _ (iso_utilityVars h hn hm) (fun u hu u' hu' e => ?_))).symm
  rw [e, h.weights u hu, iso_utilityIn h hn hm hu hw]

/-! ### Policies and evidence -/

include h hn in
theorem iso_agrees (hm : m.Valid) {evidence evidence' : List (String × String)} (hev : n.EvidenceOK evidence)
    (he : n.SameEvidence m r π evidence evidence') {w w' : World} (hw : n.SameOutcomes r π w w') :
    m.Agrees evidence' w' ↔ n.Agrees evidence w := by
  have hkn := hev.known
  clear hev
  induction he with
  | nil => simp [Net.Agrees]
  | @cons e e' E E' h1 _ ih =>
    have ih := ih (fun x hx => hkn x (List.mem_cons_of_mem _ hx))
    obtain ⟨v, hv, ev, ht, ho⟩ := hkn e (by simp)
    obtain ⟨v', hv', ev', _⟩ := h.vars v hv
    have hidx := h1.2 v hv ev v' hv' (by rw [ev', ev, h1.1])
    have a := agrees_cons hn hv e.2 w (evidence := E)
    have b := agrees_cons hm hv' e'.2 w' (evidence := E')
    rw [ev] at a
    rw [ev', ev, ← h1.1] at b
    refine b.trans (Iff.trans ?_ a.symm)
    rw [hidx, h1.1]
    obtain ⟨k1, k2⟩ := hw v hv (state_not_total hn (mem_stateVars.2 ⟨hv, ht⟩))
    rw [ev] at k1 k2
    rw [k2, ev]
    refine and_congr ih ⟨fun y => ?_, fun y => by rw [y]⟩
    · have := h.apart v hv _ k1 _ (List.idxOf_lt_length_of_mem ho)
      rw [ev] at this
      exact this y

include h in
theorem iso_evidence {evidence evidence' : List (String × String)} (hev : n.EvidenceOK evidence)
    (he : n.SameEvidence m r π evidence evidence') : m.EvidenceOK evidence' := by
  have hkn := hev.known
  have hk := hev.keys
  have hfst : evidence'.map Prod.fst = evidence.map (fun e => r e.1) := by
    symm
    exact paired_map he (fun a _ b _ hab => hab.1.symm)
  refine ⟨?_, ?_⟩
  · rw [hfst]
    refine List.Nodup.map_on (fun a ha b hb e => ?_) (List.Nodup.of_map _ hk)
    obtain ⟨v, hv, ev, _⟩ := hkn a ha
    obtain ⟨u, hu, eu, _⟩ := hkn b hb
    rw [← ev, ← eu] at e
    exact List.inj_on_of_nodup_map hk ha hb (by rw [← ev, ← eu]; exact h.inj v hv u hu e)
  · clear hev hk hfst
    induction he with
    | nil => intro e he; cases he
    | @cons e e' E E' h1 _ ih =>
      intro x hx
      rcases List.mem_cons.1 hx with rfl | hx
      · obtain ⟨v, hv, ev, ht, ho⟩ := hkn e (by simp)
        obtain ⟨v', hv', e1, e2, e3⟩ := h.vars v hv
        have e4 : v'.name = x.1 := by rw [e1, ev, h1.1]
        refine ⟨v', hv', e4, by rw [e2]; exact ht, ?_⟩
        have := h1.2 v hv ev v' hv' e4
        rw [← List.idxOf_lt_length_iff, this, e3]
        exact h.inside v hv _ (List.idxOf_lt_length_of_mem ho)
      · exact ih (fun x hx => hkn x (List.mem_cons_of_mem _ hx)) x hx

include h in
theorem iso_active (hp : n.PoliciesOK) (hp' : m.PoliciesOK) (hs : n.SamePolicies m r π)
    {evidence evidence' : List (String × String)} (hev : n.EvidenceOK evidence)
    (he : n.SameEvidence m r π evidence evidence') (ign : Bool) {w w' : World} (hw : n.SameOutcomes r π w w') :
    ((m.active evidence' ign).map (fun p => p.2.val (m.ids w'))).prod =
      ((n.active evidence ign).map (fun p => p.2.val (n.ids w))).prod := by
  have hvar : ∀ p ∈ n.policies, ∃ v ∈ n.variables, v.name = p.1 := by
    intro p hpm
    obtain ⟨i, v, h1, h2, _⟩ := hp.decision p hpm
    exact ⟨v, List.mem_of_getElem? h1, h2⟩
  have hfst : evidence'.map Prod.fst = evidence.map (fun e => r e.1) := by
    symm
    exact paired_map he (fun a _ b _ hab => hab.1.symm)
  have hinj : ∀ p ∈ n.policies, ∀ q ∈ n.policies, r p.1 = r q.1 → p.1 = q.1 := by
    intro p hp q hq e
    obtain ⟨v, hv, ev⟩ := hvar p hp
    obtain ⟨u, hu, eu⟩ := hvar q hq
    rw [← ev, ← eu] at e ⊢
    exact h.inj v hv u hu e
  have hfree : ∀ p ∈ n.policies, (∀ e ∈ evidence', e.1 ≠ r p.1) ↔ ∀ e ∈ evidence, e.1 ≠ p.1 := by
    intro p hpm
    have key : (∀ e ∈ evidence', e.1 ≠ r p.1) ↔ r p.1 ∉ evidence'.map Prod.fst := by
      simp only [List.mem_map, not_exists, not_and, ne_eq]
    rw [key, hfst]
    simp only [List.mem_map, not_exists, not_and, ne_eq]
    constructor
    · intro hh e hem e'
      exact hh e hem (by rw [e'])
    · intro hh e hem e'
      refine hh e hem ?_
      obtain ⟨v, hv, ev⟩ := hvar p hpm
      obtain ⟨u, hu, eu, _⟩ := hev.known e hem
      rw [← ev, ← eu] at e' ⊢
      exact h.inj u hu v hv e'
  have hmem : ∀ {N : Net α} {E : List (String × String)} {p}, p ∈ N.active E ign ↔
      p ∈ N.policies ∧ (ign = true → ∀ e ∈ E, e.1 ≠ p.1) := by
    intro N E p
    unfold Net.active
    cases ign <;> simp
  have hnd : ∀ {N : Net α} {E : List (String × String)}, N.PoliciesOK → ((N.active E ign).map Prod.fst).Nodup := by
    intro N E hN
    refine hN.keys.sublist ((?_ : (N.active E ign).Sublist N.policies).map _)
    unfold Net.active
    split_ifs
    · exact List.filter_sublist
    · exact List.Sublist.refl _
  refine (List.Perm.prod_eq (same_keys (fun p => r p.1) Prod.fst ?_ (fun p hpm p' hpm' e => ?_))).symm
  · rw [List.perm_ext_iff_of_nodup _ (hnd hp')]
    · intro s
      simp only [List.mem_map]
      constructor
      · rintro ⟨p, hpm, rfl⟩
        obtain ⟨h1, h2⟩ := hmem.1 hpm
        obtain ⟨p', k1, k2, _⟩ := hs.there p h1
        exact ⟨p', hmem.2 ⟨k1, fun hi => by rw [k2]; exact (hfree p h1).2 (h2 hi)⟩, k2⟩
      · rintro ⟨p', hpm', rfl⟩
        obtain ⟨h1, h2⟩ := hmem.1 hpm'
        obtain ⟨p, k1, k2⟩ := hs.back p' h1
        exact ⟨p, hmem.2 ⟨k1, fun hi => (hfree p k1).1 (by rw [← k2]; exact h2 hi)⟩, k2.symm⟩
    · refine List.Nodup.map_on (fun a ha b hb e => ?_) (List.Nodup.of_map _ (hnd hp))
      exact List.inj_on_of_nodup_map (hnd hp) ha hb (hinj a (hmem.1 ha).1 b (hmem.1 hb).1 e)
  · obtain ⟨q, k1, k2, k3⟩ := hs.there p (hmem.1 hpm).1
    have := List.inj_on_of_nodup_map hp'.keys (hmem.1 hpm').1 k1 (by rw [e, k2])
    subst this
    exact (k3 w w' hw).symm

include h hn hm in
/-- Sums of weight times something over all worlds of the two networks. -/
theorem iso_sum [DecidableEq α] (hp : n.PoliciesOK) (hp' : m.PoliciesOK) (hs : n.SamePolicies m r π)
    {evidence evidence' : List (String × String)} (hev : n.EvidenceOK evidence)
    (he : n.SameEvidence m r π evidence evidence') (ign : Bool) {F F' : World → α}
    (hF : ∀ w w', n.SameOutcomes r π w w' → F w = F' w') :
    n.total (n.active evidence ign) F = m.total (m.active evidence' ign) F' := by
  unfold Net.total
  refine iso_worlds h hn hm (fun w w' hw => ?_)
  unfold Net.joint
  rw [iso_chance h hn hm hw, iso_active h hp hp' hs hev he ign hw, hF w w' hw]

end iso

end Bbn
