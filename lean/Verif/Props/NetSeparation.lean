import Verif.Spec.Separation
import Verif.Props.NetBarren
import Verif.Props.NetBayes

/-!
# Observations that are separated from a variable do not change its probabilities
-/

set_option autoImplicit false

namespace Bbn

open Finset

variable {α : Type}

/-! ## Sums that fall apart -/

theorem sumWorlds_factor [CommSemiring α] {G : World → α} (F : World → α) : ∀ (l : List NVar) (w : World),
    (∀ v ∈ l, Blind G v.name) → sumWorlds l (fun w => F w * G w) w = sumWorlds l F w * G w := by
  intro l
  induction l with
  | nil => intro w _; rfl
  | cons v l ih =>
    intro w h
    simp only [sumWorlds]
    rw [Finset.sum_mul]
    refine Finset.sum_congr rfl (fun k _ => ?_)
    rw [ih _ (fun u hu => h u (by simp [hu])), h v (by simp) w k]

theorem sumWorlds_blind [AddCommMonoid α] {F : World → α} {s : String} (hF : Blind F s) : ∀ (l : List NVar),
    s ∉ l.map NVar.name → Blind (sumWorlds l F) s := by
  intro l
  induction l with
  | nil => intro _; exact hF
  | cons v l ih =>
    intro h w k
    rw [List.map_cons, List.mem_cons, not_or] at h
    simp only [sumWorlds]
    refine Finset.sum_congr rfl (fun j _ => ?_)
    rw [World.set_comm w h.1, ih h.2]

theorem Blind.const (c : α) (s : String) : Blind (fun _ : World => c) s := fun _ _ => rfl

/-- If the observed variables `z` are fixed, and each of the kernels looks either only at the variables in `r`, or only at
the others, then the sum is a product. -/
theorem independent_sums [CommSemiring α] {S : List NVar} (hnd : (S.map NVar.name).Nodup) (z r : String → Bool)
    (K : NVar → World → α)
    (hK : ∀ v ∈ S, (∀ s, z s = false → r s = false → Blind (K v) s) ∨ (∀ s, z s = false → r s = true → Blind (K v) s))
    (E : World → α) (hEb : ∀ s, z s = false → Blind E s) (w0 : World)
    (hE : ∀ w w', (∀ s, z s = false → w s = w0 s) → (∀ s, z s = false → w' s = w0 s) → E w ≠ 0 → E w' ≠ 0 → w = w') :
    ∃ (c : α) (A B : (World → α) → α), ∀ P Q : World → α, (∀ s, z s = false → r s = false → Blind P s) →
      (∀ s, z s = false → r s = true → Blind Q s) →
      sumWorlds S (fun w => (S.map (fun v => K v w)).prod * (E w * (P w * Q w))) w0 = c * (A P * B Q) := by
  classical
  set Sz := S.filter (fun v => z v.name) with hSz
  set So := S.filter (fun v => !z v.name) with hSo
  set Sr := So.filter (fun v => r v.name) with hSr
  set Sn := So.filter (fun v => !r v.name) with hSn
  have hperm : S.Perm (Sz ++ (Sr ++ Sn)) :=
    ((List.filter_append_perm (fun v => z v.name) S).symm).trans
      (List.Perm.append_left _ (List.filter_append_perm (fun v => r v.name) So).symm)
  have hnd' := (hperm.map NVar.name).nodup_iff.1 hnd
  have hndz : (Sz.map NVar.name).Nodup := by
    rw [List.map_append] at hnd'
    exact (List.nodup_append.1 hnd').1
  have hmr : ∀ v ∈ Sr, z v.name = false ∧ r v.name = true := by
    intro v hv
    simp only [hSr, hSo, List.mem_filter, Bool.not_eq_true'] at hv
    exact ⟨hv.1.2, hv.2⟩
  have hmn : ∀ v ∈ Sn, z v.name = false ∧ r v.name = false := by
    intro v hv
    simp only [hSn, hSo, List.mem_filter, Bool.not_eq_true'] at hv
    exact ⟨hv.1.2, hv.2⟩
  -- the two groups of kernels
  set inA : NVar → Prop := fun v => ∀ s, z s = false → r s = false → Blind (K v) s with hinA
  set a : World → α := fun w => (S.map (fun v => if inA v then K v w else 1)).prod with ha
  set b : World → α := fun w => (S.map (fun v => if inA v then 1 else K v w)).prod with hb
  have hab : ∀ w, (S.map (fun v => K v w)).prod = a w * b w := by
    intro w
    rw [ha, hb]
    dsimp only
    rw [← List.prod_map_mul]
    congr 1
    apply List.map_congr_left
    intro v _
    split_ifs <;> simp
  have hablind : ∀ s, z s = false → r s = false → Blind a s := by
    intro s h1 h2
    refine Blind.prod (fun v _ => ?_)
    by_cases h : inA v
    · simp only [h, if_true]
      exact h s h1 h2
    · simp only [h, if_false]
      exact Blind.const _ _
  have hbblind : ∀ s, z s = false → r s = true → Blind b s := by
    intro s h1 h2
    refine Blind.prod (fun v hv => ?_)
    by_cases h : inA v
    · simp only [h, if_true]
      exact Blind.const _ _
    · simp only [h, if_false]
      exact (hK v hv).resolve_left h s h1 h2
  -- the world that agrees
  obtain ⟨w1, hw1⟩ : ∃ w1, ∀ w, (∀ s, z s = false → w s = w0 s) → E w ≠ 0 → w = w1 := by
    by_cases h : ∃ w, (∀ s, z s = false → w s = w0 s) ∧ E w ≠ 0
    · obtain ⟨w1, h1, h2⟩ := h
      exact ⟨w1, fun w h3 h4 => hE w w1 h3 h1 h4 h2⟩
    · exact ⟨w0, fun w h1 h2 => absurd ⟨w, h1, h2⟩ h⟩
  refine ⟨sumWorlds Sz E w0, fun P => sumWorlds Sr (fun w => a w * P w) w1, fun Q => sumWorlds Sn (fun w => b w * Q w) w1,
    fun P Q hP hQ => ?_⟩
  have hnn : ∀ v ∈ Sr, v.name ∉ Sn.map NVar.name := by
    intro v hv hm
    obtain ⟨u, hu, e⟩ := List.mem_map.1 hm
    have h1 := (hmr v hv).2
    rw [← e, (hmn u hu).2] at h1
    exact absurd h1 (by simp)
  have key : ∀ w, sumWorlds (Sr ++ Sn) (fun w => (S.map (fun v => K v w)).prod * (E w * (P w * Q w))) w =
      sumWorlds Sr (fun w => a w * P w) w * (sumWorlds Sn (fun w => b w * Q w) w * E w) := by
    intro w
    rw [sumWorlds_append]
    have e1 : (sumWorlds Sn fun w => (S.map (fun v => K v w)).prod * (E w * (P w * Q w))) =
        fun w => (a w * P w) * (sumWorlds Sn (fun w => b w * Q w) w * E w) := by
      funext w
      have : (fun w => (S.map (fun v => K v w)).prod * (E w * (P w * Q w))) =
          fun w => (b w * Q w) * ((a w * P w) * E w) := by
        funext w
        rw [hab]
        ring
      rw [this, sumWorlds_factor]
      · ring
      · intro v hv
        obtain ⟨h1, h2⟩ := hmn v hv
        exact Blind.mul (Blind.mul (hablind _ h1 h2) (hP _ h1 h2)) (hEb _ h1)
    rw [e1, sumWorlds_factor]
    intro v hv
    obtain ⟨h1, h2⟩ := hmr v hv
    exact Blind.mul (sumWorlds_blind (Blind.mul (hbblind _ h1 h2) (hQ _ h1 h2)) _ (hnn v hv)) (hEb _ h1)
  rw [sumWorlds_perm _ hperm _ hnd, sumWorlds_append]
  rw [← sumWorlds_factor (G := fun _ => sumWorlds Sr (fun w => a w * P w) w1 * sumWorlds Sn (fun w => b w * Q w) w1) E Sz w0
    (fun v _ => Blind.const _ _)]
  refine sumWorlds_congr _ _ hndz (fun w _ h2 => ?_)
  rw [key]
  by_cases h0 : E w = 0
  · rw [h0]
    ring
  · have : w = w1 := by
      refine hw1 w (fun s hs => h2 s ?_) h0
      intro hm
      obtain ⟨v, hv, e⟩ := List.mem_map.1 hm
      have := (List.mem_filter.1 hv).2
      rw [e, hs] at this
      simp at this
    subst this
    ring

/-! ## Trails -/

/-- Going up from `x` reaches everything above `x`, unless something observed is in between. -/
theorem trail_up {n : Net α} {seen : List String} {x : String} {u y : String} (hb : n.Below u y)
    (hu : ¬ n.Upward seen u) : n.Trail seen x y true → n.Trail seen x u true := by
  induction hb with
  | child hf hx =>
    intro h
    exact .toParent h (fun hs => hu (.inr ⟨_, hs, .child hf hx⟩)) hf hx
  | step hb hf hy ih =>
    intro h
    exact ih (.toParent h (fun hs => hu (.inr ⟨_, hs, .step hb hf hy⟩)) hf hy)

/-- Going down reaches everything below, unless something observed is in between. -/
theorem trail_down {n : Net α} {seen : List String} {x : String} {u y : String} {b : Bool} (hb : n.Below u y)
    (hu : ¬ n.Upward seen u) (h : n.Trail seen x u b) : n.Trail seen x y false := by
  induction hb with
  | child hf hx => exact .toChild h (fun hs => hu (.inl hs)) hf hx
  | step hb hf hy ih => exact .toChild ih (fun hs => hu (.inr ⟨_, hs, hb⟩)) hf hy

/-- If news reaches one dimension of a table and that is not observed, it reaches all dimensions that are not observed;
for tables of variables above what is asked for and observed. -/
theorem trail_table {n : Net α} {seen extra : List String} {x : String} (hsep : ∀ y ∈ extra, n.Separated seen x y)
    {f : NFactor α} (hf : f ∈ n.chanceTables) (hup : n.Upward (x :: (extra ++ seen)) f.forVar)
    {u : String} (hu : u ∈ f.dims) (hus : u ∉ seen) {b : Bool} (h : n.Trail seen x u b) {s : String} (hs : s ∈ f.dims) :
    ∃ b, n.Trail seen x s b := by
  -- everything reaches the parents from the variable of the table
  have hpar : (∃ b, n.Trail seen x f.forVar b) → (f.forVar ∈ seen → n.Trail seen x f.forVar false) → ∀ g ∈ f.given,
      n.Trail seen x g true := by
    rintro ⟨b, h⟩ hseen g hg
    by_cases hu : n.Upward seen f.forVar
    · cases b with
      | false => exact .around h hu hf hg
      | true =>
        by_cases hm : f.forVar ∈ seen
        · exact .around (hseen hm) hu hf hg
        · exact .toParent h hm hf hg
    · have hm : f.forVar ∉ seen := fun e => hu (.inl e)
      have htrue : n.Trail seen x f.forVar true := by
        rcases hup with e | ⟨y, hy, hb⟩
        · rcases List.mem_cons.1 e with e | e
          · rw [e]; exact .start
          · rcases List.mem_append.1 e with e | e
            · exact absurd h (hsep _ e b)
            · exact absurd e hm
        · rcases List.mem_cons.1 hy with e | e
          · exact trail_up hb hu (e ▸ .start)
          · rcases List.mem_append.1 e with e | e
            · exact absurd (trail_down hb hu h) (hsep _ e false)
            · exact absurd (.inr ⟨y, e, hb⟩) hu
      exact .toParent htrue hm hf hg
  have hchild : ∀ g ∈ f.given, g ∉ seen → ∀ b, n.Trail seen x g b → n.Trail seen x f.forVar false :=
    fun g hg hm b h => .toChild h hm hf hg
  rw [NFactor.dims, List.mem_append, List.mem_singleton] at hu hs
  rcases hu with hu | hu
  · have h1 := hchild u hu hus b h
    rcases hs with hs | hs
    · exact ⟨true, hpar ⟨_, h1⟩ (fun _ => h1) s hs⟩
    · exact ⟨_, hs ▸ h1⟩
  · subst hu
    rcases hs with hs | hs
    · exact ⟨true, hpar ⟨_, h⟩ (fun e => absurd e hus) s hs⟩
    · exact ⟨_, hs ▸ h⟩

/-! ## C98 -/

theorem agrees_append {n : Net α} {e1 e2 : List (String × String)} {w : World} :
    n.Agrees (e1 ++ e2) w ↔ n.Agrees e1 w ∧ n.Agrees e2 w := by
  simp only [Net.Agrees, List.mem_append]
  constructor
  · exact fun h => ⟨fun e he => h e (.inl he), fun e he => h e (.inr he)⟩
  · rintro ⟨h1, h2⟩ e (he | he)
    · exact h1 e he
    · exact h2 e he

/-- The masses of what can be said about `x`, what is observed in addition, and what is observed anyway. -/
theorem separated_mass [Field α] [DecidableEq α] {n : Net α} (hn : n.Valid) (ha : n.Acyclic) (hr : n.Regular)
    {evidence extra : List (String × String)} (hev : n.EvidenceOK (extra ++ evidence)) {x : String}
    (hx : x ∉ extra.map Prod.fst ++ evidence.map Prod.fst)
    (hsep : ∀ e ∈ extra, n.Separated (evidence.map Prod.fst) x e.1) :
    ∃ (c A : α) (Ak : Nat → α) (B B1 : α),
      n.mass [] (n.Agrees evidence) = c * (A * B) ∧ n.mass [] (n.Agrees (extra ++ evidence)) = c * (A * B1) ∧
      (∀ k, n.mass [] (fun w => n.Agrees evidence w ∧ w x = k) = c * (Ak k * B)) ∧
      ∀ k, n.mass [] (fun w => n.Agrees (extra ++ evidence) w ∧ w x = k) = c * (Ak k * B1) := by
  classical
  set seen := evidence.map Prod.fst with hseen
  set ex := extra.map Prod.fst with hex
  set l := x :: (ex ++ seen) with hl
  set keep : String → Bool := fun s => decide (n.Upward l s) with hk
  set S := n.stateVars.filter (fun v => keep v.name) with hS
  set z : String → Bool := fun s => decide (s ∈ seen) with hz
  set r : String → Bool := fun s => decide (∃ b, n.Trail seen x s b) with hrd
  set E : World → α := fun w => if n.Agrees evidence w then 1 else 0 with hE
  have hnd : (S.map NVar.name).Nodup := (stateVars_names hn).sublist (List.filter_sublist.map NVar.name)
  have hsep' : ∀ y ∈ ex, n.Separated seen x y := by
    intro y hy
    obtain ⟨e, he, rfl⟩ := List.mem_map.1 hy
    exact hsep e he
  have hind : ∀ {ev : List (String × String)} {s : String}, s ∉ ev.map Prod.fst → ∀ w k,
      n.Agrees ev (w.set s k) ↔ n.Agrees ev w := by
    intro ev s hs w k
    have h : ∀ e ∈ ev, e.1 ≠ s := fun e he e' => hs (e' ▸ List.mem_map_of_mem he)
    exact agrees_blind h w k
  have hEb : ∀ s, z s = false → Blind E s := by
    intro s hs w k
    simp only [hz, decide_eq_false_iff_not] at hs
    simp only [hE, hind hs]
  have hside : ∀ v ∈ S, (∀ s, z s = false → r s = false → Blind (n.kernel v) s) ∨
      (∀ s, z s = false → r s = true → Blind (n.kernel v) s) := by
    intro v hv
    obtain ⟨hv1, hv2⟩ := List.mem_filter.1 hv
    simp only [hk, decide_eq_true_eq] at hv2
    by_cases hc : n.isKind .chance v.name = true
    · have hv' := (mem_stateVars.1 hv1).1
      obtain ⟨f, hf, e⟩ := hn.hasTable v hv' (by rw [(isKind_iff hn hv' _).1 hc]; decide)
      have hf' : f ∈ n.chanceTables := mem_chanceTables.2 ⟨hf, by rw [e]; exact hc⟩
      rw [kernel_table hn hf' e.symm]
      have ht := fun u hu hus b h s hs => trail_table hsep' hf' (x := x) (by rw [e]; exact hv2) (u := u) hu hus (b := b) h
        (s := s) hs
      by_cases hin : ∃ u ∈ f.dims, u ∉ seen ∧ ∃ b, n.Trail seen x u b
      · obtain ⟨u, hu, hus, b, hb⟩ := hin
        left
        intro s h1 h2
        apply prob_blind
        intro hs
        simp only [hrd, decide_eq_false_iff_not] at h2
        exact h2 (ht u hu hus b hb s hs)
      · right
        intro s h1 h2
        apply prob_blind
        intro hs
        simp only [hz, decide_eq_false_iff_not] at h1
        simp only [hrd, decide_eq_true_eq] at h2
        exact hin ⟨s, hs, h1, h2⟩
    · rw [kernel_none (by simpa using hc)]
      exact .inl (fun s _ _ => Blind.const _ _)
  have hone : ∀ w w' : World, (∀ s, z s = false → w s = 0) → (∀ s, z s = false → w' s = 0) → E w ≠ 0 → E w' ≠ 0 → w = w' := by
    intro w w' h1 h2 h3 h4
    funext s
    by_cases hs : s ∈ seen
    · obtain ⟨e, he, rfl⟩ := List.mem_map.1 hs
      obtain ⟨v, hv, e1, _⟩ := hev.known e (List.mem_append_right _ he)
      have a1 : n.Agrees evidence w := by by_contra hh; exact h3 (by simp [hE, hh])
      have a2 : n.Agrees evidence w' := by by_contra hh; exact h4 (by simp [hE, hh])
      rw [a1 e he v hv e1, a2 e he v hv e1]
    · rw [h1 s (by simp only [hz, decide_eq_false_iff_not]; exact hs), h2 s (by simp only [hz, decide_eq_false_iff_not]; exact hs)]
  obtain ⟨c, A, B, hAB⟩ := independent_sums hnd z r n.kernel hside E hEb (fun _ => 0) hone
  -- all masses
  set c0 : α := ((n.stateVars.filter (fun v => !keep v.name)).map openCount).prod with hc0
  have htot : ∀ P Q : World → α, (∀ s, s ≠ x → Blind P s) → (∀ s, s ∉ ex → Blind Q s) →
      n.total [] (fun w => E w * (P w * Q w)) = c0 * c * (A P * B Q) := by
    intro P Q hP hQ
    rw [total_kept hn ha hr keep ?_ _ ?_, hAB P Q ?_ ?_, ← hc0]
    · ring
    · intro s h1 h2
      refine hP s ?_
      rintro rfl
      simp only [hrd, decide_eq_false_iff_not] at h2
      exact h2 ⟨_, .start⟩
    · intro s h1 h2
      refine hQ s (fun hm => ?_)
      simp only [hrd, decide_eq_true_eq] at h2
      obtain ⟨b, h2⟩ := h2
      exact hsep' s hm b h2
    · intro f hf h g hg
      simp only [hk, decide_eq_true_eq] at h ⊢
      exact upward_given hf h hg
    · intro s hs
      simp only [hk, decide_eq_false_iff_not] at hs
      have h1 : s ∉ l := fun h => hs (.inl h)
      simp only [hl, List.mem_cons, List.mem_append, not_or] at h1
      exact Blind.mul (hEb s (by simp only [hz, decide_eq_false_iff_not]; exact h1.2.2))
        (Blind.mul (hP s h1.1) (hQ s h1.2.1))
  have hQ1 : ∀ s, s ∉ ex → Blind (fun w => if n.Agrees extra w then (1 : α) else 0) s := by
    intro s hs w k
    simp only [hind hs]
  have hPk : ∀ k s, s ≠ x → Blind (fun w => if w x = k then (1 : α) else 0) s := by
    intro k s hs w j
    simp only [World.set_ne w (Ne.symm hs)]
  refine ⟨c0 * c, A (fun _ => 1), fun k => A (fun w => if w x = k then 1 else 0), B (fun _ => 1),
    B (fun w => if n.Agrees extra w then 1 else 0), ?_, ?_, fun k => ?_, fun k => ?_⟩
  · rw [← htot _ _ (fun s _ => Blind.const _ _) (fun s _ => Blind.const _ _)]
    unfold Net.mass
    congr 1
    funext w
    simp [hE]
  · rw [← htot _ _ (fun s _ => Blind.const _ _) hQ1]
    unfold Net.mass
    congr 1
    funext w
    simp only [hE, agrees_append]
    by_cases h1 : n.Agrees extra w <;> by_cases h2 : n.Agrees evidence w <;> simp [h1, h2]
  · rw [← htot _ _ (hPk k) (fun s _ => Blind.const _ _)]
    unfold Net.mass
    congr 1
    funext w
    by_cases h1 : w x = k <;> by_cases h2 : n.Agrees evidence w <;> simp [hE, h1, h2]
  · rw [← htot _ _ (hPk k) hQ1]
    unfold Net.mass
    congr 1
    funext w
    simp only [hE, agrees_append]
    by_cases h1 : n.Agrees extra w <;> by_cases h2 : n.Agrees evidence w <;> by_cases h3 : w x = k <;> simp [h1, h2, h3]

/-- **C98.** In a network without cycles, without all-zero rows and without stored policies: observations that are separated
from a variable by what is observed anyway do not change the answer for the variable. -/
theorem C98_separated [Field α] [CharZero α] [DecidableEq α] (sch sch' : NSched α) {n : Net α} (hn : n.Valid)
    (hpol : n.policies = []) (ha : n.Acyclic) (hr : n.Regular) {evidence extra : List (String × String)}
    (hev : n.EvidenceOK (extra ++ evidence)) {x : NVar} (hx : x ∈ n.variables) (hxc : x.nodeType = .chance)
    (hxf : x.name ∉ (extra ++ evidence).map Prod.fst)
    (hsep : ∀ e ∈ extra, n.Separated (evidence.map Prod.fst) x.name e.1) (ign ign' : Bool)
    (possible : n.mass [] (n.Agrees evidence) ≠ 0) (possible' : n.mass [] (n.Agrees (extra ++ evidence)) ≠ 0) :
    ∃ d, n.Answers sch evidence x.name ign d ∧ n.Answers sch' (extra ++ evidence) x.name ign' d := by
  have hact : ∀ ev b, n.active ev b = [] := by intro ev b; simp [Net.active, hpol]
  have hpo : n.PoliciesOK := by constructor <;> simp [hpol]
  have hev1 : n.EvidenceOK evidence := by
    refine ⟨?_, fun e he => hev.known e (List.mem_append_right _ he)⟩
    have := hev.keys
    rw [List.map_append, List.nodup_append] at this
    exact this.2.1
  rw [List.map_append] at hxf
  obtain ⟨d, h1, h2, h3⟩ := answers_mass sch hn hpo hev1 hx hxc (fun h => hxf (List.mem_append_right _ h)) ign
    (by rw [hact]; exact possible)
  obtain ⟨d', k1, k2, k3⟩ := answers_mass sch' hn hpo hev hx hxc (by rw [List.map_append]; exact hxf) ign'
    (by rw [hact]; exact possible')
  obtain ⟨c, A, Ak, B, B1, m1, m2, m3, m4⟩ := separated_mass hn ha hr hev hxf hsep
  have : d = d' := by
    apply List.ext_getElem?
    intro k
    by_cases hk : k < x.outcomes.length
    · rw [h3 k hk, k3 k hk, hact, hact, m1, m2, m3, m4]
      rw [m1] at possible
      rw [m2] at possible'
      have hc : c ≠ 0 := left_ne_zero_of_mul possible
      have hA : A ≠ 0 := left_ne_zero_of_mul (right_ne_zero_of_mul possible)
      have hB : B ≠ 0 := right_ne_zero_of_mul (right_ne_zero_of_mul possible)
      have hB1 : B1 ≠ 0 := right_ne_zero_of_mul (right_ne_zero_of_mul possible')
      congr 1
      field_simp
    · rw [List.getElem?_eq_none (by omega), List.getElem?_eq_none (by omega)]
  exact ⟨d, h1, this ▸ k1⟩

/-- A way to check separation: a list of places that contains the start and is closed under passing on news. -/
theorem separated_of_closed {n : Net α} {seen : List String} {x y : String} (L : List (String × Bool)) (U : List String)
    (hU : ∀ f ∈ n.chanceTables, f.forVar ∈ seen ++ U → ∀ g ∈ f.given, g ∈ U)
    (h0 : (x, true) ∈ L) (h1 : ∀ p ∈ L, p.1 ∉ seen → ∀ f ∈ n.chanceTables, p.1 ∈ f.given → (f.forVar, false) ∈ L)
    (h2 : ∀ p ∈ L, (p.2 = true ∧ p.1 ∉ seen ∨ p.2 = false ∧ p.1 ∈ seen ++ U) → ∀ f ∈ n.chanceTables, f.forVar = p.1 →
      ∀ g ∈ f.given, (g, true) ∈ L) (hy : ∀ b, (y, b) ∉ L) : n.Separated seen x y := by
  have hup : ∀ s, n.Upward seen s → s ∈ seen ++ U := by
    rintro s (h | ⟨z, hz, h⟩)
    · exact List.mem_append_left _ h
    · have key : ∀ {z}, n.Below s z → z ∈ seen ++ U → s ∈ U := by
        intro z hb
        induction hb with
        | child hf hx => exact fun h => hU _ hf h _ hx
        | step _ hf hy ih => exact fun h => ih (List.mem_append_right _ (hU _ hf h _ hy))
      exact List.mem_append_right _ (key h (List.mem_append_left _ hz))
  have hL : ∀ {z b}, n.Trail seen x z b → (z, b) ∈ L := by
    intro z b h
    induction h with
    | start => exact h0
    | toChild _ hy hf hg ih => exact h1 _ ih hy _ hf hg
    | toParent _ hy hf hg ih => exact h2 _ ih (.inl ⟨rfl, hy⟩) _ hf rfl _ hg
    | around _ hy hf hg ih => exact h2 _ ih (.inr ⟨rfl, hup _ hy⟩) _ hf rfl _ hg
  exact fun b h => hy b (hL h)

namespace Ex

/-- A burglar and an earthquake may set off an alarm, upon which a neighbour calls; an earthquake is on the radio. -/
def alarm : Net ℚ where
  name := "alarm"
  info := ""
  «variables» := [⟨"Burglary", .chance, ["yes", "no"], (0, 0), "", some 0⟩, ⟨"Quake", .chance, ["yes", "no"], (0, 0), "", some 1⟩,
    ⟨"Alarm", .chance, ["yes", "no"], (0, 0), "", some 2⟩, ⟨"Radio", .chance, ["yes", "no"], (0, 0), "", some 3⟩,
    ⟨"Call", .chance, ["yes", "no"], (0, 0), "", some 4⟩]
  factors := [⟨"Burglary", [], some [1, 99], [], 2⟩, ⟨"Quake", [], some [2, 98], [], 2⟩,
    ⟨"Alarm", ["Burglary", "Quake"], some [95, 5, 94, 6, 29, 71, 1, 999], [2, 2], 2⟩,
    ⟨"Radio", ["Quake"], some [9, 1, 0, 1], [2], 2⟩, ⟨"Call", ["Alarm"], some [9, 1, 1, 19], [2], 2⟩]
  policies := []
  vs := none
  names := []
  totalUtility := none

theorem alarm_new : newNet "alarm" "" [nv "Burglary" .chance ["yes", "no"], nv "Quake" .chance ["yes", "no"],
    nv "Alarm" .chance ["yes", "no"], nv "Radio" .chance ["yes", "no"], nv "Call" .chance ["yes", "no"]]
    [nf "Burglary" [] [1, 99], nf "Quake" [] [2, 98], nf "Alarm" ["Burglary", "Quake"] [95, 5, 94, 6, 29, 71, 1, 999],
    nf "Radio" ["Quake"] [9, 1, 0, 1], nf "Call" ["Alarm"] [9, 1, 1, 19]] = .ok alarm := rfl

theorem alarm_valid : alarm.Valid where
  names := by decide
  named := by decide
  few := by decide
  outcomes := by decide
  tables := by decide
  hasTable := by decide
  known := by decide
  dims := by decide
  parents := by decide
  size := by
    intro f hf _ _
    have : ∀ f ∈ alarm.factors, f.tab.length = (f.dims.map alarm.count).prod ∧ f.table = some f.tab := by decide +kernel
    exact ⟨f.tab, (this f hf).2, (this f hf).1⟩
  single := by decide
  weights := by intro i h; cases h

theorem alarm_acyclic : alarm.Acyclic :=
  ⟨fun s => if s = "Burglary" ∨ s = "Quake" then 0 else if s = "Alarm" then 1 else 2, by decide⟩

theorem alarm_regular : alarm.Regular := by
  intro f hf w hw
  have hB : w "Burglary" < 2 := hw ⟨"Burglary", .chance, ["yes", "no"], (0, 0), "", some 0⟩ (by decide)
  have hQ : w "Quake" < 2 := hw ⟨"Quake", .chance, ["yes", "no"], (0, 0), "", some 1⟩ (by decide)
  have hA : w "Alarm" < 2 := hw ⟨"Alarm", .chance, ["yes", "no"], (0, 0), "", some 2⟩ (by decide)
  have key : ∀ b < 2, ∀ q < 2, ∀ a < 2, ∀ f ∈ alarm.chanceTables, alarm.rowSum f
      (World.set (World.set (World.set (fun _ => 0) "Burglary" b) "Quake" q) "Alarm" a) ≠ 0 := by decide +kernel
  have := key _ hB _ hQ _ hA f hf
  intro h0
  apply this
  rw [← h0]
  unfold Net.rowSum
  refine Finset.sum_congr rfl (fun k _ => ?_)
  unfold Net.entry
  congr 2
  apply List.map_congr_left
  intro s hs
  have hdim : ∀ f ∈ alarm.chanceTables, ∀ s ∈ f.dims, s = f.forVar ∨ s = "Burglary" ∨ s = "Quake" ∨ s = "Alarm" := by decide
  unfold World.set
  rcases hdim f hf s hs with rfl | rfl | rfl | rfl <;> simp

/-- Burglary and the radio have nothing to do with each other, as long as nothing else is known. -/
theorem alarm_separated : alarm.Separated [] "Burglary" "Radio" :=
  separated_of_closed [("Burglary", true), ("Alarm", false), ("Call", false)] [] (by decide) (by decide) (by decide) (by decide)
    (by decide)

/-- If it is known whether there was an alarm, the call tells nothing more. -/
theorem alarm_separated' : ∀ s, s = "Burglary" ∨ s = "Radio" → alarm.Separated ["Alarm"] "Call" s := by
  intro s hs
  refine separated_of_closed [("Call", true), ("Alarm", true)] ["Burglary", "Quake"] (by decide) (by decide) (by decide)
    (by decide) ?_
  rcases hs with rfl | rfl <;> decide

/-- But with an alarm, news about a burglary reaches the radio: an earthquake would explain the alarm as well. -/
example : alarm.Trail ["Alarm"] "Burglary" "Radio" false := by
  have h1 : alarm.Trail ["Alarm"] "Burglary" "Alarm" false :=
    .toChild (f := ⟨"Alarm", ["Burglary", "Quake"], some [95, 5, 94, 6, 29, 71, 1, 999], [2, 2], 2⟩) .start (by decide)
      (by decide) (by decide)
  have h2 : alarm.Trail ["Alarm"] "Burglary" "Quake" true :=
    .around (f := ⟨"Alarm", ["Burglary", "Quake"], some [95, 5, 94, 6, 29, 71, 1, 999], [2, 2], 2⟩) h1 (.inl (by decide))
      (by decide) (by decide)
  exact .toChild (f := ⟨"Radio", ["Quake"], some [9, 1, 0, 1], [2], 2⟩) h2 (by decide) (by decide) (by decide)

/-- The conditions of C98 hold. -/
example (sch sch' : NSched ℚ) : ∃ d, alarm.Answers sch [("Alarm", "yes")] "Call" false d ∧
    alarm.Answers sch' [("Radio", "no"), ("Burglary", "yes"), ("Alarm", "yes")] "Call" false d :=
  C98_separated sch sch' alarm_valid rfl alarm_acyclic alarm_regular (evidence := [("Alarm", "yes")])
    (extra := [("Radio", "no"), ("Burglary", "yes")]) ⟨by decide, by decide⟩
    (x := ⟨"Call", .chance, ["yes", "no"], (0, 0), "", some 4⟩) (by decide) rfl (by decide) (by
      intro e he
      simp only [List.mem_cons, List.not_mem_nil, or_false] at he
      rcases he with rfl | rfl
      · exact alarm_separated' _ (.inr rfl)
      · exact alarm_separated' _ (.inl rfl)) false false (by decide +kernel) (by decide +kernel)

end Ex

end Bbn
