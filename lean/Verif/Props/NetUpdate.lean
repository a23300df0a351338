import Verif.Props.NetSeparation
import Verif.Props.NetSameJoint
import Verif.Props.Reproduce

/-!
# C157: the posterior of today is the prior of tomorrow
-/

set_option autoImplicit false

namespace Bbn

open Finset

variable {α : Type}

/-! ## Separation of groups of variables -/

/-- If news about one of the variables in `X` reaches one dimension of a table and that is not observed, then news about
them reaches all dimensions; for tables of variables above what is asked for and observed. -/
theorem trail_tables {n : Net α} {seen extra X : List String} (hsep : ∀ x ∈ X, ∀ y ∈ extra, n.Separated seen x y)
    {f : NFactor α} (hf : f ∈ n.chanceTables) (hup : n.Upward (X ++ (extra ++ seen)) f.forVar)
    {u : String} (hu : u ∈ f.dims) (hus : u ∉ seen) {x : String} (hx : x ∈ X) {b : Bool} (h : n.Trail seen x u b)
    {s : String} (hs : s ∈ f.dims) : ∃ x ∈ X, ∃ b, n.Trail seen x s b := by
  have hpar : ∀ {x b}, x ∈ X → n.Trail seen x f.forVar b → (f.forVar ∈ seen → n.Trail seen x f.forVar false) → ∀ g ∈ f.given,
      ∃ x ∈ X, n.Trail seen x g true := by
    intro x b hx h hseen g hg
    by_cases hu : n.Upward seen f.forVar
    · cases b with
      | false => exact ⟨x, hx, .around h hu hf hg⟩
      | true =>
        by_cases hm : f.forVar ∈ seen
        · exact ⟨x, hx, .around (hseen hm) hu hf hg⟩
        · exact ⟨x, hx, .toParent h hm hf hg⟩
    · have hm : f.forVar ∉ seen := fun e => hu (.inl e)
      have htrue : ∃ x ∈ X, n.Trail seen x f.forVar true := by
        rcases hup with e | ⟨y, hy, hb⟩
        · rcases List.mem_append.1 e with e | e
          · exact ⟨_, e, .start⟩
          · rcases List.mem_append.1 e with e | e
            · exact absurd h (hsep _ hx _ e b)
            · exact absurd e hm
        · rcases List.mem_append.1 hy with e | e
          · exact ⟨y, e, trail_up hb hu .start⟩
          · rcases List.mem_append.1 e with e | e
            · exact absurd (trail_down hb hu h) (hsep _ hx _ e false)
            · exact absurd (.inr ⟨y, e, hb⟩) hu
      obtain ⟨x', hx', ht⟩ := htrue
      exact ⟨x', hx', .toParent ht hm hf hg⟩
  have hchild : ∀ g ∈ f.given, g ∉ seen → ∀ b, n.Trail seen x g b → n.Trail seen x f.forVar false :=
    fun g hg hm b h => .toChild h hm hf hg
  rw [NFactor.dims, List.mem_append, List.mem_singleton] at hu hs
  rcases hu with hu | hu
  · have h1 := hchild u hu hus b h
    rcases hs with hs | hs
    · obtain ⟨x', hx', ht⟩ := hpar hx h1 (fun _ => h1) s hs
      exact ⟨x', hx', true, ht⟩
    · exact ⟨x, hx, _, hs ▸ h1⟩
  · subst hu
    rcases hs with hs | hs
    · obtain ⟨x', hx', ht⟩ := hpar hx h (fun e => absurd e hus) s hs
      exact ⟨x', hx', true, ht⟩
    · exact ⟨x, hx, _, hs ▸ h⟩

/-- If the variables in `X` are separated from those in `Y` by what is observed, then what depends on `X` and what depends
on `Y` contribute separate factors. -/
theorem separated_total [Field α] [DecidableEq α] {n : Net α} (hn : n.Valid) (ha : n.Acyclic) (hr : n.Regular)
    {seen : List String} {E : World → α} (hE : ∀ s, s ∉ seen → Blind E s)
    (hE1 : ∀ w w' : World, (∀ s, s ∉ seen → w s = 0) → (∀ s, s ∉ seen → w' s = 0) → E w ≠ 0 → E w' ≠ 0 → w = w')
    {X Y : List String} (hsep : ∀ x ∈ X, ∀ y ∈ Y, n.Separated seen x y) :
    ∃ (c : α) (A B : (World → α) → α), ∀ P Q : World → α, (∀ s, s ∉ X → Blind P s) → (∀ s, s ∉ Y → Blind Q s) →
      n.total [] (fun w => E w * (P w * Q w)) = c * (A P * B Q) := by
  classical
  set l := X ++ (Y ++ seen) with hl
  set keep : String → Bool := fun s => decide (n.Upward l s) with hk
  set S := n.stateVars.filter (fun v => keep v.name) with hS
  set z : String → Bool := fun s => decide (s ∈ seen) with hz
  set r : String → Bool := fun s => decide (∃ x ∈ X, ∃ b, n.Trail seen x s b) with hrd
  have hnd : (S.map NVar.name).Nodup := (stateVars_names hn).sublist (List.filter_sublist.map NVar.name)
  have hz' : ∀ {s}, z s = false ↔ s ∉ seen := by
    intro s
    simp only [hz, decide_eq_false_iff_not]
  have hEb : ∀ s, z s = false → Blind E s := fun s hs => hE s (hz'.1 hs)
  have hside : ∀ v ∈ S, (∀ s, z s = false → r s = false → Blind (n.kernel v) s) ∨
      (∀ s, z s = false → r s = true → Blind (n.kernel v) s) := by
    intro v hv
    obtain ⟨hv1, hv2⟩ := List.mem_filter.1 hv
    simp only [hk, decide_eq_true_eq] at hv2
    by_cases hc : n.isKind .chance v.name = true
    · have hv' := (mem_stateVars.1 hv1).1
      obtain ⟨f, hf, e⟩ := hn.hasTable v hv' (by rw [(isKind_iff hn hv' _).1 hc]; decide)
      have hf' : f ∈ n.chanceTables := mem_chanceTables.2 ⟨hf, by rw [e]; exact hc⟩
      rw [kernel_table hn hf' e.symm]
      have ht := fun u hu hus x hx b h s hs => trail_tables hsep hf' (by rw [e]; exact hv2) (u := u) hu hus (x := x) hx
        (b := b) h (s := s) hs
      by_cases hin : ∃ u ∈ f.dims, u ∉ seen ∧ ∃ x ∈ X, ∃ b, n.Trail seen x u b
      · obtain ⟨u, hu, hus, x, hx, b, hb⟩ := hin
        left
        intro s h1 h2
        apply prob_blind
        intro hs
        simp only [hrd, decide_eq_false_iff_not] at h2
        exact h2 (ht u hu hus x hx b hb s hs)
      · right
        intro s h1 h2
        apply prob_blind
        intro hs
        simp only [hz, decide_eq_false_iff_not] at h1
        simp only [hrd, decide_eq_true_eq] at h2
        exact hin ⟨s, hs, h1, h2⟩
    · rw [kernel_none (by simpa using hc)]
      exact .inl (fun s _ _ => Blind.const _ _)
  have hone : ∀ w w' : World, (∀ s, z s = false → w s = 0) → (∀ s, z s = false → w' s = 0) → E w ≠ 0 → E w' ≠ 0 → w = w' :=
    fun w w' h1 h2 => hE1 w w' (fun s hs => h1 s (hz'.2 hs)) (fun s hs => h2 s (hz'.2 hs))
  obtain ⟨c, A, B, hAB⟩ := independent_sums hnd z r n.kernel hside E hEb (fun _ => 0) hone
  refine ⟨((n.stateVars.filter (fun v => !keep v.name)).map openCount).prod * c, A, B, fun P Q hP hQ => ?_⟩
  rw [total_kept hn ha hr keep ?_ _ ?_, hAB P Q ?_ ?_]
  · ring
  · intro s h1 h2
    refine hP s (fun hm => ?_)
    simp only [hrd, decide_eq_false_iff_not] at h2
    exact h2 ⟨_, hm, _, .start⟩
  · intro s h1 h2
    refine hQ s (fun hm => ?_)
    simp only [hrd, decide_eq_true_eq] at h2
    obtain ⟨x, hx, b, h2⟩ := h2
    exact hsep x hx s hm b h2
  · intro f hf h g hg
    simp only [hk, decide_eq_true_eq] at h ⊢
    exact upward_given hf h hg
  · intro s hs
    simp only [hk, decide_eq_false_iff_not] at hs
    have h1 : s ∉ l := fun h => hs (.inl h)
    simp only [hl, List.mem_append, not_or] at h1
    exact Blind.mul (hEb s (by simp only [hz, decide_eq_false_iff_not]; exact h1.2.2))
      (Blind.mul (hP s h1.1) (hQ s h1.2.1))

/-! ## C157 -/

/-- Sums over all worlds, by the outcome of one variable. -/
theorem total_parts [Field α] [DecidableEq α] {n : Net α} (hn : n.Valid) {v : NVar} (hv : v ∈ n.stateVars) (F : World → α) :
    n.total [] F = ∑ k ∈ range v.outcomes.length, n.total [] (fun w => (if w v.name = k then 1 else 0) * F w) := by
  unfold Net.total
  rw [← sumWorlds_sum]
  refine sumWorlds_congr _ _ (stateVars_names hn) (fun w h _ => ?_)
  rw [← Finset.mul_sum, ← Finset.sum_mul]
  simp [h v hv]

/-- The probabilities of a variable without parents. -/
theorem root_prob [Field α] [DecidableEq α] {n : Net α} {f : NFactor α} (hroot : f.given = []) (w : World) :
    n.prob f w = n.prob f (World.set (fun _ => 0) f.forVar (w f.forVar)) := by
  refine prob_congr n f (fun s hs => ?_)
  rw [NFactor.dims, hroot, List.nil_append, List.mem_singleton] at hs
  rw [hs]
  simp [World.set]

/-- The probabilities of a variable without parents whose table sums to one. -/
theorem root_table [Field α] [DecidableEq α] {n : Net α} {f : NFactor α} (hroot : f.given = []) {d : List α}
    (ht : f.table = some d) (hl : d.length = n.count f.forVar) (h1 : ∑ k ∈ range d.length, d.getD k 0 = 1)
    (w : World) :
    n.prob f w = d.getD (w f.forVar) 0 := by
  have he : ∀ w : World, n.entry f w = d.getD (w f.forVar) 0 := by
    intro w
    unfold Net.entry NFactor.tab NFactor.dims
    rw [hroot, ht]
    simp [rowMajor]
  have hs : n.rowSum f w = 1 := by
    unfold Net.rowSum
    rw [← h1, ← hl]
    simp only [he, World.set, if_true]
  unfold Net.prob
  rw [hs, he, if_neg one_ne_zero, div_one]

/-- **C157.** In a network without cycles, without all-zero rows and without stored policies, a first group of observations
is made, and the answer `d` for a chance variable `h` without parents is noted. Then the table of `h` is replaced by `d`, and
the first observations are forgotten. With any second group of observations, the new network gives the same answers as the
old one with all observations, if `h` separates the first observations from what is asked for and from the second ones. -/
theorem C157_update [Field α] [CharZero α] [DecidableEq α] (s0 s1 s2 : NSched α) {n : Net α} (hn : n.Valid)
    (hpol : n.policies = []) (ha : n.Acyclic) (hr : n.Regular) {h : NVar} (hh : h ∈ n.variables) {f : NFactor α}
    (hf : f ∈ n.chanceTables) (ef : f.forVar = h.name) (hroot : f.given = []) {first second : List (String × String)}
    (hev : n.EvidenceOK (first ++ second)) (hhf : h.name ∉ first.map Prod.fst) (ign0 ign1 ign2 : Bool)
    (possible : n.mass [] (n.Agrees first) ≠ 0) (possible' : n.mass [] (n.Agrees (first ++ second)) ≠ 0) :
    ∃ d, n.Answers s0 first h.name ign0 d ∧
      ∀ n' : Net α, n'.Valid → n'.policies = [] → n.SameVars n' → n.SameChances n' [h.name] →
        ∀ f' ∈ n'.chanceTables, f'.forVar = h.name → f'.given = [] → f'.table = some d →
        ∀ query : List String, (∀ q ∈ query, n.isKind .chance q = true ∧ q ∉ (first ++ second).map Prod.fst) →
          (∀ x, x ∈ query ∨ x ∈ second.map Prod.fst → ∀ e ∈ first, n.Separated [h.name] x e.1) →
          ∃ r g m r' g' m', n.solveQuery s1 (first ++ second) query ign1 = (.ok (r, g), m) ∧
            n'.solveQuery s2 second query ign2 = (.ok (r', g'), m') ∧
            (∀ q, q ∈ r.map Prod.fst ↔ q ∈ query) ∧ ∀ q p, (q, p) ∈ r' ↔ (q, p) ∈ r := by
  classical
  have hact : ∀ ev b, n.active ev b = [] := by intro ev b; simp [Net.active, hpol]
  have hpo : n.PoliciesOK := by constructor <;> simp [hpol]
  have hkeys := hev.keys
  rw [List.map_append, List.nodup_append] at hkeys
  have hev1 : n.EvidenceOK first := ⟨hkeys.1, fun e he => hev.known e (List.mem_append_left _ he)⟩
  have hev2 : n.EvidenceOK second := ⟨hkeys.2.1, fun e he => hev.known e (List.mem_append_right _ he)⟩
  have hhc : h.nodeType = .chance := by
    have := (mem_chanceTables.1 hf).2
    rw [ef] at this
    exact (isKind_iff hn hh _).1 this
  have hhs : h ∈ n.stateVars := mem_stateVars.2 ⟨hh, by rw [hhc]; decide⟩
  obtain ⟨d, hd, hdl, hdk⟩ := answers_mass s0 hn hpo hev1 hh hhc hhf ign0 (by rw [hact]; exact possible)
  refine ⟨d, hd, fun n' hn' hpol' hv hp f' hf' ef' hroot' htab query hq hsep => ?_⟩
  rw [hact] at hdk
  have hdg : ∀ k < h.outcomes.length, d.getD k 0 = n.mass [] (fun w => n.Agrees first w ∧ w h.name = k) /
      n.mass [] (n.Agrees first) := by
    intro k hk
    rw [List.getD_eq_getElem?_getD, hdk k hk]
    rfl
  have hsum : ∑ k ∈ range d.length, d.getD k 0 = 1 := by
    rw [hdl, Finset.sum_congr rfl (fun k hk => hdg k (Finset.mem_range.1 hk)), ← Finset.sum_div, mass_split hn [] hhs]
    exact div_self possible
  -- the tables of `h`
  set prior : Nat → α := fun k => n.prob f (World.set (fun _ => 0) h.name k) with hprior
  have hpf : ∀ w : World, n.prob f w = prior (w h.name) := by
    intro w
    rw [root_prob hroot w, ef]
  have hpf' : ∀ w : World, n'.prob f' w = d.getD (w h.name) 0 := by
    intro w
    rw [root_table hroot' htab ?_ hsum, ef']
    rw [ef', SameVars.count hv hn hn' ⟨h, hh, rfl⟩, count_eq hn hh, hdl]
  obtain ⟨M, hM⟩ := markov_total hn ha hr hf (fun _ => 1) (Blind.const _ _) (fun _ _ => Blind.const _ _) prior (by
    intro w k _
    rw [hpf, ef]
    simp [World.set])
  have hone : ∀ k < h.outcomes.length, n.total [] (fun w => if w h.name = k then 1 else 0) = prior k * M := by
    intro k hk
    have := hM (fun j => if j = k then 1 else 0)
    rw [ef, count_eq hn hh] at this
    simp only [mul_ite, mul_one, mul_zero, Finset.sum_ite_eq', Finset.mem_range, hk, if_true] at this
    exact this
  have hM0 : M ≠ 0 := by
    intro h0
    have h1 := hM (fun _ => 1)
    rw [h0, mul_zero] at h1
    have h2 := C86_total hn ha hr
    unfold Net.mass at h2
    simp only [if_true] at h2
    simp only [mul_one] at h1
    rw [h1] at h2
    refine absurd h2.symm (List.prod_ne_zero (fun hm => ?_))
    obtain ⟨v, hv, e⟩ := List.mem_map.1 hm
    have := (hn.outcomes v (List.mem_filter.1 hv).1).1
    rw [Nat.cast_eq_zero] at e
    omega
  have hzero : ∀ w : World, prior (w h.name) = 0 → n.joint [] w = 0 := by
    intro w h0
    unfold Net.joint
    rw [List.prod_eq_zero, zero_mul]
    exact List.mem_map.2 ⟨f, hf, by rw [hpf, h0]⟩
  have hnone : ∀ (k : Nat) (F : World → α), prior k = 0 → n.total [] (fun w => (if w h.name = k then 1 else 0) * F w) = 0 := by
    intro k F h0
    have : n.total [] (fun w => (if w h.name = k then 1 else 0) * F w) = n.total [] (fun _ => 0) := by
      unfold Net.total
      refine sumWorlds_congr _ _ (stateVars_names hn) (fun w _ _ => ?_)
      by_cases e : w h.name = k
      · rw [hzero w (by rw [e, h0])]; simp
      · simp [e]
    rw [this]
    unfold Net.total
    have h1 := sumWorlds_mul n.stateVars (0 : α) (fun w => n.joint [] w * 0) (fun _ => 0)
    simpa using h1
  have hmass : ∀ (k : Nat) (P : World → Prop) [DecidablePred P], n.mass [] (fun w => P w ∧ w h.name = k) =
      n.total [] (fun w => (if w h.name = k then 1 else 0) * (if P w then 1 else 0)) := by
    intro k P _
    unfold Net.mass
    congr 1
    funext w
    by_cases e : w h.name = k <;> by_cases e' : P w <;> simp [e, e']
  -- the joint probabilities of the new network
  set c : Nat → α := fun k => if prior k = 0 then 0 else d.getD k 0 / prior k with hc
  have hjoint : ∀ w, n.Allowed w → n'.joint [] w = c (w h.name) * n.joint [] w := by
    intro w hw
    refine SameVars.joint hv hn hn' hp hw ?_
    have hfil : n.stateVars.filter (fun u => u.name ∈ [h.name]) = [h] := by
      rw [show (fun u : NVar => decide (u.name ∈ [h.name])) = fun u => decide (u.name = h.name) by
        funext u; simp only [List.mem_singleton]]
      exact filter_single NVar.name _ (stateVars_names hn) h hhs
    rw [hfil]
    simp only [List.map_cons, List.map_nil, List.prod_cons, List.prod_nil, mul_one]
    rw [kernel_table hn hf ef.symm, kernel_table hn' hf' ef'.symm, hpf, hpf']
    have hk := hw h hhs
    simp only [hc]
    by_cases h0 : prior (w h.name) = 0
    · rw [if_pos h0, zero_mul, hdg _ hk, hmass, hnone _ _ h0, zero_div]
    · rw [if_neg h0, div_mul_cancel₀ _ h0]
  obtain ⟨h', hh', e1, e2, e3⟩ := SameVars.var (SameVars.symm hv) hh
  have htotal : ∀ F : World → α, n'.total [] F =
      ∑ k ∈ range h.outcomes.length, c k * n.total [] (fun w => (if w h.name = k then 1 else 0) * F w) := by
    intro F
    rw [total_parts hn' (v := h') (mem_stateVars.2 ⟨hh', by rw [e2, hhc]; decide⟩) F, e1, e3]
    refine Finset.sum_congr rfl (fun k _ => ?_)
    refine SameVars.total hv hn (fun w hw h0 => ?_)
    rw [hjoint w hw]
    by_cases e : w h.name = k
    · rw [e]
    · simp [e] at h0
  -- separation
  have hcross : ∀ P : World → α, (∀ s, s ∉ query ++ second.map Prod.fst → Blind P s) →
      n'.total [] P = M / n.mass [] (n.Agrees first) * n.total [] (fun w => P w * (if n.Agrees first w then 1 else 0)) := by
    intro P hP
    rw [htotal, total_parts hn hhs (fun w => P w * _), Finset.mul_sum]
    refine Finset.sum_congr rfl (fun k hk => ?_)
    rw [Finset.mem_range] at hk
    simp only [hc]
    by_cases h0 : prior k = 0
    · rw [if_pos h0, hnone _ _ h0, hnone _ _ h0, mul_zero, mul_zero]
    · rw [if_neg h0, hdg k hk, hmass]
      obtain ⟨a, A, B, hAB⟩ := separated_total hn ha hr (seen := [h.name]) (E := fun w => if w h.name = k then (1 : α) else 0) (by
          intro s hs w j
          rw [List.mem_singleton] at hs
          simp only [World.set_ne w (Ne.symm hs)]) (by
          intro w w' h1 h2 h3 h4
          funext s
          by_cases e : s = h.name
          · have k3 : w h.name = k := by by_contra hh; simp [hh] at h3
            have k4 : w' h.name = k := by by_contra hh; simp [hh] at h4
            rw [e, k3, k4]
          · rw [h1 s (by simpa using e), h2 s (by simpa using e)]) (X := query ++ second.map Prod.fst) (Y := first.map Prod.fst) (by
          intro x hx y hy
          obtain ⟨e, he, rfl⟩ := List.mem_map.1 hy
          exact hsep x (List.mem_append.1 hx) e he)
      have hQ : ∀ s, s ∉ first.map Prod.fst → Blind (fun w => if n.Agrees first w then (1 : α) else 0) s := by
        intro s hs w j
        have : ∀ e ∈ first, e.1 ≠ s := fun e he e' => hs (e' ▸ List.mem_map_of_mem he)
        simp only [agrees_blind this w j]
      have t1 := hAB P _ hP hQ
      have t2 := hAB P (fun _ => 1) hP (fun _ _ => Blind.const _ _)
      have t3 := hAB (fun _ => 1) _ (fun _ _ => Blind.const _ _) hQ
      have t4 := hAB (fun _ => 1) (fun _ => 1) (fun _ _ => Blind.const _ _) (fun _ _ => Blind.const _ _)
      simp only [mul_one, one_mul] at t2 t3 t4
      rw [hone k hk] at t4
      rw [t1, t2, t3]
      have hne : a * (A (fun _ => 1) * B (fun _ => 1)) ≠ 0 := by rw [← t4]; exact mul_ne_zero h0 hM0
      field_simp
      linear_combination -(a * B (fun w => if n.Agrees first w then 1 else 0) * A P) * t4
  set K : α := M / n.mass [] (n.Agrees first) with hK
  have hK0 : K ≠ 0 := div_ne_zero hM0 possible
  have hm : ∀ (P : World → Prop) [DecidablePred P],
      (∀ s, s ∉ query → Blind (fun w => if P w then (1 : α) else 0) s) →
      n'.mass [] (fun w => n'.Agrees second w ∧ P w) = K * n.mass [] (fun w => n.Agrees (first ++ second) w ∧ P w) := by
    intro P _ hP
    rw [mass_congr n' [] (fun w => and_congr_left (fun _ => SameVars.agrees hv second w))]
    have hb : ∀ s, s ∉ query ++ second.map Prod.fst → Blind (fun w => if n.Agrees second w ∧ P w then (1 : α) else 0) s := by
      intro s hs w j
      rw [List.mem_append, not_or] at hs
      have h1 : ∀ e ∈ second, e.1 ≠ s := fun e he e' => hs.2 (e' ▸ List.mem_map_of_mem he)
      have h2 := hP s hs.1 w j
      have h3 := agrees_blind (n := n) h1 w j
      have h4 : P (w.set s j) ↔ P w := by
        by_cases k1 : P w <;> by_cases k2 : P (w.set s j) <;> simp [k1, k2] at h2 ⊢
      simp only [h3, h4]
    have := hcross _ hb
    unfold Net.mass at this ⊢
    rw [this]
    congr 2
    funext w
    simp only [agrees_append]
    by_cases k1 : n.Agrees first w <;> by_cases k2 : n.Agrees second w <;> by_cases k3 : P w <;> simp [k1, k2, k3]
  have hm0 : n'.mass [] (n'.Agrees second) = K * n.mass [] (n.Agrees (first ++ second)) := by
    have := hm (fun _ => True) (fun s _ w j => by simp)
    simpa only [and_true] using this
  have hok : ∀ {m : Net α}, m.Valid → ∀ {ev : List (String × String)} (i : Bool),
      (∀ q ∈ query, m.isKind .chance q = true ∧ q ∉ ev.map Prod.fst) → m.QueryOK ev i query := by
    intro m hm ev i h
    refine ⟨fun q hq' => ?_, fun q hq' e he e' => (h q hq').2 (e' ▸ List.mem_map_of_mem he), fun q hq' => ?_⟩
    · obtain ⟨v, hv, e1, e2⟩ := isKind_mem.1 (h q hq').1
      exact ⟨v, mem_stateVars.2 ⟨hv, by rw [e2]; decide⟩, e1⟩
    · obtain ⟨v, hv, e1, e2⟩ := isKind_mem.1 (h q hq').1
      rw [← e1]; exact chance_occurs hm _ hv e2
  have hact' : n'.active second ign2 = [] := by simp [Net.active, hpol']
  obtain ⟨r, g, m, a1, a2, a3, a4⟩ := C31_solveQuery_posterior s1 hn hpo hev ign1
    (hok hn _ hq) (by rw [hact]; exact possible')
  obtain ⟨r', g', m', b1, b2, b3, b4⟩ := C31_solveQuery_posterior s2 hn' (by constructor <;> simp [hpol'])
    (SameVars.evidence hv hev2) ign2 (hok hn' _ (fun q hq' => ⟨by rw [SameVars.isKind hv]; exact (hq q hq').1,
      fun e => (hq q hq').2 (by rw [List.map_append]; exact List.mem_append_right _ e)⟩))
    (by rw [hact', hm0]; exact mul_ne_zero hK0 possible')
  refine ⟨r, g, m, r', g', m', a1, b1, a3, ?_⟩
  have hsame : ∀ q ∈ query, ∃ d, (q, d) ∈ r ∧ (q, d) ∈ r' := by
    intro q hq'
    obtain ⟨d, u1, u2, u3⟩ := a4 q hq'
    obtain ⟨d', v1, v2, v3⟩ := b4 q hq'
    have hcount : n'.count q = n.count q := by
      obtain ⟨v, h1, h2, _⟩ := isKind_mem.1 (hq q hq').1
      exact SameVars.count hv hn hn' ⟨v, h1, h2⟩
    have : d' = d := by
      apply List.ext_getElem?
      intro k
      by_cases hk : k < n.count q
      · rw [u3 k hk, v3 k (by rw [hcount]; exact hk), hact, hact', hm, hm0, mul_div_mul_left _ _ hK0]
        intro s hs w j
        have : q ≠ s := fun e => hs (e ▸ hq')
        simp only [World.set_ne w this]
      · rw [List.getElem?_eq_none (l := d) (by omega), List.getElem?_eq_none (l := d') (by rw [v2, hcount]; omega)]
    exact ⟨d, u1, this ▸ v1⟩
  have huni : ∀ {L : List (String × List α)}, (L.map Prod.fst).Nodup → ∀ {q d d'}, (q, d) ∈ L → (q, d') ∈ L → d = d' := by
    intro L hL q d d' h1 h2
    have := List.inj_on_of_nodup_map hL h1 h2 rfl
    simpa using this
  intro q p
  constructor
  · intro h
    obtain ⟨e, h1, h2⟩ := hsame q ((b3 q).1 (List.mem_map_of_mem h))
    rw [huni b2 h h2]; exact h1
  · intro h
    obtain ⟨e, h1, h2⟩ := hsame q ((a3 q).1 (List.mem_map_of_mem h))
    rw [huni a2 h h1]; exact h2

namespace Ex

/-- The network `flu` after fever was noticed: now flu is as likely as not. -/
def fluFever : Net ℚ :=
  { flu with factors := [⟨"Flu", [], some [1/2, 1/2], [], 2⟩, ⟨"Fever", ["Flu"], some [9/10, 1/10, 1/10, 9/10], [2], 2⟩,
    ⟨"Cough", ["Flu"], some [9/10, 1/10, 1/10, 9/10], [2], 2⟩] }

theorem fluFever_valid : fluFever.Valid where
  names := by decide
  named := by decide
  few := by decide
  outcomes := by decide
  tables := by decide
  hasTable := by decide
  known := by decide
  dims := by decide
  parents := by decide
  size := by
    have key : ∀ f ∈ fluFever.factors, f.table = some f.tab ∧ f.tab.length = (f.dims.map fluFever.count).prod := by
      decide +kernel
    exact fun f hf _ _ => ⟨f.tab, key f hf⟩
  single := by decide
  weights := by intro i h; cases h

theorem flu_acyclic : flu.Acyclic := ⟨fun s => if s = "Flu" then 0 else 1, by decide⟩

theorem flu_regular : flu.Regular := by
  intro f hf w hw
  have h1 : w "Flu" < 2 := hw ⟨"Flu", .chance, ["yes", "no"], (0, 0), "", some 0⟩ (by decide)
  have key : ∀ a < 2, ∀ f ∈ flu.chanceTables, flu.rowSum f (World.set (fun _ => 0) "Flu" a) ≠ 0 := by
    decide +kernel
  intro h0
  apply key _ h1 f hf
  rw [← h0]
  unfold Net.rowSum
  refine Finset.sum_congr rfl (fun k _ => ?_)
  unfold Net.entry
  congr 2
  apply List.map_congr_left
  intro s hs
  have hdim : ∀ f ∈ flu.chanceTables, ∀ s ∈ f.dims, s = f.forVar ∨ s = "Flu" := by decide
  unfold World.set
  rcases hdim f hf s hs with rfl | rfl <;> simp

theorem fluFever_same : flu.SameChances fluFever ["Flu"] := by
  intro f hf f' hf' e hne w hw
  have h1 : ∀ f ∈ flu.chanceTables, ∀ f' ∈ fluFever.chanceTables, f'.forVar = f.forVar → f.forVar ∉ ["Flu"] → f' = f := by
    decide +kernel
  obtain rfl := h1 f hf f' hf' e hne
  rfl

end Ex

open Ex in
/-- The hypotheses of `C157_update` are met. Fever makes flu as likely as not. If this is written into the table of the flu,
then a cough leads to the same answer as fever and cough did. -/
example (s0 s1 s2 : NSched ℚ) : flu.Answers s0 [("Fever", "yes")] "Flu" false [1/2, 1/2] ∧
    ∃ r g m r' g' m', flu.solveQuery s1 ([("Fever", "yes")] ++ [("Cough", "yes")]) ["Flu"] false = (.ok (r, g), m) ∧
      fluFever.solveQuery s2 [("Cough", "yes")] ["Flu"] false = (.ok (r', g'), m') ∧
      (∀ q, q ∈ r.map Prod.fst ↔ q ∈ ["Flu"]) ∧ ∀ q p, (q, p) ∈ r' ↔ (q, p) ∈ r := by
  obtain ⟨d, hd, h⟩ := C157_update s0 s1 s2 flu_valid rfl flu_acyclic flu_regular
    (h := ⟨"Flu", .chance, ["yes", "no"], (0, 0), "", some 0⟩) (by decide) (f := ⟨"Flu", [], some [1/10, 9/10], [], 2⟩)
    (by decide +kernel) rfl rfl (first := [("Fever", "yes")]) (second := [("Cough", "yes")]) ⟨by decide, by decide⟩ (by decide)
    false false false (by decide +kernel) (by decide +kernel)
  have e : d = [1/2, 1/2] := by
    obtain ⟨r, f, m, h1, h2⟩ := hd
    obtain ⟨r', f', m', k1, k2, _, k4⟩ := C31_solveQuery_posterior s0 flu_valid (by constructor <;> simp [flu])
      (evidence := [("Fever", "yes")]) ⟨by decide, by decide⟩ false (query := ["Flu"]) ⟨by decide, by decide,
        fun q hq => by
          rw [List.mem_singleton.1 hq]
          exact chance_occurs flu_valid _ (v := ⟨"Flu", .chance, ["yes", "no"], (0, 0), "", some 0⟩) (by decide) rfl⟩
      (by decide +kernel)
    obtain ⟨d', u1, u2, u3⟩ := k4 "Flu" (by decide)
    rw [h1] at k1
    simp only [Prod.mk.injEq, Except.ok.injEq] at k1
    obtain ⟨⟨rfl, _⟩, _⟩ := k1
    have e := List.inj_on_of_nodup_map k2 h2 u1 rfl
    simp only [Prod.mk.injEq, true_and] at e
    subst e
    have v0 := u3 0 (by decide)
    have v1 := u3 1 (by decide)
    have w0 : (flu.mass (flu.active [("Fever", "yes")] false) (fun w => flu.Agrees [("Fever", "yes")] w ∧ w "Flu" = 0) /
      flu.mass (flu.active [("Fever", "yes")] false) (flu.Agrees [("Fever", "yes")])) = 1/2 := by decide +kernel
    have w1 : (flu.mass (flu.active [("Fever", "yes")] false) (fun w => flu.Agrees [("Fever", "yes")] w ∧ w "Flu" = 1) /
      flu.mass (flu.active [("Fever", "yes")] false) (flu.Agrees [("Fever", "yes")])) = 1/2 := by decide +kernel
    rw [w0] at v0
    rw [w1] at v1
    apply List.ext_getElem?
    intro k
    match k with
    | 0 => exact v0
    | 1 => exact v1
    | k + 2 => rw [List.getElem?_eq_none (by rw [u2]; show 2 ≤ k + 2; omega), List.getElem?_eq_none (by simp)]
  subst e
  refine ⟨hd, h fluFever fluFever_valid rfl rfl fluFever_same ⟨"Flu", [], some [1/2, 1/2], [], 2⟩ (by decide +kernel) rfl rfl rfl
    ["Flu"] (by decide) ?_⟩
  intro x hx e he
  rw [List.mem_singleton] at he
  subst he
  simp only [List.mem_singleton, List.map_cons, List.map_nil] at hx
  rcases hx with rfl | rfl
  · exact separated_of_closed [("Flu", true)] [] (by decide) (by decide) (by decide) (by decide) (by decide)
  · exact separated_of_closed [("Cough", true), ("Flu", true)] [] (by decide) (by decide) (by decide) (by decide) (by decide)

end Bbn
