import Verif.Lemmas.Decide
import Mathlib.Tactic.Ring

/-!
# Solved policies are optimal
-/

set_option autoImplicit false

namespace Bbn

open Finset

variable {α : Type}

theorem sumOver_le [CommSemiring α] [PartialOrder α] [IsOrderedRing α] {vs : List Var} {F G : Assignment → α}
    {σ : Assignment} (hn : (vs.map Var.id).Nodup)
    (h : ∀ τ, (∀ i, i ∉ vs.map Var.id → τ i = σ i) → Fits τ vs → F τ ≤ G τ) : sumOver vs F σ ≤ sumOver vs G σ := by
  induction vs generalizing σ with
  | nil => exact h σ (fun _ _ => rfl) (by simp [Fits])
  | cons v vs ih =>
    simp only [List.map_cons, List.nodup_cons] at hn
    apply Finset.sum_le_sum
    intro k hk
    refine ih hn.2 (fun τ h1 h2 => h τ ?_ ?_)
    · intro i hi
      simp only [List.map_cons, List.mem_cons, not_or] at hi
      rw [h1 i hi.2]; simp [Assignment.upd, hi.1]
    · intro u hu
      rcases List.mem_cons.1 hu with rfl | hu
      · rw [h1 u.id hn.1]; simpa [Assignment.upd] using hk
      · exact h2 u hu

/-- An assignment that agrees with a fitting one outside some variables, and fits these, fits. -/
theorem fits_of_agree {R vs : List Var} (hR : (R.map Var.id).Nodup) (hsub : ∀ v ∈ vs, v ∈ R) {σ τ : Assignment}
    (hσ : Fits σ R) (h1 : ∀ i, i ∉ vs.map Var.id → τ i = σ i) (h2 : Fits τ vs) : Fits τ R := by
  intro v hv
  by_cases h : v.id ∈ vs.map Var.id
  · obtain ⟨w, hw, e⟩ := List.mem_map.1 h
    have := coherent_of_nodup hR w (hsub w hw) v hv e
    exact this ▸ h2 w hw
  · rw [h1 _ h]; exact hσ v hv

/-- A policy that only takes best outcomes is at least as good as any other distribution. -/
theorem policy_best [Field α] [LinearOrder α] [IsStrictOrderedRing α] {n : Nat} (hn : 0 < n) (F q : Nat → α)
    (hq : ∀ k < n, 0 ≤ q k) (hq1 : ∑ k ∈ range n, q k = 1) {h : α} (hh : 0 ≤ h) :
    ∑ k ∈ range n, F k * h * q k ≤ ∑ k ∈ range n, F k * h *
      (if k ∈ bestOutcomes n F then 1 / ((bestOutcomes n F).length : α) else 0) := by
  obtain ⟨c, hc⟩ := List.exists_mem_of_ne_nil _ (bestOutcomes_ne_nil hn F)
  obtain ⟨hc1, hc2⟩ := mem_bestOutcomes.1 hc
  have hl : ∑ k ∈ range n, F k * h * q k ≤ ∑ k ∈ range n, F c * h * q k := by
    apply Finset.sum_le_sum
    intro k hk
    have hk' : k < n := by simpa using hk
    exact mul_le_mul_of_nonneg_right (mul_le_mul_of_nonneg_right (hc2 k hk') hh) (hq k hk')
  have hr : ∑ k ∈ range n, F k * h * (if k ∈ bestOutcomes n F then 1 / ((bestOutcomes n F).length : α) else 0) =
      ∑ k ∈ range n, F c * h * (if k ∈ bestOutcomes n F then 1 / ((bestOutcomes n F).length : α) else 0) := by
    apply Finset.sum_congr rfl
    intro k hk
    by_cases hb : k ∈ bestOutcomes n F
    · obtain ⟨h1, h2⟩ := mem_bestOutcomes.1 hb
      rw [le_antisymm (hc2 k h1) (h2 c hc1)]
    · rw [if_neg hb, mul_zero, mul_zero]
  rw [hr, ← Finset.mul_sum, sum_best n hn F, mul_one]
  rw [← Finset.mul_sum, hq1, mul_one] at hl
  exact hl

/-- The function depends only on what is known to the decisions `L`. -/
def OnlyKnown (R : List Var) (deps : List (Var × List Var)) (L : List Var) (G : Assignment → α) : Prop :=
  ∀ σ τ, (∀ v ∈ R, Known deps L v → σ v.id = τ v.id) → G σ = G τ

/-- The function depends on the decision `d` and what is known to it. -/
theorem Known.mono {deps : List (Var × List Var)} {L L' : List Var} (h : ∀ d ∈ L, d ∈ L') {v : Var}
    (hk : Known deps L v) : Known deps L' v := by
  rcases hk with hk | ⟨e, he, h1, h2⟩
  · exact .inl (h v hk)
  · exact .inr ⟨e, he, h e.1 h1, h2⟩

theorem OnlyKnown.mono {R : List Var} {deps : List (Var × List Var)} {L L' : List Var} {G : Assignment → α}
    (h : OnlyKnown R deps L G) (hl : ∀ d ∈ L, d ∈ L') : OnlyKnown R deps L' G :=
  fun σ τ hστ => h σ τ (fun v hv hk => hστ v hv (hk.mono hl))

theorem OnlyKnown.prod [CommSemiring α] {R : List Var} {deps : List (Var × List Var)} {L : List Var} {β : Type}
    (ls : List β) (G : β → Assignment → α) (h : ∀ b ∈ ls, OnlyKnown R deps L (G b)) :
    OnlyKnown R deps L (fun σ => (ls.map (fun b => G b σ)).prod) := by
  intro σ τ hστ
  dsimp only
  congr 1
  exact List.map_congr_left (fun b hb => h b hb σ τ hστ)

/-- Summing out a variable that is not known. -/
theorem sumOver_onlyKnown [CommSemiring α] {R : List Var} {deps : List (Var × List Var)} {L hr : List Var}
    {G : Assignment → α} (hG : OnlyKnown R deps L G) (hu : ∀ v ∈ R, v.id ∈ hr.map Var.id → ¬ Known deps L v)
    (F : Assignment → α) (hn : (hr.map Var.id).Nodup) (σ : Assignment) :
    sumOver hr (fun τ => F τ * G τ) σ = sumOver hr F σ * G σ := by
  rw [mul_comm, ← sumOver_mul_left]
  apply sumOver_congr _ hn
  intro τ h1 _
  rw [mul_comm]
  congr 1
  apply hG
  intro v hv hk
  exact h1 _ (fun hm => hu v hv hm hk)

theorem live_perm {R hr : List Var} (st st' : VE α) (hn : R.Nodup)
    (hsub : ∀ v ∈ hr, v ∈ live R st) (hhr : hr.Nodup)
    (hel : ∀ v ∈ R, st'.eliminated[v.index]? = some false ↔ st.eliminated[v.index]? = some false ∧ v ∉ hr) :
    (live R st).Perm (live R st' ++ hr) := by
  have hd : (live R st' ++ hr).Nodup := by
    rw [List.nodup_append]
    refine ⟨hn.filter _, hhr, ?_⟩
    rintro v hv _ hv2 rfl
    simp only [live, List.mem_filter, decide_eq_true_eq] at hv
    exact ((hel v hv.1).1 hv.2.2).2 hv2
  apply (List.perm_ext_iff_of_nodup (hn.filter _) hd).2
  intro v
  constructor
  · intro hv
    by_cases h : v ∈ hr
    · simp [h]
    · refine List.mem_append_left _ ?_
      simp only [live, List.mem_filter, decide_eq_true_eq] at hv ⊢
      exact ⟨hv.1, hv.2.1, (hel v hv.1).2 ⟨hv.2.2, h⟩⟩
  · intro hv
    rcases List.mem_append.1 hv with hv | hv
    · simp only [live, List.mem_filter, decide_eq_true_eq] at hv ⊢
      exact ⟨hv.1, hv.2.1, ((hel v hv.1).1 hv.2.2).1⟩
    · exact hsub v hv

theorem policyVal_upd [Field α] [LinearOrder α] (fac : Factor α) (d : Var) (σ : Assignment) (k : Nat) :
    policyVal fac d (σ.upd d.id k) =
      if k ∈ bestOutcomes d.outcomes (fun c => fac.val (σ.upd d.id c)) then
        1 / ((bestOutcomes d.outcomes (fun c => fac.val (σ.upd d.id c))).length : α) else 0 := by
  unfold policyVal
  simp only [upd_upd_same]
  simp only [Assignment.upd, if_true]

theorem fits_upd_mem {R : List Var} (hR : (R.map Var.id).Nodup) {σ : Assignment} (hσ : Fits σ R) {d : Var} (hd : d ∈ R)
    {k : Nat} (hk : k < d.outcomes) : Fits (σ.upd d.id k) R := by
  apply fits_upd (hσ.mono (fun v hv => (mem_otherVars.1 hv).1))
  intro v hv e
  rw [coherent_of_nodup hR v hv d hd e]; exact hk

/-- A solved policy is a policy. -/
theorem policyFor_solved [Field α] [LinearOrder α] [IsStrictOrderedRing α] {R : List Var} {deps : List (Var × List Var)}
    (hR : (R.map Var.id).Nodup) {d : Var} (hpos : 0 < d.outcomes) {ds : List Var} {fac pol : Factor α}
    (hfR : ∀ v ∈ fac.vars, v ∈ R) (hd : d ∈ fac.vars)
    (hpv : ∀ σ, Fits σ fac.vars → pol.val σ = policyVal fac d σ)
    (hk : ∀ v ∈ pol.vars, v ∈ R ∧ Known deps (ds ++ [d]) v) : PolicyFor R deps ds d pol.val where
  nonneg σ hσ := by
    rw [hpv σ (hσ.mono hfR), policyVal]
    split
    · positivity
    · exact le_rfl
  one σ hσ := by
    rw [← sum_best d.outcomes hpos (fun c => fac.val (σ.upd d.id c))]
    apply Finset.sum_congr rfl
    intro k hk
    rw [hpv _ ((fits_upd_mem hR hσ (hfR d hd) (by simpa using hk)).mono hfR), policyVal_upd]
  known σ τ h := pol.val_congr (fun v hv => h v (hk v hv).1 (hk v hv).2)

/-- Replacing the distribution of one decision by the solved policy does not lower the sum. -/
theorem best_sum [Field α] [LinearOrder α] [IsStrictOrderedRing α] {R : List Var} {deps : List (Var × List Var)}
    (hF : Fixed R deps) {st : VE α} {d : Var} {L : List Var} (h : PState R deps st (d :: L)) (hpos : 0 < d.outcomes)
    {fac pol : Factor α} (hfs : ∀ v ∈ fac.vars, ∃ f ∈ st.factors, v ∈ f.vars)
    (hjoint : ∀ σ, FitsFs σ st.factors →
      joint st.factors σ = fac.val σ * joint (st.factors.filter (fun f => d.id ∉ scope f)) σ)
    (hpv : ∀ σ, Fits σ fac.vars → pol.val σ = policyVal fac d σ) {U : Finset Nat} (hS : Signed st.factors U)
    (hdU : d.id ∈ U) {q G : Assignment → α} (hq0 : ∀ σ, Fits σ R → 0 ≤ q σ)
    (hq1 : ∀ σ, Fits σ R → ∑ k ∈ range d.outcomes, q (σ.upd d.id k) = 1)
    (hG : ∀ σ k, G (σ.upd d.id k) = G σ) (hG0 : ∀ σ, Fits σ R → 0 ≤ G σ) {σ : Assignment} (hσ : Fits σ R) :
    sumOver (live R st) (fun τ => joint st.factors τ * (q τ * G τ)) σ ≤
      sumOver (live R st) (fun τ => joint st.factors τ * (pol.val τ * G τ)) σ := by
  obtain ⟨hdR, hdt, hde⟩ := h.openD d (by simp)
  have hdl : d ∈ live R st := by
    simp only [live, List.mem_filter, decide_eq_true_eq]
    exact ⟨hdR, by rw [hdt]; decide, hde⟩
  have hln : ((live R st).map Var.id).Nodup := (List.filter_sublist.map _).nodup hF.vars.ids
  have hperm : (live R st).Perm ((live R st).erase d ++ [d]) :=
    (List.perm_cons_erase hdl).trans (List.perm_append_comm (l₁ := [d]))
  rw [sumOver_perm hperm hln, sumOver_perm hperm hln, sumOver_append, sumOver_append]
  have hen : (((live R st).erase d).map Var.id).Nodup := (List.erase_sublist.map _).nodup hln
  apply sumOver_le hen
  intro τ h1 h2
  have hτ : Fits τ R := fits_of_agree hF.vars.ids
    (fun v hv => (List.mem_filter.1 (List.erase_subset hv)).1) hσ h1 h2
  have hfit : ∀ k < d.outcomes, Fits (τ.upd d.id k) R := fun k hk => fits_upd_mem hF.vars.ids hτ hdR hk
  have hfR : ∀ v ∈ fac.vars, v ∈ R := by
    intro v hv
    obtain ⟨f, hf, hvf⟩ := hfs v hv
    exact h.good.sub f hf v hvf
  -- the factors without the decision
  have hrest : ∀ k, joint (st.factors.filter (fun f => d.id ∉ scope f)) (τ.upd d.id k) =
      joint (st.factors.filter (fun f => d.id ∉ scope f)) τ := by
    intro k
    apply joint_congr
    intro f hf v hv
    have : v.id ≠ d.id := by
      intro e
      have hh := (List.mem_filter.1 hf).2
      simp only [decide_eq_true_eq] at hh
      exact hh (mem_scope.2 ⟨v, hv, e⟩)
    simp [Assignment.upd, this]
  set hrv := joint (st.factors.filter (fun f => d.id ∉ scope f)) τ with hhrv
  have hnn : 0 ≤ hrv := by
    obtain ⟨u, rest, hp, hu, hn⟩ := hS
    apply joint_nonneg
    · intro f hf
      exact hτ.mono (h.good.sub f (List.mem_filter.1 hf).1)
    · intro f hf
      obtain ⟨hf1, hf2⟩ := List.mem_filter.1 hf
      simp only [decide_eq_true_eq] at hf2
      rcases List.mem_cons.1 (hp.subset hf1) with rfl | hf3
      · rw [hu] at hf2; exact absurd hdU hf2
      · exact hn f hf3
  have hj : ∀ k < d.outcomes, joint st.factors (τ.upd d.id k) = fac.val (τ.upd d.id k) * hrv := by
    intro k hk
    rw [hjoint _ (fun f hf => (hfit k hk).mono (h.good.sub f hf)), hrest k]
  have hl : sumOver [d] (fun τ => joint st.factors τ * (q τ * G τ)) τ =
      (∑ k ∈ range d.outcomes, fac.val (τ.upd d.id k) * hrv * q (τ.upd d.id k)) * G τ := by
    simp only [sumOver]
    rw [Finset.sum_mul]
    apply Finset.sum_congr rfl
    intro k hk
    rw [hj k (by simpa using hk), hG, mul_assoc _ (q _)]
  have hr : sumOver [d] (fun τ => joint st.factors τ * (pol.val τ * G τ)) τ =
      (∑ k ∈ range d.outcomes, fac.val (τ.upd d.id k) * hrv *
        (if k ∈ bestOutcomes d.outcomes (fun c => fac.val (τ.upd d.id c)) then
          1 / ((bestOutcomes d.outcomes (fun c => fac.val (τ.upd d.id c))).length : α) else 0)) * G τ := by
    simp only [sumOver]
    rw [Finset.sum_mul]
    apply Finset.sum_congr rfl
    intro k hk
    have hk' : k < d.outcomes := by simpa using hk
    rw [hj k hk', hG, hpv _ ((hfit k hk').mono hfR), policyVal_upd, mul_assoc _ (ite _ _ _)]
  rw [hl, hr]
  apply mul_le_mul_of_nonneg_right _ (hG0 τ hτ)
  exact policy_best hpos (fun k => fac.val (τ.upd d.id k)) (fun k => q (τ.upd d.id k))
    (fun k hk => hq0 _ (hfit k hk)) (hq1 τ hτ) hnn

/-- `L` lists decisions last first: none depends on one listed before it. -/
def LastFirst (deps : List (Var × List Var)) (L : List Var) : Prop :=
  ∀ A d B, L = A ++ d :: B → ∀ e ∈ B, ¬ DecEdge deps d e

theorem LastFirst.tail {deps : List (Var × List Var)} {d : Var} {L : List Var} (h : LastFirst deps (d :: L)) :
    LastFirst deps L := fun A e B hl => h (d :: A) e B (by rw [hl]; rfl)

theorem LastFirst.unknown {deps : List (Var × List Var)} {d : Var} {L : List Var}
    (h : LastFirst deps (d :: L)) (hdt : d.nodeType = .decision) (hn : d ∉ L) : ¬ Known deps L d := by
  rintro (hk | ⟨e, he, h1, h2⟩)
  · exact hn hk
  · exact h [] d L rfl e.1 h1 ⟨e, he, rfl, h2, hdt⟩

/-- One elimination of hidden variables while the decisions `L` are open. -/
theorem elim_full [CommSemiring α] {R : List Var} {deps : List (Var × List Var)}
    (hF : Fixed R deps) (sch : Sched α) {st : VE α} {L : List Var} (h : PState R deps st L) (single : Bool)
    {decs : List Var} {t : Nat} (hdec : st.getDecisions sch = .ok (decs, t)) {hr : List Var}
    (hhr : hr = hiddenR R L st ((considered single decs).flatMap (depsOf deps))) :
    ∃ st' : VE α, st.eliminateHidden sch [] [] single = .ok st' ∧ PState R deps st' L ∧
      hr.Nodup ∧ (∀ v ∈ hr, v ∈ live R st ∧ v ∉ L) ∧ (live R st).Perm (live R st' ++ hr) ∧
      (∀ σ, Fits σ R → joint st'.factors σ = sumOver hr (joint st.factors) σ) ∧
      (∃ hs : List Var, Elims hs st.factors st'.factors ∧ hs.map Var.id ⊆ hr.map Var.id) ∧
      (single = false → (∀ v ∈ live R st', Known deps L v) ∧ ∀ v ∈ hr, ¬ Known deps L v) := by
  obtain ⟨n', fs', el, t', lg, b1, b2, b3, b4, b5⟩ := elim_step hF sch h single hdec hhr
  set kept := (considered single decs).flatMap (depsOf deps) with hkept
  set st2 : VE α := { st with vs := { st.vs with factorCounter := n' }, factors := fs', tick := t', eliminated := el,
                              log := lg } with hst2
  have hRn : R.Nodup := List.Nodup.of_map _ hF.vars.ids
  have hmem : ∀ v, v ∈ hr ↔ v ∈ R ∧ (openVar L v).nodeType = .chance ∧ st.eliminated[v.index]? = some false ∧
      ∀ p ∈ kept, p.index ≠ v.index := by
    intro v
    simp only [hhr, hiddenR, List.mem_filter, decide_eq_true_eq]
  have hrl : ∀ v ∈ hr, v ∈ live R st ∧ v ∉ L := by
    intro v hv
    obtain ⟨h1, h2, h3, _⟩ := (hmem v).1 hv
    refine ⟨?_, ?_⟩
    · simp only [live, List.mem_filter, decide_eq_true_eq]
      refine ⟨h1, ?_, h3⟩
      rcases openVar_chance.1 h2 with h | h
      · rw [h]; decide
      · rw [h.1]; decide
    · intro hL
      rw [openVar_self hL, (h.openD v hL).2.1] at h2
      cases h2
  have hfitR : ∀ σ, Fits σ R → FitsFs σ fs' := fun σ hσ f hf => hσ.mono (b2.good.sub f hf)
  have hrn : hr.Nodup := by rw [hhr]; exact hRn.filter _
  refine ⟨st2, b1, b2, hrn, hrl, ?_, fun σ hσ => b4 σ (hfitR σ hσ), b5, ?_⟩
  · exact live_perm st st2 hRn (fun v hv => (hrl v hv).1) hrn b3
  · rintro rfl
    obtain ⟨decs', t2, d1, d2, _⟩ := getDecisions_spec sch st (hF.vars.of_core h.core) (h.depsOK hF)
    rw [hdec] at d1
    simp only [Except.ok.injEq, Prod.mk.injEq] at d1
    obtain ⟨rfl, rfl⟩ := d1
    have hdm : ∀ v, v ∈ decs ↔ v ∈ L := fun v => d2.mem_iff.trans h.decisions
    have hkm : ∀ v ∈ R, (∃ p ∈ kept, p.index = v.index) ↔ ∃ e ∈ deps, e.1 ∈ L ∧ v ∈ e.2 := by
      intro v hv
      constructor
      · rintro ⟨p, hp, e⟩
        obtain ⟨x, hx, hpx⟩ := List.mem_flatMap.1 hp
        obtain ⟨y, hy, rfl, hpy⟩ := depsOf_mem hpx
        have := hF.vars.ext_index ((hF.dvars y hy).2 p hpy) hv e
        exact ⟨y, hy, (hdm _).1 (mem_considered hx), this ▸ hpy⟩
      · rintro ⟨e, he, h1, h2⟩
        refine ⟨v, List.mem_flatMap.2 ⟨e.1, ?_, ?_⟩, rfl⟩
        · simp only [considered, Bool.false_eq_true, if_false, List.mem_reverse]
          exact (hdm _).2 h1
        · rw [depsOf_eq hF.keys he]; exact h2
    constructor
    · intro v hv
      simp only [live, List.mem_filter, decide_eq_true_eq] at hv
      obtain ⟨hvR, hvu, hve⟩ := hv
      obtain ⟨h1, h2⟩ := (b3 v hvR).1 hve
      by_cases hL : v ∈ L
      · exact .inl hL
      · right
        rw [← hkm v hvR]
        by_contra hno
        apply h2
        rw [hmem v]
        refine ⟨hvR, openVar_chance.2 ?_, h1, fun p hp e => hno ⟨p, hp, e⟩⟩
        cases hvt : v.nodeType with
        | chance => exact .inl rfl
        | decision => exact .inr ⟨rfl, hL⟩
        | utility => exact absurd hvt hvu
    · intro v hv hk
      obtain ⟨h1, h2, h3, h4⟩ := (hmem v).1 hv
      rcases hk with hk | hk
      · exact (hrl v hv).2 hk
      · obtain ⟨p, hp, e⟩ := (hkm v h1).2 hk
        exact h4 p hp e

/-- The state after one decision. -/
theorem policy_elim [Field α] [LinearOrder α] [IsStrictOrderedRing α] {R : List Var} {deps : List (Var × List Var)}
    (hF : Fixed R deps) (sch : Sched α) {st : VE α} {d : Var} {L : List Var} (h : PState R deps st (d :: L))
    (hpos : 0 < d.outcomes) (hord : LastFirst deps (d :: L)) (single : Bool) :
    ∃ (fac pol : Factor α) (st' : VE α) (hr : List Var),
      st.solvePolicy sch single d = .ok ((d, fac, pol), st') ∧
      PState R deps st' L ∧
      fac.WF ∧ (∀ v ∈ fac.vars, ∃ f ∈ st.factors, v ∈ f.vars) ∧ d ∈ fac.vars ∧
      (∀ σ, FitsFs σ st.factors →
        joint st.factors σ = fac.val σ * joint (st.factors.filter (fun f => d.id ∉ scope f)) σ) ∧
      pol.WF ∧ pol.vars = otherVars d.id fac.vars ++ [d] ∧ (∀ σ, Fits σ fac.vars → pol.val σ = policyVal fac d σ) ∧
      hr.Nodup ∧ (∀ v ∈ hr, v ∈ live R st ∧ v ∉ L) ∧ (live R st).Perm (live R st' ++ hr) ∧
      (∀ σ, Fits σ R → joint st'.factors σ = sumOver hr (fun τ => joint st.factors τ * pol.val τ) σ) ∧
      (∃ hs : List Var, Elims hs (st.factors ++ [pol]) st'.factors ∧ hs.map Var.id ⊆ hr.map Var.id) ∧
      (single = false → (∀ v ∈ live R st', Known deps L v) ∧ ∀ v ∈ hr, ¬ Known deps L v) := by
  obtain ⟨fac, pol, n, a1, a2, a3, a4, a5, a6, a7, a8, a9⟩ := policy_step hF sch h hpos
    (hord [] d L rfl)
  set st1 : VE α := { st with vs := { st.vs with «variables» := R.map (openVar L), factorCounter := n },
                              tick := st.tick + 2, factors := st.factors ++ [pol] } with hst1
  obtain ⟨decs, t, d1, d2, _⟩ := getDecisions_spec sch st1 (hF.vars.of_core a2.core) (a2.depsOK hF)
  obtain ⟨st2, b1, b2, b3, b4, b5, b6, b7, b8⟩ := elim_full hF sch a2 single d1 rfl
  refine ⟨fac, pol, st2, _, ?_, b2, a3, a4, a5, a6, a7, a8, a9, b3, b4, b5, ?_, b7, b8⟩
  · rw [a1 single, b1, ok_bind]
  · intro σ hσ
    rw [b6 σ hσ]
    congr 1
    funext τ
    simp [hst1, joint]

/-- Solving all decisions: the solved policies together are at least as good as any other policies. -/
theorem solve_list [Field α] [LinearOrder α] [IsStrictOrderedRing α] {R : List Var} {deps : List (Var × List Var)}
    (hF : Fixed R deps) (sch : Sched α) (L : List Var) : ∀ (st : VE α), PState R deps st L →
      (∀ d ∈ L, 0 < d.outcomes) → LastFirst deps L → (∀ v ∈ live R st, Known deps L v) →
      (∃ U, Signed st.factors U ∧ ∀ A d B, L = A ++ d :: B →
        LinkedS (scopes st.factors) U (Unknown R deps (d :: B)) d.id) →
      ∃ ps st', VE.solvePolicyList sch false L st = .ok (ps, st') ∧ ps.map (fun p => p.1) = L ∧
        (∀ A p B, ps = A ++ p :: B → p.2.2.WF ∧
          (∃ others, p.2.2.vars = others ++ [p.1] ∧ p.1 ∉ others) ∧
          (∀ v ∈ p.2.2.vars, v ∈ R ∧ Known deps (p.1 :: B.map (fun p => p.1)) v) ∧
          PolicyFor R deps (B.map (fun p => p.1)).reverse p.1 p.2.2.val) ∧
        ∀ (δ : Var → Assignment → α), (∀ A d B, L = A ++ d :: B → PolicyFor R deps B.reverse d (δ d)) →
          ∀ σ, Fits σ R →
            sumOver (live R st) (fun τ => joint st.factors τ * (L.map (fun d => δ d τ)).prod) σ ≤
              sumOver (live R st) (fun τ => joint st.factors τ * (ps.map (fun p => p.2.2.val τ)).prod) σ := by
  induction L with
  | nil =>
    intro st _ _ _ _ _
    exact ⟨[], st, rfl, rfl, by simp, fun δ _ σ _ => le_rfl⟩
  | cons d L ih =>
    intro st h hpos hord hkn hsig
    obtain ⟨U, hS, hlink⟩ := hsig
    obtain ⟨hdR, hdt, hde⟩ := h.openD d (by simp)
    have hdn : d ∉ L := (List.nodup_cons.1 h.nodup).1
    have hdun : ¬ Known deps L d := hord.unknown hdt hdn
    obtain ⟨fac, pol, st', hr, a1, a2, a3, a4, a5, a6, a7, a8, a9, a10, a11, a12, a13, ⟨hs, a14, a15⟩, a16⟩ :=
      policy_elim hF sch h (hpos d (by simp)) hord false
    obtain ⟨a16, a17⟩ := a16 rfl
    have hfR : ∀ v ∈ fac.vars, v ∈ R := by
      intro v hv
      obtain ⟨f, hf, hvf⟩ := a4 v hv
      exact h.good.sub f hf v hvf
    have hflive : ∀ v ∈ fac.vars, v ∈ live R st := by
      intro v hv
      obtain ⟨f, hf, hvf⟩ := a4 v hv
      have := h.gone v (hfR v hv) (mem_scopes_sup.2 ⟨f, hf, mem_scope.2 ⟨v, hvf, rfl⟩⟩)
      simp only [live, List.mem_filter, decide_eq_true_eq]
      exact ⟨hfR v hv, this⟩
    have hpvars : ∀ v ∈ pol.vars, v ∈ fac.vars := by
      intro v hv
      rw [a8] at hv
      rcases List.mem_append.1 hv with hv | hv
      · exact (mem_otherVars.1 hv).1
      · simp only [List.mem_singleton] at hv
        rw [hv]; exact a5
    have hpknown : ∀ v ∈ pol.vars, v ∈ R ∧ Known deps (d :: L) v := fun v hv =>
      ⟨hfR v (hpvars v hv), hkn v (hflive v (hpvars v hv))⟩
    have hpf : PolicyFor R deps L.reverse d pol.val :=
      policyFor_solved hF.vars.ids (hpos d (by simp)) hfR a5 a9 (fun v hv =>
        ⟨(hpknown v hv).1, (hpknown v hv).2.mono (by intro x hx; simp at hx ⊢; tauto)⟩)
    -- the utility stays where it has to be
    have hsig' : ∃ U, Signed st'.factors U ∧ ∀ A e B, L = A ++ e :: B →
        LinkedS (scopes st'.factors) U (Unknown R deps (e :: B)) e.id := by
      have hS1 : Signed (st.factors ++ [pol]) U := by
        obtain ⟨u, rest, hp, hu, hn⟩ := hS
        refine ⟨u, rest ++ [pol], hp.append_right [pol], hu, ?_⟩
        intro f hf
        rcases List.mem_append.1 hf with hf | hf
        · exact hn f hf
        · simp only [List.mem_singleton] at hf
          subst hf
          intro σ hσ
          have hσ' : Fits σ fac.vars := by
            intro v hv
            apply hσ
            rw [a8]
            by_cases e : v.id = d.id
            · rw [coherent_of_nodup a3.nodup v hv d a5 e]; simp
            · exact List.mem_append_left _ (mem_otherVars.2 ⟨hv, e⟩)
          rw [a9 σ hσ', policyVal]
          split
          · positivity
          · exact le_rfl
      obtain ⟨U', s1, s2⟩ := hS1.elims a14
      refine ⟨U', s1, ?_⟩
      intro A e B hl
      apply s2
      · intro hm
        obtain ⟨w, hw, e2⟩ := List.mem_map.1 (a15 hm)
        have heL : e ∈ L := by rw [hl]; simp
        have heR := (a2.openD e heL).1
        have hwR : w ∈ R := (List.mem_filter.1 (a11 w hw).1).1
        have : w = e := coherent_of_nodup hF.vars.ids w hwR e heR e2
        exact (a11 w hw).2 (this ▸ heL)
      · refine (hlink (d :: A) e B (by rw [hl]; rfl)).mono ?_
        unfold scopes
        rw [List.map_append]
        exact Multiset.coe_le.2 (List.sublist_append_left _ _).subperm
    obtain ⟨ps, st'', b1, b2, b3, b4⟩ := ih st' a2 (fun e he => hpos e (by simp [he])) hord.tail a16 hsig'
    refine ⟨(d, fac, pol) :: ps, st'', ?_, by simp [b2], ?_, ?_⟩
    · unfold VE.solvePolicyList
      rw [a1, ok_bind]
      dsimp only
      rw [if_neg (by simp), b1, ok_bind]
      rfl
    · intro A p B hl
      cases A with
      | nil =>
        simp only [List.nil_append, List.cons.injEq] at hl
        obtain ⟨rfl, rfl⟩ := hl
        rw [b2]
        exact ⟨a7, ⟨_, a8, by simp [mem_otherVars]⟩, hpknown, hpf⟩
      | cons x A =>
        simp only [List.cons_append, List.cons.injEq] at hl
        exact b3 A p B hl.2
    · intro δ hδ σ hσ
      -- the policies for the other decisions depend only on what these know
      have hG1 : OnlyKnown R deps L (fun τ => (L.map (fun d => δ d τ)).prod) := by
        apply OnlyKnown.prod
        intro e he
        obtain ⟨A, B, hl⟩ := List.append_of_mem he
        have := (hδ (d :: A) e B (by rw [hl]; rfl)).known
        intro σ τ hστ
        exact this σ τ (fun v hv hk => hστ v hv (hk.mono (by
          intro x hx; rw [hl]; simp at hx ⊢; tauto)))
      have hG2 : OnlyKnown R deps L (fun τ => (ps.map (fun p => p.2.2.val τ)).prod) := by
        apply OnlyKnown.prod
        intro p hp
        obtain ⟨A, B, hl⟩ := List.append_of_mem hp
        have := (b3 A p B hl).2.2.2.known
        intro σ τ hστ
        exact this σ τ (fun v hv hk => hστ v hv (hk.mono (by
          intro x hx
          rw [← b2, hl]
          simp at hx ⊢; tauto)))
      have hmove : ∀ (G : Assignment → α), OnlyKnown R deps L G →
          sumOver (live R st) (fun τ => joint st.factors τ * (pol.val τ * G τ)) σ =
            sumOver (live R st') (fun τ => joint st'.factors τ * G τ) σ := by
        intro G hG
        have hln : ((live R st).map Var.id).Nodup := (List.filter_sublist.map _).nodup hF.vars.ids
        have hln' : ((live R st').map Var.id).Nodup := (List.filter_sublist.map _).nodup hF.vars.ids
        rw [sumOver_perm a12 hln, sumOver_append]
        apply sumOver_congr _ hln'
        intro τ h1 h2
        have hτ : Fits τ R := fits_of_agree hF.vars.ids (fun v hv => (List.mem_filter.1 hv).1) hσ h1 h2
        have hrn : (hr.map Var.id).Nodup := by
          have := (a12.map Var.id).nodup_iff.1 hln
          rw [List.map_append, List.nodup_append] at this
          exact this.2.1
        rw [a13 τ hτ, ← sumOver_onlyKnown hG ?_ _ hrn]
        · congr 1
          funext x
          rw [mul_assoc]
        · intro v hv hm
          obtain ⟨w, hw, e⟩ := List.mem_map.1 hm
          have hwR : w ∈ R := (List.mem_filter.1 (a11 w hw).1).1
          have : w = v := coherent_of_nodup hF.vars.ids w hwR v hv e
          exact this ▸ a17 w hw
      have hdU : d.id ∈ U := by
        refine (hlink [] d L rfl).mem ?_
        intro j hj hun
        obtain ⟨f, hf, hj2⟩ := mem_scopes_sup.1 hj
        obtain ⟨v, hv, e⟩ := mem_scope.1 hj2
        have hvR := h.good.sub f hf v hv
        have := h.gone v hvR (e ▸ hj)
        exact hun v hvR e (hkn v (by
          simp only [live, List.mem_filter, decide_eq_true_eq]
          exact ⟨hvR, this⟩))
      have hGd : ∀ (G : Assignment → α), OnlyKnown R deps L G → ∀ σ k, G (σ.upd d.id k) = G σ := by
        intro G hG σ k
        apply hG
        intro v hv hk
        have : v.id ≠ d.id := by
          intro e
          rw [coherent_of_nodup hF.vars.ids v hv d hdR e] at hk
          exact hdun hk
        simp [Assignment.upd, this]
      have hpd := hδ [] d L rfl
      have e1 : (fun τ => joint st.factors τ * ((d :: L).map (fun d => δ d τ)).prod) =
          fun τ => joint st.factors τ * (δ d τ * (L.map (fun d => δ d τ)).prod) := by
        funext τ; rw [List.map_cons, List.prod_cons]
      have e2 : (fun τ => joint st.factors τ * (((d, fac, pol) :: ps).map (fun p => p.2.2.val τ)).prod) =
          fun τ => joint st.factors τ * (pol.val τ * (ps.map (fun p => p.2.2.val τ)).prod) := by
        funext τ; rw [List.map_cons, List.prod_cons]
      rw [e1, e2]
      calc _ ≤ sumOver (live R st) (fun τ => joint st.factors τ * (pol.val τ * (L.map (fun d => δ d τ)).prod)) σ := by
            refine best_sum hF h (hpos d (by simp)) a4 a6 a9 hS hdU hpd.nonneg hpd.one (hGd _ hG1) ?_ hσ
            intro τ hτ
            have hall : ∀ x ∈ L.map (fun d => δ d τ), 0 ≤ x := by
              intro x hx
              obtain ⟨e, he, rfl⟩ := List.mem_map.1 hx
              obtain ⟨A, B, hl⟩ := List.append_of_mem he
              exact (hδ (d :: A) e B (by rw [hl]; rfl)).nonneg τ hτ
            clear * - hall
            generalize L.map (fun d => δ d τ) = l at hall
            induction l with
            | nil => simp
            | cons a l ih =>
              rw [List.prod_cons]
              exact mul_nonneg (hall a (by simp)) (ih (fun x hx => hall x (by simp [hx])))
        _ = sumOver (live R st') (fun τ => joint st'.factors τ * (L.map (fun d => δ d τ)).prod) σ := hmove _ hG1
        _ ≤ sumOver (live R st') (fun τ => joint st'.factors τ * (ps.map (fun p => p.2.2.val τ)).prod) σ :=
            b4 δ (fun A e B hl => hδ (d :: A) e B (by rw [hl]; rfl)) σ hσ
        _ = _ := (hmove _ hG2).symm

end Bbn
