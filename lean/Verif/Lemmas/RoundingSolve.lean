import Verif.Lemmas.Rounding
import Mathlib.Order.Lattice.Nat

/-!
# Rounding errors of the solver

Every factor is given the least number of roundings that explains its entries; the sum of these numbers (plus one for each
factor) grows with every eliminated variable only by the number of its outcomes plus one.
-/

set_option autoImplicit false
set_option linter.unusedSectionVars false

namespace Bbn

open Finset

variable {β K : Type} [Zero β] [One β] [Add β] [Mul β] [Div β] [Field K] [LinearOrder K] [IsStrictOrderedRing K]
  {h : Grading β K}

/-- The least number of roundings that explains the entries. -/
noncomputable def grade (h : Grading β K) (f : Factor (β × K)) : Nat := sInf {k | f.Near h k}

theorem grade_near {f : Factor (β × K)} (hf : ∃ k, f.Near h k) : f.Near h (grade h f) :=
  Nat.sInf_mem (s := {k | f.Near h k}) hf

theorem grade_le {f : Factor (β × K)} {k : Nat} (hf : f.Near h k) : grade h f ≤ k := Nat.sInf_le hf

/-- The sum of the grades, plus one for each factor. -/
noncomputable def budget (h : Grading β K) (fs : List (Factor (β × K))) : Nat :=
  (fs.map (fun f => grade h f + 1)).sum

theorem budget_perm {fs gs : List (Factor (β × K))} (hp : fs.Perm gs) : budget h fs = budget h gs :=
  (hp.map _).sum_eq

theorem budget_append (fs gs : List (Factor (β × K))) : budget h (fs ++ gs) = budget h fs + budget h gs := by
  simp [budget]

theorem budget_single (f : Factor (β × K)) : budget h [f] = grade h f + 1 := by simp [budget]

theorem budget_sublist {fs gs : List (Factor (β × K))} (hs : fs.Sublist gs) : budget h fs ≤ budget h gs :=
  (hs.map _).sum_le_sum (fun _ _ => Nat.zero_le _)

theorem budget_split (fs : List (Factor (β × K))) (p : Factor (β × K) → Bool) :
    budget h fs = budget h (fs.filter p) + budget h (fs.filter (fun f => !p f)) := by
  rw [budget_perm (filter_perm_split p), budget_append]

theorem budget_insert (fs : List (Factor (β × K))) (f : Factor (β × K)) :
    budget h (insertFactor fs f) ≤ budget h fs + (grade h f + 1) := by
  unfold insertFactor
  rw [budget_append, budget_single]
  have := budget_sublist (h := h) (List.filter_sublist (p := fun g => decide (g.id ≠ f.id)) (l := fs))
  omega

theorem mem_insertFactor {α : Type} {fs : List (Factor α)} {f g : Factor α} (h : g ∈ insertFactor fs f) :
    g ∈ fs ∨ g = f := by
  unfold insertFactor at h
  rcases List.mem_append.1 h with h | h
  · exact .inl (List.mem_filter.1 h).1
  · exact .inr (List.mem_singleton.1 h)

/-- What holds for the factors throughout: well-formed, over the variables `R`, and explained by roundings. -/
structure Explained (h : Grading β K) (R : List Var) (fs : List (Factor (β × K))) : Prop where
  wf : ∀ f ∈ fs, f.WF
  sub : ∀ f ∈ fs, ∀ v ∈ f.vars, v ∈ R
  near : ∀ f ∈ fs, ∃ k, f.Near h k

theorem Explained.sublist {R : List Var} {fs gs : List (Factor (β × K))} (he : Explained h R fs)
    (hs : ∀ f ∈ gs, f ∈ fs) : Explained h R gs :=
  ⟨fun f hf => he.wf f (hs f hf), fun f hf => he.sub f (hs f hf), fun f hf => he.near f (hs f hf)⟩

/-- A factor that may have negative entries is a utility. -/
def PosOrUtility (f : Factor (β × K)) : Prop := f.Pos ∨ ∃ w ∈ f.vars, w.nodeType = .utility

theorem wf_of_map {f : Factor (β × K)} {g : Factor K} (h : g = f.mapNum Prod.snd) (hg : g.WF) : f.WF := by
  subst h
  exact ⟨by have := hg.len; simpa [Factor.mapNum] using this, hg.nodup⟩

theorem wf_map {f : Factor (β × K)} (hf : f.WF) : (f.mapNum Prod.snd).WF :=
  ⟨by have := hf.len; simpa [Factor.mapNum] using this, hf.nodup⟩

theorem ERel.inv {A B : Type} {R : A → B → Prop} {x : Except Fault A} {y : Except Fault B} (h : ERel R x y) {a : A}
    (ha : x = .ok a) : ∃ b, y = .ok b ∧ R a b := by
  subst ha
  cases y with
  | error e => exact h.elim
  | ok b => exact ⟨b, rfl, h⟩

theorem ERel.inv' {A B : Type} {R : A → B → Prop} {x : Except Fault A} {y : Except Fault B} (h : ERel R x y) {b : B}
    (hb : y = .ok b) : ∃ a, x = .ok a ∧ R a b := by
  subst hb
  cases x with
  | error e => exact h.elim
  | ok a => exact ⟨a, rfl, h⟩

theorem restrict_pair {s : Vs} {f : Factor (β × K)} {v : Var} {obs : Int}
    {a : Factor (β × K) × Vs} (ha : s.restrict f v obs = .ok a) :
    a.1.vars = otherVars v.id f.vars ∧ a.2.variables = s.variables ∧ a.1.data.length = size a.1.vars := by
  unfold Vs.restrict at ha
  split_ifs at ha
  cases hl : lastIdx v.id f.vars with
  | none => rw [hl] at ha; cases ha
  | some idx =>
    rw [hl] at ha
    dsimp only at ha
    obtain ⟨b, hb, ha⟩ := ok_inv ha
    obtain ⟨d, hd, ha⟩ := ok_inv ha
    cases hb
    cases ha
    refine ⟨rfl, rfl, ?_⟩
    have : ∀ (xs : List (β × K)) (old : List Nat) (new new' : List (β × K)),
        restrictLoop f.vars (otherVars v.id f.vars) idx obs.toNat xs old new = .ok new' → new'.length = new.length := by
      intro xs
      induction xs with
      | nil => intro old new new' hc; cases hc; rfl
      | cons x xs ih =>
        intro old new new' hc
        rw [restrictLoop] at hc
        obtain ⟨o, _, hc⟩ := ok_inv hc
        dsimp only at hc
        split_ifs at hc
        · obtain ⟨j, _, hc⟩ := ok_inv hc
          obtain ⟨n1, h1, hc⟩ := ok_inv hc
          rw [ih _ _ _ hc]
          unfold goSet at h1
          split_ifs at h1
          cases h1
          simp
        · exact ih _ _ _ hc
    rw [this _ _ _ _ hd]
    simp

/-- One restricted factor. -/
theorem restrictIds_near (h : Grading β K) {R : List Var} (e : Evid)
    (he : ∀ w ∈ R, w.nodeType = .utility → w.id ≠ e.var.id) : ∀ (is : List Nat) (st st' : VE (β × K)),
    Explained h R st.factors → (∀ f ∈ st.factors, PosOrUtility f) → restrictIds e is st = .ok st' →
    Explained h R st'.factors ∧ (∀ f ∈ st'.factors, PosOrUtility f) ∧
      budget h st'.factors ≤ budget h st.factors ∧ st'.vs.variables = st.vs.variables ∧ st'.log = st.log := by
  intro is
  induction is with
  | nil => intro st st' h1 h2 hr; cases hr; exact ⟨h1, h2, le_rfl, rfl, rfl⟩
  | cons i is ih =>
    intro st st' h1 h2 hr
    rw [restrictIds] at hr
    obtain ⟨f, hf, hr⟩ := ok_inv hr
    obtain ⟨a, ha, hr⟩ := ok_inv hr
    have hfi : f ∈ st.factors ∧ f.id = i := by
      unfold lookupFactor at hf
      cases hl : st.factors.find? (fun g => g.id = i) with
      | none => rw [hl] at hf; cases hf
      | some g =>
        rw [hl] at hf
        cases hf
        exact ⟨List.mem_of_find?_eq_some hl, by simpa using List.find?_some hl⟩
    obtain ⟨r1, r2, r3⟩ := restrict_pair ha
    have hnear : a.1.Near h (grade h f) := by
      intro x hx
      rcases restrict_mem ha x hx with rfl | hx
      · exact h.zero _
      · exact grade_near (h1.near f hfi.1) x hx
    have hpos : PosOrUtility a.1 := by
      rcases h2 f hfi.1 with hp | ⟨w, hw, hwu⟩
      · left
        intro x hx
        rcases restrict_mem ha x hx with rfl | hx
        · exact le_rfl
        · exact hp x hx
      · right
        refine ⟨w, ?_, hwu⟩
        rw [r1, mem_otherVars]
        exact ⟨hw, he w (h1.sub f hfi.1 w hw) hwu⟩
    have hmem : ∀ g ∈ insertFactor (deleteFactor st.factors i) a.1, g ∈ st.factors ∨ g = a.1 := by
      intro g hg
      rcases mem_insertFactor hg with hg | hg
      · exact .inl (List.mem_filter.1 hg).1
      · exact .inr hg
    have hexp : Explained h R (insertFactor (deleteFactor st.factors i) a.1) := by
      refine ⟨?_, ?_, ?_⟩
      · intro g hg
        rcases hmem g hg with hg | rfl
        · exact h1.wf g hg
        · refine ⟨r3, ?_⟩
          rw [r1]
          exact (List.Sublist.map _ List.filter_sublist).nodup (h1.wf f hfi.1).nodup
      · intro g hg
        rcases hmem g hg with hg | rfl
        · exact h1.sub g hg
        · intro w hw
          rw [r1, mem_otherVars] at hw
          exact h1.sub f hfi.1 w hw.1
      · intro g hg
        rcases hmem g hg with hg | rfl
        · exact h1.near g hg
        · exact ⟨_, hnear⟩
    have hbud : budget h (insertFactor (deleteFactor st.factors i) a.1) ≤ budget h st.factors := by
      refine (budget_insert _ _).trans ?_
      rw [budget_split st.factors (fun g => decide (g.id ≠ i))]
      refine Nat.add_le_add le_rfl ?_
      have hsub : [f].Sublist (st.factors.filter (fun g => !decide (g.id ≠ i))) :=
        List.singleton_sublist.2 (List.mem_filter.2 ⟨hfi.1, by simp [hfi.2]⟩)
      have := budget_sublist (h := h) hsub
      rw [budget_single] at this
      exact (Nat.add_le_add_right (grade_le hnear) 1).trans this
    obtain ⟨b1, b2, b3, b4, b5⟩ := ih _ st' hexp (fun g hg => by
      rcases hmem g hg with hg | rfl
      · exact h2 g hg
      · exact hpos) hr
    exact ⟨b1, b2, b3.trans hbud, b4.trans r2, b5⟩

theorem eliminateEvidence_near (h : Grading β K) {R : List Var} (sch : Sched (β × K)) : ∀ (es : List Evid)
    (st st' : VE (β × K)), (∀ e ∈ es, ∀ w ∈ R, w.nodeType = .utility → w.id ≠ e.var.id) →
    Explained h R st.factors → (∀ f ∈ st.factors, PosOrUtility f) → st.eliminateEvidence sch es = .ok st' →
    Explained h R st'.factors ∧ (∀ f ∈ st'.factors, PosOrUtility f) ∧
      budget h st'.factors ≤ budget h st.factors ∧ st'.vs.variables = st.vs.variables ∧ st'.log = st.log := by
  intro es
  induction es with
  | nil => intro st st' _ h1 h2 hr; cases hr; exact ⟨h1, h2, le_rfl, rfl, rfl⟩
  | cons e es ih =>
    intro st st' he h1 h2 hr
    unfold VE.eliminateEvidence at hr ih
    rw [List.foldlM_cons] at hr
    obtain ⟨st1, hs1, hr⟩ := ok_inv hr
    obtain ⟨a1, a2, a3, a4, a5⟩ := restrictIds_near h e (he e List.mem_cons_self) _ { st with tick := st.tick + 1 } st1 h1 h2
      hs1
    obtain ⟨b1, b2, b3, b4, b5⟩ := ih st1 st' (fun e' h' => he e' (List.mem_cons_of_mem _ h')) a1 a2 hr
    exact ⟨b1, b2, b3.trans a3, b4.trans a4, b5.trans a5⟩

theorem removeUtilities_near {R : List Var} (sch : Sched (β × K)) {st : VE (β × K)} (hv : st.vs.variables = R)
    (h1 : Explained h R st.factors) (h2 : ∀ f ∈ st.factors, PosOrUtility f) :
    Explained h R (st.removeUtilities sch none).factors ∧ (∀ f ∈ (st.removeUtilities sch none).factors, f.Pos) ∧
      budget h (st.removeUtilities sch none).factors ≤ budget h st.factors ∧
      (st.removeUtilities sch none).vs = st.vs ∧ (st.removeUtilities sch none).log = st.log := by
  unfold VE.removeUtilities
  dsimp only
  split_ifs with h0
  · refine ⟨h1, fun f hf => ?_, le_rfl, rfl, rfl⟩
    rcases h2 f hf with hp | ⟨w, hw, hu⟩
    · exact hp
    · have := List.eq_nil_of_length_eq_zero h0
      rw [List.filter_eq_nil_iff] at this
      have := this w (hv ▸ h1.sub f hf w hw)
      simp [hu, notExcept] at this
  · rw [deleteAll_eq]
    refine ⟨h1.sublist (fun f hf => (List.mem_filter.1 hf).1), fun f hf => ?_, budget_sublist List.filter_sublist, rfl, rfl⟩
    obtain ⟨hf, hn⟩ := List.mem_filter.1 hf
    rcases h2 f hf with hp | ⟨w, hw, hu⟩
    · exact hp
    · exfalso
      rw [decide_eq_true_eq] at hn
      apply hn
      refine List.mem_map_of_mem (List.mem_filter.2 ⟨(sch.fac_perm _ _).symm.subset hf, ?_⟩)
      rw [List.any_eq_true]
      refine ⟨w, List.mem_filter.2 ⟨hv ▸ h1.sub f hf w hw, ?_⟩, by simpa using hw⟩
      simp [hu, notExcept]

/-- What it costs to eliminate the variable with this ID. -/
def elimCost (R : List Var) (i : Nat) : Nat := ((R.filter (fun w => w.id = i)).map (fun w => w.outcomes + 1)).sum

theorem le_elimCost {R : List Var} {w : Var} (hw : w ∈ R) : w.outcomes + 1 ≤ elimCost R w.id := by
  unfold elimCost
  exact List.single_le_sum (fun _ _ => Nat.zero_le _) _
    (List.mem_map_of_mem (List.mem_filter.2 ⟨hw, by simp⟩))

theorem product_pair (h : Grading β K) {R : List Var} (hR : (R.map Var.id).Nodup) {s : Vs}
    {fs : List (Factor (β × K))} (hf : ∀ f ∈ fs, f.WF) (hs : ∀ f ∈ fs, ∀ v ∈ f.vars, v ∈ R) {a : Factor (β × K) × Vs}
    (ha : s.product fs = .ok a) : a.1.WF ∧ (∀ v ∈ a.1.vars, v ∈ R) ∧ a.2.variables = s.variables := by
  have hs' : ∀ f ∈ fs.map (Factor.mapNum Prod.snd), ∀ v ∈ f.vars, v ∈ R := by
    intro f hf v hv
    obtain ⟨g, hg, rfl⟩ := List.mem_map.1 hf
    exact hs g hg v hv
  obtain ⟨g, g1, g2, _, g4, _⟩ := product_spec s (fs.map (Factor.mapNum Prod.snd))
    (fun f hf' => by obtain ⟨g, hg, rfl⟩ := List.mem_map.1 hf'; exact wf_map (hf g hg)) (coherentFs_of_sub hR hs')
  obtain ⟨b, hb, e⟩ := (product_map (exact_embeds h) s fs).inv ha
  rw [g1] at hb
  cases hb
  rw [Prod.mk.injEq] at e
  refine ⟨wf_of_map e.1 g2, fun v hv => ?_, ?_⟩
  · have hv' : v ∈ g.vars := by rw [e.1]; exact hv
    rw [g4] at hv'
    obtain ⟨f, hf, hv'⟩ := mem_scopeUnion.1 hv'
    exact hs' f hf v hv'
  · rw [← e.2]

theorem sumOut_pair (h : Grading β K) {s : Vs} {f : Factor (β × K)} (hf : f.WF) {v w : Var} (hw : w ∈ f.vars)
    (hid : w.id = v.id) {a : Factor (β × K) × Vs} (ha : s.sumOut f v = .ok a) :
    a.1.WF ∧ a.1.vars = otherVars v.id f.vars ∧ a.2.variables = s.variables := by
  obtain ⟨g, g1, g2, _, g4, _⟩ := sumOut_spec s (f.mapNum Prod.snd) (wf_map hf) v w hw hid
  obtain ⟨b, hb, e⟩ := (sumOut_map (exact_embeds h) s f v).inv ha
  rw [g1] at hb
  cases hb
  rw [Prod.mk.injEq] at e
  refine ⟨wf_of_map e.1 g2, ?_, by rw [← e.2]⟩
  rw [e.1] at g4
  exact g4

theorem removeHidden_near (h : Grading β K) {R : List Var} (hR : (R.map Var.id).Nodup) (sch : Sched (β × K))
    {st st' : VE (β × K)} (v : Var) (h1 : Explained h R st.factors) (h2 : ∀ f ∈ st.factors, f.Pos)
    (hr : st.removeHidden sch v = .ok st') :
    Explained h R st'.factors ∧ (∀ f ∈ st'.factors, f.Pos) ∧
      budget h st'.factors ≤ budget h st.factors + elimCost R v.id ∧ st'.vs.variables = st.vs.variables ∧
      st'.log = st.log ++ [v.id] := by
  unfold VE.removeHidden at hr
  set p : Factor (β × K) → Bool := fun f => f.vars.any (fun w => w.id = v.id) with hp
  obtain ⟨a, ha, hr⟩ := ok_inv hr
  obtain ⟨b, hb, hr⟩ := ok_inv hr
  obtain ⟨el, _, hr⟩ := ok_inv hr
  cases hr
  have hit : (st.iter sch).Perm st.factors := sch.fac_perm _ _
  have hsub : ∀ f ∈ (st.iter sch).filter p, f ∈ st.factors := fun f hf => hit.subset (List.mem_filter.1 hf).1
  obtain ⟨a1, a2, a3⟩ := product_pair h hR (fun f hf => h1.wf f (hsub f hf)) (fun f hf => h1.sub f (hsub f hf)) ha
  obtain ⟨n1, n2⟩ := product_near h (grade h)
    (fun f hf => ⟨grade_near (h1.near f (hsub f hf)), h2 f (hsub f hf)⟩) ha
  have hw : ∃ w ∈ a.1.vars, w.id = v.id := by
    unfold Vs.sumOut at hb
    cases hl : lastIdx v.id a.1.vars with
    | none => rw [hl] at hb; cases hb
    | some idx =>
      obtain ⟨w, hw, e⟩ := lastIdx_some hl
      exact ⟨w, List.mem_of_getElem? hw, e⟩
  obtain ⟨w, hw, hid⟩ := hw
  obtain ⟨b1, b2, b3⟩ := sumOut_pair h a1 hw hid hb
  obtain ⟨m1, m2⟩ := sumOut_near h a.2 a1 v hw hid n1 n2 hb
  have hmem : ∀ g ∈ insertFactor (deleteAll st.factors (((st.iter sch).filter p).map Factor.id)) b.1,
      g ∈ st.factors ∨ g = b.1 := by
    intro g hg
    rcases mem_insertFactor hg with hg | hg
    · rw [deleteAll_eq] at hg
      exact .inl (List.mem_filter.1 hg).1
    · exact .inr hg
  refine ⟨⟨?_, ?_, ?_⟩, ?_, ?_, b3.trans a3, rfl⟩
  · intro g hg
    rcases hmem g hg with hg | rfl
    · exact h1.wf g hg
    · exact b1
  · intro g hg
    rcases hmem g hg with hg | rfl
    · exact h1.sub g hg
    · intro x hx
      rw [b2, mem_otherVars] at hx
      exact a2 x hx.1
  · intro g hg
    rcases hmem g hg with hg | rfl
    · exact h1.near g hg
    · exact ⟨_, m1⟩
  · intro g hg
    rcases hmem g hg with hg | rfl
    · exact h2 g hg
    · exact m2
  · refine (budget_insert _ _).trans ?_
    have e1 : budget h (deleteAll st.factors (((st.iter sch).filter p).map Factor.id)) ≤
        budget h (st.factors.filter (fun f => !p f)) := by
      rw [deleteAll_eq]
      have e0 : st.factors.filter (fun f => decide (f.id ∉ ((st.iter sch).filter p).map Factor.id)) =
          (st.factors.filter (fun f => !p f)).filter
            (fun f => decide (f.id ∉ ((st.iter sch).filter p).map Factor.id)) := by
        rw [List.filter_filter]
        apply List.filter_congr
        intro f hf
        cases hpf : p f with
        | false => simp
        | true =>
          have : f.id ∈ ((st.iter sch).filter p).map Factor.id :=
            List.mem_map_of_mem (List.mem_filter.2 ⟨hit.symm.subset hf, hpf⟩)
          simp only [this, not_true, decide_false, Bool.false_and]
      rw [e0]
      exact budget_sublist List.filter_sublist
    have e2 : budget h ((st.iter sch).filter p) = budget h (st.factors.filter p) :=
      budget_perm (hit.filter p)
    have e3 := budget_split (h := h) st.factors p
    have e4 := grade_le m1
    have e5 := le_elimCost (a2 w hw)
    rw [hid] at e5
    have e6 : (((st.iter sch).filter p).map (fun f => grade h f + 1)).sum = budget h ((st.iter sch).filter p) := rfl
    omega

theorem removeAll_near (h : Grading β K) {R : List Var} (hR : (R.map Var.id).Nodup) (sch : Sched (β × K)) :
    ∀ (ps : List (Var × Nat)) (st st' : VE (β × K)), Explained h R st.factors → (∀ f ∈ st.factors, f.Pos) →
    ps.foldlM (fun st p => st.removeHidden sch p.1) st = .ok st' →
    Explained h R st'.factors ∧ (∀ f ∈ st'.factors, f.Pos) ∧ st'.vs.variables = st.vs.variables ∧
      ∃ l, st'.log = st.log ++ l ∧ budget h st'.factors ≤ budget h st.factors + (l.map (elimCost R)).sum := by
  intro ps
  induction ps with
  | nil => intro st st' h1 h2 hr; cases hr; exact ⟨h1, h2, rfl, [], by simp, by simp⟩
  | cons p ps ih =>
    intro st st' h1 h2 hr
    rw [List.foldlM_cons] at hr
    obtain ⟨st1, hs1, hr⟩ := ok_inv hr
    obtain ⟨a1, a2, a3, a4, a5⟩ := removeHidden_near h hR sch p.1 h1 h2 hs1
    obtain ⟨b1, b2, b4, l, b5, b6⟩ := ih st1 st' a1 a2 hr
    refine ⟨b1, b2, b4.trans a4, p.1.id :: l, by rw [b5, a5]; simp, ?_⟩
    rw [List.map_cons, List.sum_cons]
    omega

/-- The roundings of a whole query, in terms of the variables that it eliminates. -/
theorem solve_near (h : Grading β K) {R : List Var} (hR : (R.map Var.id).Nodup) (sch : Sched (β × K))
    {st st' : VE (β × K)} {f : Factor (β × K)} (hv : st.vs.variables = R) (hl : st.log = []) (es : List Evid)
    (q : List Var) (he : ∀ e ∈ es, ∀ w ∈ R, w.nodeType = .utility → w.id ≠ e.var.id)
    (h1 : Explained h R st.factors) (h2 : ∀ f ∈ st.factors, PosOrUtility f)
    (hr : st.solve sch es q false none = .ok (f, st')) :
    f.WF ∧ f.Pos ∧ f.Near h (budget h st.factors + (st'.log.map (elimCost R)).sum) := by
  unfold VE.solve at hr
  obtain ⟨st1, e1, hr⟩ := ok_inv hr
  obtain ⟨a1, a2, a3, a4, a5⟩ := eliminateEvidence_near h sch es st st1 he h1 h2 e1
  rw [if_neg (by simp)] at hr
  change (Except.ok (st1.removeUtilities sch none) >>= _) = _ at hr
  rw [ok_bind] at hr
  obtain ⟨b1, b2, b3, b4, b5⟩ := removeUtilities_near sch (a4.trans hv) a1 a2
  obtain ⟨st3, e3, hr⟩ := ok_inv hr
  unfold VE.eliminateHidden at e3
  obtain ⟨d, _, e3⟩ := ok_inv e3
  obtain ⟨hi, _, e3⟩ := ok_inv e3
  dsimp only at e3
  obtain ⟨c1, c2, c3, l, c4, c5⟩ := removeAll_near h hR sch _
    { st1.removeUtilities sch none with tick := d.2 + 1 + hi.length } st3 b1 b2 e3
  unfold VE.multiplyAll at hr
  obtain ⟨a, ha, hr⟩ := ok_inv hr
  cases hr
  have hit : (st3.iter sch).Perm st3.factors := sch.fac_perm _ _
  obtain ⟨p1, p2, p3⟩ := product_pair h hR (fun f hf => c1.wf f (hit.subset hf)) (fun f hf => c1.sub f (hit.subset hf)) ha
  obtain ⟨n1, n2⟩ := product_near h (grade h)
    (fun f hf => ⟨grade_near (c1.near f (hit.subset hf)), c2 f (hit.subset hf)⟩) ha
  refine ⟨p1, n2, n1.mono h ?_⟩
  have e6 : ((st3.iter sch).map (fun f => grade h f + 1)).sum = budget h st3.factors := budget_perm hit
  dsimp only at c4 c5
  rw [b5, a5, hl, List.nil_append] at c4
  rw [e6, c4]
  omega

end Bbn
