import Verif.Lemmas.RoundingSolve

/-!
# Graded properties of numbers through the solver

A property with a grade that grows by one with every operation (in sums from the larger grade, in products from the sum)
is kept by everything that the solver does, with a grade that is bounded by the numbers of tables, variables and outcomes.
-/

set_option autoImplicit false
set_option linter.unusedSectionVars false

namespace Bbn

open Finset

variable {γ : Type} [Zero γ] [One γ] [Add γ] [Mul γ]

/-- Kept by sums and products, with growing grade. -/
structure Graded (P : Nat → γ → Prop) : Prop where
  zero : ∀ k, P k 0
  one : P 0 1
  mono : ∀ {k l x}, k ≤ l → P k x → P l x
  add : ∀ {k l a b}, P k a → P l b → P (max k l + 1) (a + b)
  mul : ∀ {k l a b}, P k a → P l b → P (k + l + 1) (a * b)

variable {P : Nat → γ → Prop}

/-- All entries have the property. -/
def Factor.Has (P : Nat → γ → Prop) (k : Nat) (f : Factor γ) : Prop := ∀ x ∈ f.data, P k x

theorem Factor.Has.mono (h : Graded P) {k l : Nat} {f : Factor γ} (hf : f.Has P k) (hkl : k ≤ l) : f.Has P l :=
  fun x hx => h.mono hkl (hf x hx)

theorem productCell_has (h : Graded P) (gr : Factor γ → Nat) (new : List Nat) :
    ∀ (fs : List (Factor γ)) (ms : List (List Nat)) (acc x : γ) (k : Nat), (∀ f ∈ fs, f.Has P (gr f)) → P k acc →
    productCell new (fs.zip ms) acc = .ok x → P (k + (fs.map (fun f => gr f + 1)).sum) x := by
  intro fs
  induction fs with
  | nil =>
    intro ms acc x k _ ha hx
    cases hx
    simpa using ha
  | cons f fs ih =>
    intro ms acc x k hf ha hx
    cases ms with
    | nil =>
      cases hx
      exact h.mono (by omega) ha
    | cons m ms =>
      rw [List.zip_cons_cons, productCell] at hx
      obtain ⟨o, _, hx⟩ := ok_inv hx
      obtain ⟨y, hy, hx⟩ := ok_inv hx
      have hy := getN_mem hy
      have := ih ms (acc * y) x (k + gr f + 1) (fun g hg => hf g (List.mem_cons_of_mem _ hg))
        (h.mul ha (hf f List.mem_cons_self y hy)) hx
      rw [List.map_cons, List.sum_cons]
      exact h.mono (by omega) this

theorem sumCell_has (h : Graded P) (gr : Factor γ → Nat) (new : List Nat) :
    ∀ (fs : List (Factor γ)) (ms : List (List Nat)) (acc x : γ) (k : Nat), (∀ f ∈ fs, f.Has P (gr f)) → P k acc →
    sumCell new (fs.zip ms) acc = .ok x → P (k + (fs.map (fun f => gr f + 1)).sum) x := by
  intro fs
  induction fs with
  | nil =>
    intro ms acc x k _ ha hx
    cases hx
    simpa using ha
  | cons f fs ih =>
    intro ms acc x k hf ha hx
    cases ms with
    | nil =>
      cases hx
      exact h.mono (by omega) ha
    | cons m ms =>
      rw [List.zip_cons_cons, sumCell] at hx
      obtain ⟨o, _, hx⟩ := ok_inv hx
      obtain ⟨y, hy, hx⟩ := ok_inv hx
      have hy := getN_mem hy
      have := ih ms (acc + y) x (max k (gr f) + 1) (fun g hg => hf g (List.mem_cons_of_mem _ hg))
        (h.add ha (hf f List.mem_cons_self y hy)) hx
      rw [List.map_cons, List.sum_cons]
      exact h.mono (by omega) this

omit [One γ] [Add γ] [Mul γ] in
theorem createFactor_data_eq {s : Vs} {vars : List Var} {d : List γ} {a : Factor γ × Vs}
    (h : s.createFactor vars (some d) = .ok a) : a.1.data = d := by
  unfold Vs.createFactor at h
  dsimp only at h
  split_ifs at h
  cases h
  rfl

theorem product_has (h : Graded P) (gr : Factor γ → Nat) {s : Vs} {fs : List (Factor γ)}
    (hf : ∀ f ∈ fs, f.Has P (gr f)) {a : Factor γ × Vs} (ha : s.product fs = .ok a) :
    a.1.Has P (fs.map (fun f => gr f + 1)).sum := by
  have main : ∀ fs : List (Factor γ), (∀ f ∈ fs, f.Has P (gr f)) →
      (do let (fNew, s) ← s.createFactor (mergeAll [] (fs.map Factor.vars)).1 (none : Option (List γ))
          let d ← odoBuild (mergeAll [] (fs.map Factor.vars)).1
            (fun new => productCell new (fs.zip (mergeAll [] (fs.map Factor.vars)).2) 1)
            fNew.data.length (List.replicate (mergeAll [] (fs.map Factor.vars)).1.length 0)
          return (({ fNew with data := d } : Factor γ), s)) = Except.ok (ε := Fault) a →
      a.1.Has P (fs.map (fun f => gr f + 1)).sum := by
    intro fs hf ha
    obtain ⟨b, _, ha⟩ := ok_inv ha
    obtain ⟨d, hd, ha⟩ := ok_inv ha
    cases ha
    exact odoBuild_mem _ (Q := fun x => P (fs.map (fun f => gr f + 1)).sum x) (fun i x hx => by
        have := productCell_has h gr i fs _ 1 x 0 hf h.one hx
        rwa [Nat.zero_add] at this) _ _ _ hd
  unfold Vs.product at ha
  match fs, hf, ha with
  | [], hf, ha => exact main [] hf ha
  | [f], hf, ha =>
    have e := createFactor_data_eq ha
    exact fun x hx => h.mono (by simp) (hf f List.mem_cons_self x (e ▸ hx))
  | f :: g :: fs, hf, ha => exact main (f :: g :: fs) hf ha

theorem sum_has (h : Graded P) (gr : Factor γ → Nat) {s : Vs} {fs : List (Factor γ)}
    (hf : ∀ f ∈ fs, f.Has P (gr f)) {a : Factor γ × Vs} (ha : s.sum fs = .ok a) :
    a.1.Has P (fs.map (fun f => gr f + 1)).sum := by
  have main : ∀ fs : List (Factor γ), (∀ f ∈ fs, f.Has P (gr f)) →
      (do let (fNew, s) ← s.createFactor (mergeAll [] (fs.map Factor.vars)).1 (none : Option (List γ))
          let d ← odoBuild (mergeAll [] (fs.map Factor.vars)).1
            (fun new => sumCell new (fs.zip (mergeAll [] (fs.map Factor.vars)).2) 0)
            fNew.data.length (List.replicate (mergeAll [] (fs.map Factor.vars)).1.length 0)
          return (({ fNew with data := d } : Factor γ), s)) = Except.ok (ε := Fault) a →
      a.1.Has P (fs.map (fun f => gr f + 1)).sum := by
    intro fs hf ha
    obtain ⟨b, _, ha⟩ := ok_inv ha
    obtain ⟨d, hd, ha⟩ := ok_inv ha
    cases ha
    exact odoBuild_mem _ (Q := fun x => P (fs.map (fun f => gr f + 1)).sum x) (fun i x hx => by
        have := sumCell_has h gr i fs _ 0 x 0 hf (h.zero 0) hx
        rwa [Nat.zero_add] at this) _ _ _ hd
  unfold Vs.sum at ha
  match fs, hf, ha with
  | [], hf, ha => exact main [] hf ha
  | [f], hf, ha =>
    have e := createFactor_data_eq ha
    exact fun x hx => h.mono (by simp) (hf f List.mem_cons_self x (e ▸ hx))
  | f :: g :: fs, hf, ha => exact main (f :: g :: fs) hf ha

theorem sumOutLoop_has (h : Graded P) (g : Nat) (vars newVars : List Var) (idx : Nat) :
    ∀ (xs : List γ) (old : List Nat) (new : List γ) (cnt cnt' : List Nat),
    (∀ x ∈ xs, P g x) → List.Forall₂ (fun x c => P (g + c) x) new cnt →
    sumOutLoop vars newVars idx (List.replicate xs.length 1) old cnt = .ok cnt' →
    ∃ new', sumOutLoop vars newVars idx xs old new = .ok new' ∧ List.Forall₂ (fun x c => P (g + c) x) new' cnt' := by
  intro xs
  induction xs with
  | nil => intro old new cnt cnt' _ hn hc; cases hc; exact ⟨_, rfl, hn⟩
  | cons x xs ih =>
    intro old new cnt cnt' hx hn hc
    rw [List.length_cons, List.replicate_succ, sumOutLoop] at hc
    obtain ⟨j, hj, hc⟩ := ok_inv hc
    obtain ⟨cur, hcur, hc⟩ := ok_inv hc
    obtain ⟨c1, hc1, hc⟩ := ok_inv hc
    obtain ⟨cx, hcx, r1⟩ := pairs_get hn hcur
    have hr : P (g + (cur + 1)) (cx + x) := h.mono (by omega) (h.add r1 (hx x List.mem_cons_self))
    obtain ⟨l', hl', hn'⟩ := pairs_goSet hn hr hc1
    obtain ⟨new', e1, e2⟩ := ih _ l' c1 cnt' (fun y hy => hx y (List.mem_cons_of_mem _ hy)) hn' hc
    refine ⟨new', ?_, e2⟩
    rw [sumOutLoop, hj]
    simp only [ok_bind, hcx, hl', e1]

theorem sumOut_has (h : Graded P) {g : Nat} (s : Vs) {f : Factor γ} (hf : f.WF) (v : Var) {w : Var}
    (hw : w ∈ f.vars) (hid : w.id = v.id) (hn : f.Has P g) {a : Factor γ × Vs} (ha : s.sumOut f v = .ok a) :
    a.1.Has P (g + w.outcomes) := by
  have hones : (⟨f.id, List.replicate f.data.length 1, f.vars⟩ : Factor Nat).WF := ⟨by simp [hf.len], hf.nodup⟩
  obtain ⟨c, c1, c2, _, c4, c5⟩ := sumOut_spec s ⟨f.id, List.replicate f.data.length 1, f.vars⟩ hones v w hw hid
  have hval : ∀ y ∈ c.data, y ≤ w.outcomes := by
    intro y hy
    obtain ⟨σ, hσ, rfl⟩ := entry_val c2 hy
    rw [c5 σ hσ]
    calc ∑ k ∈ range w.outcomes, (⟨f.id, List.replicate f.data.length 1, f.vars⟩ : Factor Nat).val (σ.upd v.id k)
        ≤ ∑ _k ∈ range w.outcomes, 1 := by
          refine Finset.sum_le_sum (fun k _ => ?_)
          unfold Factor.val
          rw [List.getD_eq_getElem?_getD, List.getElem?_replicate]
          split_ifs <;> simp
      _ = w.outcomes := by simp
  unfold Vs.sumOut at ha c1
  cases hl : lastIdx v.id f.vars with
  | none => rw [hl] at ha; cases ha
  | some idx =>
    rw [hl] at ha
    dsimp only at ha c1
    rw [hl] at c1
    dsimp only at c1
    obtain ⟨b, hb, ha⟩ := ok_inv ha
    obtain ⟨d, hd, ha⟩ := ok_inv ha
    obtain ⟨b', hb', c1⟩ := ok_inv c1
    obtain ⟨d', hd', c1⟩ := ok_inv c1
    unfold Vs.createFactor at hb hb'
    cases hb
    cases hb'
    cases ha
    cases c1
    obtain ⟨new', e1, e2⟩ := sumOutLoop_has h g f.vars _ idx f.data _ (List.replicate (size (otherVars v.id f.vars)) 0) _ d'
      hn (by
        rw [List.forall₂_iff_get]
        refine ⟨by simp, fun i hi hi' => ?_⟩
        simp only [List.get_eq_getElem, List.getElem_replicate]
        exact h.zero _) hd'
    rw [hd] at e1
    cases e1
    intro x hx
    obtain ⟨c, hc, r1⟩ := forall₂_mem_left e2 hx
    exact h.mono (by have := hval c hc; omega) r1

/-! ## The state of the solver -/

/-- The least grade of the entries. -/
noncomputable def gradeOf (P : Nat → γ → Prop) (f : Factor γ) : Nat := sInf {k | f.Has P k}

theorem gradeOf_has {f : Factor γ} (h : ∃ k, f.Has P k) : f.Has P (gradeOf P f) :=
  Nat.sInf_mem (s := {k | f.Has P k}) h

theorem gradeOf_le {f : Factor γ} {k : Nat} (h : f.Has P k) : gradeOf P f ≤ k := Nat.sInf_le h

/-- The sum of the grades, plus one for each factor. -/
noncomputable def budgetOf (P : Nat → γ → Prop) (fs : List (Factor γ)) : Nat := (fs.map (fun f => gradeOf P f + 1)).sum

theorem budgetOf_perm {fs gs : List (Factor γ)} (h : fs.Perm gs) : budgetOf P fs = budgetOf P gs := (h.map _).sum_eq

theorem budgetOf_append (fs gs : List (Factor γ)) : budgetOf P (fs ++ gs) = budgetOf P fs + budgetOf P gs := by
  simp [budgetOf]

theorem budgetOf_single (f : Factor γ) : budgetOf P [f] = gradeOf P f + 1 := by simp [budgetOf]

theorem budgetOf_sublist {fs gs : List (Factor γ)} (h : fs.Sublist gs) : budgetOf P fs ≤ budgetOf P gs :=
  (h.map _).sum_le_sum (fun _ _ => Nat.zero_le _)

theorem budgetOf_split (fs : List (Factor γ)) (p : Factor γ → Bool) :
    budgetOf P fs = budgetOf P (fs.filter p) + budgetOf P (fs.filter (fun f => !p f)) := by
  rw [budgetOf_perm (filter_perm_split p), budgetOf_append]

theorem budgetOf_insert (fs : List (Factor γ)) (f : Factor γ) :
    budgetOf P (insertFactor fs f) ≤ budgetOf P fs + (gradeOf P f + 1) := by
  unfold insertFactor
  rw [budgetOf_append, budgetOf_single]
  have := budgetOf_sublist (P := P) (List.filter_sublist (p := fun g => decide (g.id ≠ f.id)) (l := fs))
  omega

/-- What holds for the factors throughout: well-formed, over the variables `R`, and with the property. -/
structure AllHave (P : Nat → γ → Prop) (R : List Var) (fs : List (Factor γ)) : Prop where
  wf : ∀ f ∈ fs, f.WF
  sub : ∀ f ∈ fs, ∀ v ∈ f.vars, v ∈ R
  has : ∀ f ∈ fs, ∃ k, f.Has P k

theorem AllHave.sublist {R : List Var} {fs gs : List (Factor γ)} (h : AllHave P R fs) (hs : ∀ f ∈ gs, f ∈ fs) :
    AllHave P R gs :=
  ⟨fun f hf => h.wf f (hs f hf), fun f hf => h.sub f (hs f hf), fun f hf => h.has f (hs f hf)⟩

theorem AllHave.insert {R : List Var} {fs gs : List (Factor γ)} {a : Factor γ} {k : Nat} (h : AllHave P R fs)
    (hs : ∀ f ∈ gs, f ∈ fs ∨ f = a) (h1 : a.WF) (h2 : ∀ v ∈ a.vars, v ∈ R) (h3 : a.Has P k) : AllHave P R gs := by
  refine ⟨fun f hf => ?_, fun f hf => ?_, fun f hf => ?_⟩
  · rcases hs f hf with hf | rfl
    · exact h.wf f hf
    · exact h1
  · rcases hs f hf with hf | rfl
    · exact h.sub f hf
    · exact h2
  · rcases hs f hf with hf | rfl
    · exact h.has f hf
    · exact ⟨k, h3⟩

omit [One γ] [Add γ] [Mul γ] in
theorem restrict_shape {s : Vs} {f : Factor γ} {v : Var} {obs : Int} {a : Factor γ × Vs}
    (ha : s.restrict f v obs = .ok a) :
    a.1.vars = otherVars v.id f.vars ∧ a.2.variables = s.variables ∧ a.1.data.length = size a.1.vars := by
  unfold Vs.restrict at ha
  split_ifs at ha
  cases hl : lastIdx v.id f.vars with
  | none => rw [hl] at ha; cases ha
  | some idx =>
    rw [hl] at ha
    dsimp only at ha
    obtain ⟨b, hb, ha⟩ := ok_inv ha
    obtain ⟨d, hd, ha⟩ := ok_inv ha
    cases hb
    cases ha
    refine ⟨rfl, rfl, ?_⟩
    have : ∀ (xs : List γ) (old : List Nat) (new new' : List γ),
        restrictLoop f.vars (otherVars v.id f.vars) idx obs.toNat xs old new = .ok new' → new'.length = new.length := by
      intro xs
      induction xs with
      | nil => intro old new new' hc; cases hc; rfl
      | cons x xs ih =>
        intro old new new' hc
        rw [restrictLoop] at hc
        obtain ⟨o, _, hc⟩ := ok_inv hc
        dsimp only at hc
        split_ifs at hc
        · obtain ⟨j, _, hc⟩ := ok_inv hc
          obtain ⟨n1, h1, hc⟩ := ok_inv hc
          rw [ih _ _ _ hc]
          unfold goSet at h1
          split_ifs at h1
          cases h1
          simp
        · exact ih _ _ _ hc
    rw [this _ _ _ _ hd]
    simp

theorem restrictIds_has (h : Graded P) {R : List Var} (e : Evid) : ∀ (is : List Nat) (st st' : VE γ),
    AllHave P R st.factors → restrictIds e is st = .ok st' →
    AllHave P R st'.factors ∧ budgetOf P st'.factors ≤ budgetOf P st.factors ∧
      st'.factors.length ≤ st.factors.length ∧ st'.vs.variables = st.vs.variables ∧ st'.weights = st.weights := by
  intro is
  induction is with
  | nil => intro st st' h1 hr; cases hr; exact ⟨h1, le_rfl, le_rfl, rfl, rfl⟩
  | cons i is ih =>
    intro st st' h1 hr
    rw [restrictIds] at hr
    obtain ⟨f, hf, hr⟩ := ok_inv hr
    obtain ⟨a, ha, hr⟩ := ok_inv hr
    have hfi : f ∈ st.factors ∧ f.id = i := by
      unfold lookupFactor at hf
      cases hl : st.factors.find? (fun g => g.id = i) with
      | none => rw [hl] at hf; cases hf
      | some g =>
        rw [hl] at hf
        cases hf
        exact ⟨List.mem_of_find?_eq_some hl, by simpa using List.find?_some hl⟩
    obtain ⟨r1, r2, r3⟩ := restrict_shape ha
    have hnear : a.1.Has P (gradeOf P f) := by
      intro x hx
      rcases restrict_mem ha x hx with rfl | hx
      · exact h.zero _
      · exact gradeOf_has (h1.has f hfi.1) x hx
    have hmem : ∀ g ∈ insertFactor (deleteFactor st.factors i) a.1, g ∈ st.factors ∨ g = a.1 := by
      intro g hg
      rcases mem_insertFactor hg with hg | hg
      · exact .inl (List.mem_filter.1 hg).1
      · exact .inr hg
    have hexp : AllHave P R (insertFactor (deleteFactor st.factors i) a.1) := by
      refine h1.insert hmem ⟨r3, ?_⟩ ?_ hnear
      · rw [r1]
        exact (List.Sublist.map _ List.filter_sublist).nodup (h1.wf f hfi.1).nodup
      · intro w hw
        rw [r1, mem_otherVars] at hw
        exact h1.sub f hfi.1 w hw.1
    have hsub : [f].Sublist (st.factors.filter (fun g => !decide (g.id ≠ i))) :=
      List.singleton_sublist.2 (List.mem_filter.2 ⟨hfi.1, by simp [hfi.2]⟩)
    have hbud : budgetOf P (insertFactor (deleteFactor st.factors i) a.1) ≤ budgetOf P st.factors := by
      refine (budgetOf_insert _ _).trans ?_
      rw [budgetOf_split st.factors (fun g => decide (g.id ≠ i))]
      refine Nat.add_le_add le_rfl ?_
      have := budgetOf_sublist (P := P) hsub
      rw [budgetOf_single] at this
      exact (Nat.add_le_add_right (gradeOf_le hnear) 1).trans this
    have hlen : (insertFactor (deleteFactor st.factors i) a.1).length ≤ st.factors.length := by
      have e1 := (filter_perm_split (fs := st.factors) (fun g => decide (g.id ≠ i))).length_eq
      have e2 := hsub.length_le
      unfold insertFactor deleteFactor
      rw [List.length_append] at e1 ⊢
      have e3 := List.length_filter_le (fun g : Factor γ => decide (g.id ≠ a.1.id))
        (st.factors.filter (fun g => decide (g.id ≠ i)))
      simp only [List.length_singleton] at e2 ⊢
      omega
    obtain ⟨b1, b2, b3, b4, b5⟩ := ih _ st' hexp hr
    exact ⟨b1, b2.trans hbud, b3.trans hlen, b4.trans r2, b5⟩

theorem eliminateEvidence_has (h : Graded P) {R : List Var} (sch : Sched γ) : ∀ (es : List Evid) (st st' : VE γ),
    AllHave P R st.factors → st.eliminateEvidence sch es = .ok st' →
    AllHave P R st'.factors ∧ budgetOf P st'.factors ≤ budgetOf P st.factors ∧
      st'.factors.length ≤ st.factors.length ∧ st'.vs.variables = st.vs.variables ∧ st'.weights = st.weights := by
  intro es
  induction es with
  | nil => intro st st' h1 hr; cases hr; exact ⟨h1, le_rfl, le_rfl, rfl, rfl⟩
  | cons e es ih =>
    intro st st' h1 hr
    unfold VE.eliminateEvidence at hr ih
    rw [List.foldlM_cons] at hr
    obtain ⟨st1, hs1, hr⟩ := ok_inv hr
    obtain ⟨a1, a2, a3, a4, a5⟩ := restrictIds_has h e _ { st with tick := st.tick + 1 } st1 h1 hs1
    obtain ⟨b1, b2, b3, b4, b5⟩ := ih st1 st' a1 hr
    exact ⟨b1, b2.trans a2, b3.trans a3, b4.trans a4, b5.trans a5⟩

theorem removeUtilities_has {R : List Var} (sch : Sched γ) {st : VE γ} (except : Option Var)
    (h1 : AllHave P R st.factors) :
    AllHave P R (st.removeUtilities sch except).factors ∧
      budgetOf P (st.removeUtilities sch except).factors ≤ budgetOf P st.factors ∧
      (st.removeUtilities sch except).vs = st.vs := by
  unfold VE.removeUtilities
  dsimp only
  split_ifs with h0
  · exact ⟨h1, le_rfl, rfl⟩
  · rw [deleteAll_eq]
    exact ⟨h1.sublist (fun f hf => (List.mem_filter.1 hf).1), budgetOf_sublist List.filter_sublist, rfl⟩

section Shape

variable [Div γ] {K : Type} [Field K] {φ : γ → K} {D : γ → Prop}

omit [Zero γ] [One γ] [Add γ] [Mul γ] [Div γ] [Field K] in
theorem wf_mapped {f : Factor γ} {g : Factor K} (h : g = f.mapNum φ) (hg : g.WF) : f.WF := by
  subst h
  exact ⟨by have := hg.len; simpa [Factor.mapNum] using this, hg.nodup⟩

omit [Zero γ] [One γ] [Add γ] [Mul γ] [Div γ] [Field K] in
theorem mapped_wf {f : Factor γ} (hf : f.WF) : (f.mapNum φ).WF :=
  ⟨by have := hf.len; simpa [Factor.mapNum] using this, hf.nodup⟩

theorem product_shape (he : Embeds φ D) {R : List Var} (hR : (R.map Var.id).Nodup) {s : Vs}
    {fs : List (Factor γ)} (hf : ∀ f ∈ fs, f.WF) (hs : ∀ f ∈ fs, ∀ v ∈ f.vars, v ∈ R) {a : Factor γ × Vs}
    (ha : s.product fs = .ok a) : a.1.WF ∧ (∀ v ∈ a.1.vars, v ∈ R) ∧ a.2.variables = s.variables := by
  have hs' : ∀ f ∈ fs.map (Factor.mapNum φ), ∀ v ∈ f.vars, v ∈ R := by
    intro f hf v hv
    obtain ⟨g, hg, rfl⟩ := List.mem_map.1 hf
    exact hs g hg v hv
  obtain ⟨g, g1, g2, _, g4, _⟩ := product_spec s (fs.map (Factor.mapNum φ))
    (fun f hf' => by obtain ⟨g, hg, rfl⟩ := List.mem_map.1 hf'; exact mapped_wf (hf g hg)) (coherentFs_of_sub hR hs')
  obtain ⟨b, hb, e⟩ := (product_map he s fs).inv ha
  rw [g1] at hb
  cases hb
  rw [Prod.mk.injEq] at e
  refine ⟨wf_mapped e.1 g2, fun v hv => ?_, ?_⟩
  · have hv' : v ∈ g.vars := by rw [e.1]; exact hv
    rw [g4] at hv'
    obtain ⟨f, hf, hv'⟩ := mem_scopeUnion.1 hv'
    exact hs' f hf v hv'
  · rw [← e.2]

theorem sum_shape (he : Embeds φ D) {R : List Var} (hR : (R.map Var.id).Nodup) {s : Vs}
    {fs : List (Factor γ)} (hf : ∀ f ∈ fs, f.WF) (hs : ∀ f ∈ fs, ∀ v ∈ f.vars, v ∈ R) {a : Factor γ × Vs}
    (ha : s.sum fs = .ok a) : a.1.WF ∧ (∀ v ∈ a.1.vars, v ∈ R) ∧ a.2.variables = s.variables := by
  have hs' : ∀ f ∈ fs.map (Factor.mapNum φ), ∀ v ∈ f.vars, v ∈ R := by
    intro f hf v hv
    obtain ⟨g, hg, rfl⟩ := List.mem_map.1 hf
    exact hs g hg v hv
  obtain ⟨g, g1, g2, _, g4, _⟩ := sum_spec s (fs.map (Factor.mapNum φ))
    (fun f hf' => by obtain ⟨g, hg, rfl⟩ := List.mem_map.1 hf'; exact mapped_wf (hf g hg)) (coherentFs_of_sub hR hs')
  obtain ⟨b, hb, e⟩ := (sum_map he s fs).inv ha
  rw [g1] at hb
  cases hb
  rw [Prod.mk.injEq] at e
  refine ⟨wf_mapped e.1 g2, fun v hv => ?_, ?_⟩
  · have hv' : v ∈ g.vars := by rw [e.1]; exact hv
    rw [g4] at hv'
    obtain ⟨f, hf, hv'⟩ := mem_scopeUnion.1 hv'
    exact hs' f hf v hv'
  · rw [← e.2]

theorem sumOut_shape (he : Embeds φ D) {s : Vs} {f : Factor γ} (hf : f.WF) {v : Var} {a : Factor γ × Vs}
    (ha : s.sumOut f v = .ok a) :
    ∃ w ∈ f.vars, w.id = v.id ∧ a.1.WF ∧ a.1.vars = otherVars v.id f.vars ∧ a.2.variables = s.variables := by
  have hw : ∃ w ∈ f.vars, w.id = v.id := by
    unfold Vs.sumOut at ha
    cases hl : lastIdx v.id f.vars with
    | none => rw [hl] at ha; cases ha
    | some idx =>
      obtain ⟨w, hw, e⟩ := lastIdx_some hl
      exact ⟨w, List.mem_of_getElem? hw, e⟩
  obtain ⟨w, hw, hid⟩ := hw
  obtain ⟨g, g1, g2, _, g4, _⟩ := sumOut_spec s (f.mapNum φ) (mapped_wf hf) v w hw hid
  obtain ⟨b, hb, e⟩ := (sumOut_map he s f v).inv ha
  rw [g1] at hb
  cases hb
  rw [Prod.mk.injEq] at e
  refine ⟨w, hw, hid, wf_mapped e.1 g2, ?_, by rw [← e.2]⟩
  rw [e.1] at g4
  exact g4

/-! ## The sum of the utilities -/

theorem scaleUtil_has (he : Embeds φ D) (h : Graded P) {R : List Var} (hR : (R.map Var.id).Nodup)
    {weights : Option (List γ)} (hw : ∀ ws, weights = some ws → ∀ x ∈ ws, P 0 x) {i : Nat} {f : Factor γ} {vs : Vs}
    (h1 : f.WF) (h2 : ∀ v ∈ f.vars, v ∈ R) {k : Nat} (h3 : f.Has P k) {a : Factor γ × Vs}
    (ha : scaleUtil weights i f vs = .ok a) :
    a.1.WF ∧ (∀ v ∈ a.1.vars, v ∈ R) ∧ a.1.Has P (k + 2) ∧ a.2.variables = vs.variables := by
  unfold scaleUtil at ha
  cases weights with
  | none => cases ha; exact ⟨h1, h2, h3.mono h (by omega), rfl⟩
  | some ws =>
    dsimp only at ha
    obtain ⟨w, hwi, ha⟩ := ok_inv ha
    have hwf : (⟨0, [w], []⟩ : Factor γ).WF := ⟨rfl, by simp⟩
    obtain ⟨a1, a2, a3⟩ := product_shape he hR (R := R) (fs := [f, ⟨0, [w], []⟩])
      (by simp only [List.mem_cons, List.not_mem_nil, or_false, forall_eq_or_imp, forall_eq]; exact ⟨h1, hwf⟩)
      (by simp only [List.mem_cons, List.not_mem_nil, or_false, forall_eq_or_imp, forall_eq]; exact ⟨h2, by simp⟩) ha
    refine ⟨a1, a2, ?_, a3⟩
    have hwP : (⟨0, [w], []⟩ : Factor γ).Has P 0 := by
      intro x hx
      rw [List.mem_singleton.1 hx]
      exact hw ws rfl w (goGet_mem hwi)
    have := product_has h (gradeOf P) (fs := [f, ⟨0, [w], []⟩]) (by
      simp only [List.mem_cons, List.not_mem_nil, or_false, forall_eq_or_imp, forall_eq]
      exact ⟨gradeOf_has ⟨k, h3⟩, gradeOf_has ⟨0, hwP⟩⟩) ha
    refine this.mono h ?_
    have e1 := gradeOf_le h3
    have e2 := gradeOf_le hwP
    simp only [List.map_cons, List.map_nil, List.sum_cons, List.sum_nil]
    omega

/-- The utility factors: those that contain a utility variable. -/
def isUtil (utils : List Var) (f : Factor γ) : Bool := (firstUtil utils f).isSome

theorem collectUtils_has (he : Embeds φ D) (h : Graded P) {R : List Var} (hR : (R.map Var.id).Nodup) {utils : List Var}
    {weights : Option (List γ)} (hw : ∀ ws, weights = some ws → ∀ x ∈ ws, P 0 x) : ∀ (fs : List (Factor γ)) (vs : Vs)
    (r : List Nat × List (Factor γ) × Vs), AllHave P R fs → collectUtils utils weights fs vs = .ok r →
    r.1 = (fs.filter (isUtil utils)).map Factor.id ∧ AllHave P R r.2.1 ∧
      budgetOf P r.2.1 ≤ budgetOf P (fs.filter (isUtil utils)) + 2 * (fs.filter (isUtil utils)).length ∧
      r.2.2.variables = vs.variables := by
  intro fs
  induction fs with
  | nil =>
    intro vs r h1 hr
    cases hr
    exact ⟨rfl, h1, by simp, rfl⟩
  | cons f fs ih =>
    intro vs r h1 hr
    have h1' := h1.sublist (gs := fs) (fun g hg => List.mem_cons_of_mem _ hg)
    rw [collectUtils] at hr
    cases hfu : firstUtil utils f with
    | none =>
      rw [hfu] at hr
      obtain ⟨a1, a2, a3, a4⟩ := ih vs r h1' hr
      have e : (f :: fs).filter (isUtil utils) = fs.filter (isUtil utils) :=
        List.filter_cons_of_neg (by simp [isUtil, hfu])
      rw [e]
      exact ⟨a1, a2, a3, a4⟩
    | some i =>
      rw [hfu] at hr
      dsimp only at hr
      obtain ⟨sc, hsc, hr⟩ := ok_inv hr
      obtain ⟨b, hb, hr⟩ := ok_inv hr
      cases hr
      have hf := List.mem_cons_self (a := f) (l := fs)
      obtain ⟨c1, c2, c3, c4⟩ := scaleUtil_has he h hR hw (h1.wf f hf) (h1.sub f hf) (gradeOf_has (h1.has f hf)) hsc
      obtain ⟨a1, a2, a3, a4⟩ := ih sc.2 b h1' hb
      have e : (f :: fs).filter (isUtil utils) = f :: fs.filter (isUtil utils) :=
        List.filter_cons_of_pos (by simp [isUtil, hfu])
      rw [e]
      refine ⟨by dsimp only; rw [a1, List.map_cons], ?_, ?_, a4.trans c4⟩
      · exact a2.insert (fun g hg => (List.mem_cons.1 hg).symm) c1 c2 c3
      · have e1 : ∀ (g : Factor γ) (gs : List (Factor γ)), budgetOf P (g :: gs) = gradeOf P g + 1 + budgetOf P gs := by
          intro g gs
          simp [budgetOf]
        change budgetOf P (sc.1 :: b.2.1) ≤ _
        rw [e1, e1, List.length_cons]
        have := gradeOf_le c3
        omega

theorem sumOutUtils_has (he : Embeds φ D) (h : Graded P) {R : List Var} : ∀ (us : List Var) (f : Factor γ) (vs : Vs)
    (el : List Bool) (k : Nat) (r : Factor γ × Vs × List Bool), f.WF → (∀ v ∈ f.vars, v ∈ R) → f.Has P k →
    sumOutUtils us f vs el = .ok r →
    r.1.WF ∧ (∀ v ∈ r.1.vars, v ∈ R) ∧ r.1.Has P (k + (us.map (fun v => elimCost R v.id)).sum) ∧
      r.2.1.variables = vs.variables := by
  intro us
  induction us with
  | nil => intro f vs el k r h1 h2 h3 hr; cases hr; exact ⟨h1, h2, by simpa using h3, rfl⟩
  | cons v us ih =>
    intro f vs el k r h1 h2 h3 hr
    rw [sumOutUtils] at hr
    obtain ⟨a, ha, hr⟩ := ok_inv hr
    obtain ⟨el', _, hr⟩ := ok_inv hr
    obtain ⟨w, hw, hid, a1, a2, a3⟩ := sumOut_shape he h1 ha
    have a4 := sumOut_has h vs h1 v hw hid h3 ha
    have a5 : ∀ x ∈ a.1.vars, x ∈ R := by
      intro x hx
      rw [a2, mem_otherVars] at hx
      exact h2 x hx.1
    obtain ⟨b1, b2, b3, b4⟩ := ih a.1 a.2 el' _ r a1 a5 a4 hr
    refine ⟨b1, b2, b3.mono h ?_, b4.trans a3⟩
    have := le_elimCost (h2 w hw)
    rw [hid] at this
    rw [List.map_cons, List.sum_cons]
    omega

theorem sumUtilities_has (he : Embeds φ D) (h : Graded P) {R : List Var} (hR : (R.map Var.id).Nodup) (sch : Sched γ)
    {st st' : VE γ} (hv : st.vs.variables = R) (hw : ∀ ws, st.weights = some ws → ∀ x ∈ ws, P 0 x)
    (h1 : AllHave P R st.factors) (hr : st.sumUtilities sch = .ok st') :
    AllHave P R st'.factors ∧ budgetOf P st'.factors ≤ budgetOf P st.factors + 2 * st.factors.length + 1 +
        ((R.filter (fun w => w.nodeType = .utility)).map (fun v => elimCost R v.id)).sum ∧
      st'.vs.variables = st.vs.variables := by
  unfold VE.sumUtilities at hr
  dsimp only at hr
  rw [hv] at hr
  set utils := R.filter (fun w => w.nodeType = .utility) with hutils
  split_ifs at hr with h0
  · cases hr
    exact ⟨h1, by omega, rfl⟩
  · obtain ⟨a, ha, hr⟩ := ok_inv hr
    obtain ⟨b, hb, hr⟩ := ok_inv hr
    obtain ⟨c, hc, hr⟩ := ok_inv hr
    cases hr
    have hit : (st.iter sch).Perm st.factors := sch.fac_perm _ _
    obtain ⟨a1, a2, a3, a4⟩ := collectUtils_has he h hR hw _ _ a (h1.sublist (fun f hf => hit.subset hf)) ha
    obtain ⟨b1, b2, b3⟩ := sum_shape he hR a2.wf a2.sub hb
    have b4 : b.1.Has P (budgetOf P a.2.1) := sum_has h (gradeOf P) (fun f hf => gradeOf_has (a2.has f hf)) hb
    obtain ⟨c1, c2, c3, c4⟩ := sumOutUtils_has he h utils b.1 b.2 _ _ c b1 b2 b4 hc
    refine ⟨?_, ?_, c4.trans (b3.trans a4)⟩
    · refine h1.insert (fun f hf => ?_) c1 c2 c3
      rcases mem_insertFactor hf with hf | hf
      · rw [deleteAll_eq] at hf
        exact .inl (List.mem_filter.1 hf).1
      · exact .inr hf
    · refine (budgetOf_insert _ _).trans ?_
      have e1 : budgetOf P (deleteAll st.factors a.1) ≤ budgetOf P (st.factors.filter (fun f => !isUtil utils f)) := by
        rw [deleteAll_eq, a1]
        have e0 : st.factors.filter (fun f => decide (f.id ∉ ((st.iter sch).filter (isUtil utils)).map Factor.id)) =
            (st.factors.filter (fun f => !isUtil utils f)).filter
              (fun f => decide (f.id ∉ ((st.iter sch).filter (isUtil utils)).map Factor.id)) := by
          rw [List.filter_filter]
          apply List.filter_congr
          intro f hf
          cases hpf : isUtil utils f with
          | false => simp
          | true =>
            have : f.id ∈ ((st.iter sch).filter (isUtil utils)).map Factor.id :=
              List.mem_map_of_mem (List.mem_filter.2 ⟨hit.symm.subset hf, hpf⟩)
            simp only [this, not_true, decide_false, Bool.false_and]
        rw [e0]
        exact budgetOf_sublist List.filter_sublist
      have e2 : budgetOf P ((st.iter sch).filter (isUtil utils)) = budgetOf P (st.factors.filter (isUtil utils)) :=
        budgetOf_perm (hit.filter _)
      have e3 := budgetOf_split (P := P) st.factors (isUtil utils)
      have e4 := gradeOf_le c3
      have e5 : ((st.iter sch).filter (isUtil utils)).length ≤ st.factors.length :=
        (List.length_filter_le _ _).trans hit.length_eq.le
      omega

/-! ## Elimination -/

theorem removeHidden_has (he : Embeds φ D) (h : Graded P) {R : List Var} (hR : (R.map Var.id).Nodup) (sch : Sched γ)
    {st st' : VE γ} (v : Var) (h1 : AllHave P R st.factors) (hr : st.removeHidden sch v = .ok st') :
    AllHave P R st'.factors ∧ budgetOf P st'.factors ≤ budgetOf P st.factors + elimCost R v.id ∧
      st'.vs.variables = st.vs.variables := by
  unfold VE.removeHidden at hr
  set p : Factor γ → Bool := fun f => f.vars.any (fun w => w.id = v.id) with hp
  obtain ⟨a, ha, hr⟩ := ok_inv hr
  obtain ⟨b, hb, hr⟩ := ok_inv hr
  obtain ⟨el, _, hr⟩ := ok_inv hr
  cases hr
  have hit : (st.iter sch).Perm st.factors := sch.fac_perm _ _
  have hsub : ∀ f ∈ (st.iter sch).filter p, f ∈ st.factors := fun f hf => hit.subset (List.mem_filter.1 hf).1
  obtain ⟨a1, a2, a3⟩ := product_shape he hR (fun f hf => h1.wf f (hsub f hf)) (fun f hf => h1.sub f (hsub f hf)) ha
  have n1 := product_has h (gradeOf P) (fun f hf => gradeOf_has (h1.has f (hsub f hf))) ha
  obtain ⟨w, hw, hid, b1, b2, b3⟩ := sumOut_shape he a1 hb
  have m1 := sumOut_has h a.2 a1 v hw hid n1 hb
  refine ⟨?_, ?_, b3.trans a3⟩
  · refine h1.insert (fun g hg => ?_) b1 (fun x hx => ?_) m1
    · rcases mem_insertFactor hg with hg | hg
      · rw [deleteAll_eq] at hg
        exact .inl (List.mem_filter.1 hg).1
      · exact .inr hg
    · rw [b2, mem_otherVars] at hx
      exact a2 x hx.1
  · refine (budgetOf_insert _ _).trans ?_
    have e1 : budgetOf P (deleteAll st.factors (((st.iter sch).filter p).map Factor.id)) ≤
        budgetOf P (st.factors.filter (fun f => !p f)) := by
      rw [deleteAll_eq]
      have e0 : st.factors.filter (fun f => decide (f.id ∉ ((st.iter sch).filter p).map Factor.id)) =
          (st.factors.filter (fun f => !p f)).filter
            (fun f => decide (f.id ∉ ((st.iter sch).filter p).map Factor.id)) := by
        rw [List.filter_filter]
        apply List.filter_congr
        intro f hf
        cases hpf : p f with
        | false => simp
        | true =>
          have : f.id ∈ ((st.iter sch).filter p).map Factor.id :=
            List.mem_map_of_mem (List.mem_filter.2 ⟨hit.symm.subset hf, hpf⟩)
          simp only [this, not_true, decide_false, Bool.false_and]
      rw [e0]
      exact budgetOf_sublist List.filter_sublist
    have e2 : budgetOf P ((st.iter sch).filter p) = budgetOf P (st.factors.filter p) := budgetOf_perm (hit.filter p)
    have e3 := budgetOf_split (P := P) st.factors p
    have e4 := gradeOf_le m1
    have e5 := le_elimCost (a2 w hw)
    rw [hid] at e5
    have e6 : (((st.iter sch).filter p).map (fun f => gradeOf P f + 1)).sum = budgetOf P ((st.iter sch).filter p) := rfl
    omega

theorem removeAll_has (he : Embeds φ D) (h : Graded P) {R : List Var} (hR : (R.map Var.id).Nodup) (sch : Sched γ) :
    ∀ (ps : List (Var × Nat)) (st st' : VE γ), AllHave P R st.factors →
    ps.foldlM (fun st p => st.removeHidden sch p.1) st = .ok st' →
    AllHave P R st'.factors ∧ st'.vs.variables = st.vs.variables ∧
      budgetOf P st'.factors ≤ budgetOf P st.factors + (ps.map (fun p => elimCost R p.1.id)).sum := by
  intro ps
  induction ps with
  | nil => intro st st' h1 hr; cases hr; exact ⟨h1, rfl, by simp⟩
  | cons p ps ih =>
    intro st st' h1 hr
    rw [List.foldlM_cons] at hr
    obtain ⟨st1, hs1, hr⟩ := ok_inv hr
    obtain ⟨a1, a2, a3⟩ := removeHidden_has he h hR sch p.1 h1 hs1
    obtain ⟨b1, b2, b3⟩ := ih st1 st' a1 hr
    refine ⟨b1, b2.trans a3, ?_⟩
    rw [List.map_cons, List.sum_cons]
    omega

/-- Hidden variables are different chance variables. -/
theorem hiddenVars_sub {vars : List Var} {el par : List Bool} {ev : List Evid} {q l : List Var}
    (h : hiddenVars vars el par ev q = .ok l) : (l.map Var.id).Nodup ∧ ∀ v ∈ l, v ∈ vars ∧ v.nodeType = .chance := by
  unfold hiddenVars at h
  obtain ⟨hid, h1, h⟩ := ok_inv h
  have main : ∀ (zs : List (Var × Nat)) (acc r : List Var), (∀ p ∈ zs, p.1 ∈ vars) → (acc.map Var.id).Nodup →
      (∀ v ∈ acc, v ∈ vars ∧ v.nodeType = .chance) →
      zs.foldlM (fun h (p : Var × Nat) => do
        if p.1.nodeType ≠ .chance then return h
        else
          let e ← goGet el p.2
          if e then return h
          else
            let par ← goGet par p.1.index
            if par then return h else return insertHidden h p.1) acc = Except.ok (ε := Fault) r →
      (r.map Var.id).Nodup ∧ ∀ v ∈ r, v ∈ vars ∧ v.nodeType = .chance := by
    intro zs
    induction zs with
    | nil => intro acc r _ a1 a2 hr; cases hr; exact ⟨a1, a2⟩
    | cons z zs ih =>
      intro acc r hz a1 a2 hr
      rw [List.foldlM_cons] at hr
      obtain ⟨acc', h1, hr⟩ := ok_inv hr
      have hz' : ∀ p ∈ zs, p.1 ∈ vars := fun p hp => hz p (List.mem_cons_of_mem _ hp)
      by_cases hc : z.1.nodeType ≠ .chance
      · rw [if_pos hc] at h1
        cases h1
        exact ih _ _ hz' a1 a2 hr
      · rw [if_neg hc] at h1
        obtain ⟨e, _, h1⟩ := ok_inv h1
        split_ifs at h1
        · cases h1
          exact ih _ _ hz' a1 a2 hr
        · obtain ⟨e, _, h1⟩ := ok_inv h1
          split_ifs at h1
          · cases h1
            exact ih _ _ hz' a1 a2 hr
          · cases h1
            refine ih _ _ hz' ?_ ?_ hr
            · unfold insertHidden
              rw [List.map_append, List.map_singleton, List.nodup_append]
              refine ⟨a1.sublist (List.filter_sublist.map _), by simp, ?_⟩
              intro x hx y hy e
              obtain ⟨w, hw, rfl⟩ := List.mem_map.1 hx
              rw [List.mem_singleton.1 hy] at e
              have := (List.mem_filter.1 hw).2
              simp [e] at this
            · intro v hv
              unfold insertHidden at hv
              rcases List.mem_append.1 hv with hv | hv
              · exact a2 v (List.mem_filter.1 hv).1
              · rw [List.mem_singleton.1 hv]
                exact ⟨hz z List.mem_cons_self, by simpa using hc⟩
  obtain ⟨m1, m2⟩ := main _ [] hid (fun p hp => by
    have := List.mem_zipIdx hp
    obtain ⟨_, _, e⟩ := this
    rw [e]
    exact List.getElem_mem _) (by simp) (by simp) h1
  cases h
  refine ⟨?_, fun v hv => m2 v (List.mem_filter.1 (List.mem_filter.1 hv).1).1⟩
  exact m1.sublist ((List.filter_sublist.trans List.filter_sublist).map _)

/-- What it costs to eliminate different variables. -/
theorem elimCost_sum {R : List Var} (hR : (R.map Var.id).Nodup) {l : List Var} (hl : l.Nodup) (hs : ∀ v ∈ l, v ∈ R) :
    (l.map (fun v => elimCost R v.id)).sum ≤ (R.map (fun w => w.outcomes + 1)).sum := by
  have h2 : ∀ w ∈ R, elimCost R w.id = w.outcomes + 1 := by
    intro w hw
    have : R.filter (fun x => x.id = w.id) = [w] := by
      apply List.perm_singleton.1
      refine (List.perm_ext_iff_of_nodup ((List.Nodup.of_map _ hR).filter _) (List.nodup_singleton w)).2 ?_
      intro x
      rw [List.mem_filter, List.mem_singleton, decide_eq_true_eq]
      constructor
      · rintro ⟨hx, e⟩
        exact List.inj_on_of_nodup_map hR hx hw e
      · rintro rfl
        exact ⟨hw, rfl⟩
    unfold elimCost
    rw [this]
    simp
  rw [List.map_congr_left (g := fun w => w.outcomes + 1) (fun v hv => h2 v (hs v hv))]
  obtain ⟨m, hm, hsub⟩ := hl.subperm hs
  rw [← (hm.map _).sum_eq]
  exact (hsub.map _).sum_le_sum (fun _ _ => Nat.zero_le _)

theorem eliminateHidden_has (he : Embeds φ D) (h : Graded P) {R : List Var} (hR : (R.map Var.id).Nodup) (sch : Sched γ)
    {st st' : VE γ} (hv : st.vs.variables = R) {es : List Evid} {q : List Var} (h1 : AllHave P R st.factors)
    {single : Bool} (hr : st.eliminateHidden sch es q single = .ok st') :
    AllHave P R st'.factors ∧ st'.vs.variables = st.vs.variables ∧ ∃ hid : List Var, hid.Nodup ∧
      (∀ v ∈ hid, v ∈ R ∧ v.nodeType = .chance) ∧
      budgetOf P st'.factors ≤ budgetOf P st.factors + (hid.map (fun v => elimCost R v.id)).sum := by
  unfold VE.eliminateHidden at hr
  obtain ⟨d, _, hr⟩ := ok_inv hr
  obtain ⟨hid, hh, hr⟩ := ok_inv hr
  dsimp only at hr
  obtain ⟨c1, c2, c3⟩ := removeAll_has he h hR sch _ { st with tick := d.2 + 1 + hid.length } st' h1 hr
  obtain ⟨d1, d2⟩ := hiddenVars_sub hh
  refine ⟨c1, c2, hid, List.Nodup.of_map _ d1, fun v hv' => hv ▸ d2 v hv', c3.trans (Nat.add_le_add_left (le_of_eq ?_) _)⟩
  have hp : (stableSort (fun a b => a.2 ≤ b.2) (stableSort (fun a b => a.1.id ≤ b.1.id)
      (degrees sch st.factors (d.2 + 1) (sch.var d.2 hid)))).Perm (degrees sch st.factors (d.2 + 1) (sch.var d.2 hid)) :=
    (stableSort_perm _ _).trans (stableSort_perm _ _)
  rw [(hp.map _).sum_eq, degrees_eq, List.map_map]
  exact ((sch.var_perm _ _).map _).sum_eq

/-- The grade of the result of `solve` with utilities. -/
theorem solveUtility_has (he : Embeds φ D) (h : Graded P) {R : List Var} (hR : (R.map Var.id).Nodup) (sch : Sched γ)
    {st st' : VE γ} {f : Factor γ} (hv : st.vs.variables = R) (hw : ∀ ws, st.weights = some ws → ∀ x ∈ ws, P 0 x)
    (es : List Evid) (q : List Var) (uv : Option Var) (h1 : AllHave P R st.factors)
    (hr : st.solve sch es q true uv = .ok (f, st')) :
    f.WF ∧ f.Has P (budgetOf P st.factors + 2 * st.factors.length + 1 + (R.map (fun w => w.outcomes + 1)).sum) := by
  unfold VE.solve at hr
  obtain ⟨st1, e1, hr⟩ := ok_inv hr
  obtain ⟨a1, a2, a3, a4, a5⟩ := eliminateEvidence_has h sch es st st1 h1 e1
  have hR1 : (R.Nodup) := List.Nodup.of_map _ hR
  have key : ∃ st2 : VE γ, (st2.eliminateHidden sch es q false >>= fun st => st.multiplyAll sch) = .ok (f, st') ∧
      ∃ us : List Var, us.Nodup ∧ (∀ v ∈ us, v ∈ R ∧ v.nodeType = .utility) ∧ AllHave P R st2.factors ∧
      st2.vs.variables = R ∧ budgetOf P st2.factors ≤ budgetOf P st1.factors + 2 * st1.factors.length + 1 +
        (us.map (fun v => elimCost R v.id)).sum := by
    rw [if_pos rfl] at hr
    cases uv with
    | none =>
      obtain ⟨st2, e2, hr⟩ := ok_inv hr
      obtain ⟨b1, b2, b3⟩ := sumUtilities_has he h hR sch (a4.trans hv) (by rw [a5]; exact hw) a1 e2
      exact ⟨st2, hr, _, hR1.filter _, fun v hv => by
        have := List.mem_filter.1 hv
        exact ⟨this.1, by simpa using this.2⟩, b1, b3.trans (a4.trans hv), b2⟩
    | some v =>
      obtain ⟨b1, b2, b3⟩ := removeUtilities_has sch (some v) a1
      exact ⟨_, hr, [], by simp, by simp, b1, by rw [b3]; exact a4.trans hv, by simp; omega⟩
  clear hr
  obtain ⟨st2, hr, us, u1, u2, u3, u4, u5⟩ := key
  obtain ⟨st3, e3, hr⟩ := ok_inv hr
  obtain ⟨c1, c2, hid, d1, d2, d3⟩ := eliminateHidden_has he h hR sch u4 u3 e3
  unfold VE.multiplyAll at hr
  obtain ⟨a, ha, hr⟩ := ok_inv hr
  cases hr
  have hit : (st3.iter sch).Perm st3.factors := sch.fac_perm _ _
  obtain ⟨p1, p2, p3⟩ := product_shape he hR (fun f hf => c1.wf f (hit.subset hf)) (fun f hf => c1.sub f (hit.subset hf)) ha
  have n1 := product_has h (gradeOf P) (fun f hf => gradeOf_has (c1.has f (hit.subset hf))) ha
  refine ⟨p1, n1.mono h ?_⟩
  have e6 : ((st3.iter sch).map (fun f => gradeOf P f + 1)).sum = budgetOf P st3.factors := budgetOf_perm hit
  have e7 := elimCost_sum hR (l := us ++ hid) (List.nodup_append.2 ⟨u1, d1, fun x hx y hy e => by
    have a := (u2 x hx).2
    rw [e, (d2 y hy).2] at a
    cases a⟩) (fun v hv => by
      rcases List.mem_append.1 hv with hv | hv
      · exact (u2 v hv).1
      · exact (d2 v hv).1)
  rw [List.map_append, List.sum_append] at e7
  rw [e6]
  omega

end Shape

end Bbn
