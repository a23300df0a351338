import Verif.Lemmas.Loop
import Mathlib.Algebra.BigOperators.Group.List.Basic
import Mathlib.Algebra.Ring.Defs
import Mathlib.Data.List.Nodup

/-!
# Lemmas on `Product` and `Sum`
-/

set_option autoImplicit false

namespace Bbn

variable {α : Type _}

theorem slicesIndex_some {β : Type _} [DecidableEq β] {x : β} {l : List β} {i : Nat}
    (h : slicesIndex x l = some i) : l[i]? = some x := by
  induction l generalizing i with
  | nil => simp [slicesIndex] at h
  | cons y ys ih =>
    unfold slicesIndex at h
    split at h
    · rename_i e; simp at h; subst h; simp [e]
    · rcases hi : slicesIndex x ys with _ | j
      · simp [hi] at h
      · simp [hi] at h; subst h; simpa using ih hi

theorem slicesIndex_none {β : Type _} [DecidableEq β] {x : β} {l : List β} :
    slicesIndex x l = none ↔ x ∉ l := by
  induction l with
  | nil => simp [slicesIndex]
  | cons y ys ih =>
    unfold slicesIndex
    split
    · rename_i e; simp [e]
    · rename_i e
      have : x ≠ y := fun h => e h.symm
      simp [ih, this]

theorem slicesIndex_mem {β : Type _} [DecidableEq β] {x : β} {l : List β} (h : x ∈ l) :
    ∃ i, slicesIndex x l = some i := by
  rcases hi : slicesIndex x l with _ | i
  · exact absurd h (slicesIndex_none.1 hi)
  · exact ⟨i, rfl⟩

/-- `m` maps the positions of `vars` to positions in `nv` that hold the same variable. -/
def PosMap (nv vars : List Var) (m : List Nat) : Prop :=
  List.Forall₂ (fun v i => nv[i]? = some v) vars m

theorem PosMap.mono {nv nv' vars : List Var} {m : List Nat} (h : PosMap nv vars m) (hp : nv <+: nv') :
    PosMap nv' vars m := by
  obtain ⟨t, rfl⟩ := hp
  refine List.Forall₂.imp (fun v i hv => ?_) h
  have := (List.getElem?_eq_some_iff.1 hv).1
  rw [List.getElem?_append_left this]; exact hv

theorem mergeVars_prefix (nv vars : List Var) : nv <+: (mergeVars nv vars).1 := by
  induction vars generalizing nv with
  | nil => exact List.prefix_rfl
  | cons v vs ih =>
    unfold mergeVars
    split
    · exact ih nv
    · exact (List.prefix_append nv [v]).trans (ih _)

theorem mergeVars_posMap (nv vars : List Var) : PosMap (mergeVars nv vars).1 vars (mergeVars nv vars).2 := by
  induction vars generalizing nv with
  | nil => exact List.Forall₂.nil
  | cons v vs ih =>
    unfold mergeVars
    split
    · rename_i i hi
      refine List.Forall₂.cons ?_ (ih nv)
      have := slicesIndex_some hi
      obtain ⟨t, ht⟩ := mergeVars_prefix nv vs
      rw [← ht, List.getElem?_append_left (List.getElem?_eq_some_iff.1 this).1]; exact this
    · refine List.Forall₂.cons ?_ (ih _)
      obtain ⟨t, ht⟩ := mergeVars_prefix (nv ++ [v]) vs
      rw [← ht, List.getElem?_append_left (by simp)]; simp

theorem mem_mergeVars {nv vars : List Var} {w : Var} : w ∈ (mergeVars nv vars).1 ↔ w ∈ nv ∨ w ∈ vars := by
  induction vars generalizing nv with
  | nil => simp [mergeVars]
  | cons v vs ih =>
    unfold mergeVars
    split
    · rename_i i hi
      have hv : v ∈ nv := List.mem_of_getElem? (slicesIndex_some hi)
      simp only [ih, List.mem_cons]
      constructor
      · rintro (h | h) <;> simp [h]
      · rintro (h | h | h)
        · exact .inl h
        · exact .inl (h ▸ hv)
        · exact .inr h
    · simp only [ih, List.mem_append, List.mem_cons, List.not_mem_nil, or_false, or_assoc]

theorem mergeVars_nodup {nv vars : List Var} (h : nv.Nodup) : (mergeVars nv vars).1.Nodup := by
  induction vars generalizing nv with
  | nil => simpa [mergeVars]
  | cons v vs ih =>
    unfold mergeVars
    split
    · exact ih h
    · rename_i hi
      refine ih ?_
      rw [List.nodup_append]
      exact ⟨h, by simp, by rintro a ha b hb rfl; simp at hb; subst hb; exact slicesIndex_none.1 hi ha⟩

theorem mergeVars_eraseDups (nv vars : List Var) :
    (mergeVars nv vars).1 = nv ++ (vars.filter (fun v => decide (v ∉ nv))).eraseDups := by
  induction vars generalizing nv with
  | nil => simp [mergeVars]
  | cons v vs ih =>
    unfold mergeVars
    split
    · rename_i i hi
      have hv : v ∈ nv := List.mem_of_getElem? (slicesIndex_some hi)
      simp [ih, hv]
    · rename_i hi
      have hv : v ∉ nv := slicesIndex_none.1 hi
      have hf : List.filter (fun w => decide (w ∉ nv ++ [v])) vs =
          List.filter (fun b => !b == v) (List.filter (fun w => decide (w ∉ nv)) vs) := by
        rw [List.filter_filter]
        apply List.filter_congr
        intro w _
        by_cases h1 : w ∈ nv <;> by_cases h2 : w = v <;> simp [h1, h2]
      simp only [ih, hf]
      rw [List.filter_cons_of_pos (by simpa using hv), List.eraseDups_cons]
      simp

theorem mergeAll_spec (nv : List Var) (vss : List (List Var)) :
    nv <+: (mergeAll nv vss).1 ∧ List.Forall₂ (fun vs m => PosMap (mergeAll nv vss).1 vs m) vss (mergeAll nv vss).2 ∧
      (∀ w, w ∈ (mergeAll nv vss).1 ↔ w ∈ nv ∨ ∃ vs ∈ vss, w ∈ vs) ∧ (nv.Nodup → (mergeAll nv vss).1.Nodup) := by
  induction vss generalizing nv with
  | nil => simp [mergeAll]
  | cons vs vss ih =>
    obtain ⟨h1, h2, h3, h4⟩ := ih (mergeVars nv vs).1
    simp only [mergeAll]
    refine ⟨(mergeVars_prefix nv vs).trans h1, List.Forall₂.cons ((mergeVars_posMap nv vs).mono h1) h2, ?_, ?_⟩
    · intro w
      rw [h3, mem_mergeVars]
      simp [or_assoc]
    · exact fun h => h4 (mergeVars_nodup h)

theorem mergeAll_eraseDups (nv : List Var) (vss : List (List Var)) :
    (mergeAll nv vss).1 = (mergeVars nv vss.flatten).1 := by
  induction vss generalizing nv with
  | nil => simp [mergeAll, mergeVars]
  | cons vs vss ih =>
    have key : ∀ (a b : List Var) (nv : List Var),
        (mergeVars nv (a ++ b)).1 = (mergeVars (mergeVars nv a).1 b).1 := by
      intro a b
      induction a with
      | nil => intro nv; simp [mergeVars]
      | cons v a iha =>
        intro nv
        simp only [List.cons_append]
        rw [mergeVars, mergeVars]
        split <;> simp [iha]
    simp only [mergeAll, List.flatten_cons, key, ih]

/-- The union of the scopes of factors in order of first appearance. -/
theorem mergeAll_union (vss : List (List Var)) : (mergeAll [] vss).1 = vss.flatten.eraseDups := by
  rw [mergeAll_eraseDups, mergeVars_eraseDups, List.filter_eq_self.2 (by simp), List.nil_append]

theorem mapM_goGet {nv vars : List Var} {m : List Nat} (h : PosMap nv vars m) (σ : Assignment) :
    m.mapM (fun i => goGet (tupleOf nv σ) i) = .ok (tupleOf vars σ) := by
  induction h with
  | nil => rfl
  | @cons v i vars m hv _ ih =>
    rw [List.mapM_cons, ih]
    have : goGet (tupleOf nv σ) i = .ok (σ v.id) := by
      rw [goGet_eq, tupleOf, List.getElem?_map, hv]; rfl
    rw [this]; rfl

section
variable [CommSemiring α]

theorem productCell_eq {nv : List Var} {σ : Assignment} (hσ : Fits σ nv) :
    ∀ (fs : List (Factor α)) (ms : List (List Nat)),
      (∀ f ∈ fs, f.data.length = size f.vars) → List.Forall₂ (fun vs m => PosMap nv vs m) (fs.map Factor.vars) ms →
      (∀ f ∈ fs, ∀ v ∈ f.vars, v ∈ nv) → ∀ acc,
      productCell (tupleOf nv σ) (fs.zip ms) acc = .ok (acc * (fs.map (fun f => f.val σ)).prod)
  | [], _, _, _, _, acc => by simp [productCell]
  | f :: fs, [], _, h, _, _ => by simp at h
  | f :: fs, m :: ms, hf, h, hv, acc => by
    rw [List.map_cons, List.forall₂_cons] at h
    have h1 := hf f (by simp)
    have h2 : Fits σ f.vars := hσ.mono (hv f (by simp))
    rw [List.zip_cons_cons, productCell, mapM_goGet h.1 σ, ok_bind, getN_tupleOf h1 h2, ok_bind,
      productCell_eq hσ fs ms (fun g hg => hf g (by simp [hg])) h.2 (fun g hg => hv g (by simp [hg]))]
    simp [mul_assoc]

theorem sumCell_eq {nv : List Var} {σ : Assignment} (hσ : Fits σ nv) :
    ∀ (fs : List (Factor α)) (ms : List (List Nat)),
      (∀ f ∈ fs, f.data.length = size f.vars) → List.Forall₂ (fun vs m => PosMap nv vs m) (fs.map Factor.vars) ms →
      (∀ f ∈ fs, ∀ v ∈ f.vars, v ∈ nv) → ∀ acc,
      sumCell (tupleOf nv σ) (fs.zip ms) acc = .ok (acc + (fs.map (fun f => f.val σ)).sum)
  | [], _, _, _, _, acc => by simp [sumCell]
  | f :: fs, [], _, h, _, _ => by simp at h
  | f :: fs, m :: ms, hf, h, hv, acc => by
    rw [List.map_cons, List.forall₂_cons] at h
    have h1 := hf f (by simp)
    have h2 : Fits σ f.vars := hσ.mono (hv f (by simp))
    rw [List.zip_cons_cons, sumCell, mapM_goGet h.1 σ, ok_bind, getN_tupleOf h1 h2, ok_bind,
      sumCell_eq hσ fs ms (fun g hg => hf g (by simp [hg])) h.2 (fun g hg => hv g (by simp [hg]))]
    simp [add_assoc]

end

theorem nodup_ids_of_coherent {vs : List Var} (h : vs.Nodup) (hc : Coherent vs) : (vs.map Var.id).Nodup := by
  rw [List.nodup_map_iff_inj_on h]
  exact fun v hv w hw e => hc v hv w hw e

theorem coherent_of_nodup {vs : List Var} (h : (vs.map Var.id).Nodup) : Coherent vs := by
  have hn : vs.Nodup := List.Nodup.of_map _ h
  exact fun v hv w hw e => (List.nodup_map_iff_inj_on hn).1 h v hv w hw e

/-- The scopes of the given factors use each ID for one variable only. -/
def CoherentFs (fs : List (Factor α)) : Prop := Coherent (fs.flatMap Factor.vars)

theorem eraseDups_single_scope {vs : List Var} (h : vs.Nodup) : vs.eraseDups = vs := by
  induction vs with
  | nil => rfl
  | cons v vs ih =>
    rw [List.nodup_cons] at h
    rw [List.eraseDups_cons]
    have : List.filter (fun b => !b == v) vs = vs := by
      rw [List.filter_eq_self]; intro w hw
      have : w ≠ v := fun e => h.1 (e ▸ hw)
      simp [this]
    rw [this, ih h.2]

/-- The union of the scopes of several factors, in order of first appearance. -/
def scopeUnion (fs : List (Factor α)) : List Var := (fs.flatMap Factor.vars).eraseDups

theorem mem_scopeUnion {fs : List (Factor α)} {v : Var} : v ∈ scopeUnion fs ↔ ∃ f ∈ fs, v ∈ f.vars := by
  simp [scopeUnion]

theorem mergeAll_scopeUnion (fs : List (Factor α)) : (mergeAll [] (fs.map Factor.vars)).1 = scopeUnion fs := by
  rw [mergeAll_union, scopeUnion, List.flatMap_def]

theorem scopeUnion_nodup_ids {fs : List (Factor α)} (hc : CoherentFs fs) : ((scopeUnion fs).map Var.id).Nodup := by
  apply nodup_ids_of_coherent
  · rw [← mergeAll_scopeUnion]; exact (mergeAll_spec [] _).2.2.2 List.nodup_nil
  · intro v hv w hw e
    obtain ⟨f, hf, hfv⟩ := mem_scopeUnion.1 hv
    obtain ⟨g, hg, hgw⟩ := mem_scopeUnion.1 hw
    exact hc v (List.mem_flatMap.2 ⟨f, hf, hfv⟩) w (List.mem_flatMap.2 ⟨g, hg, hgw⟩) e

theorem scopeUnion_single {f : Factor α} (hf : f.WF) : scopeUnion [f] = f.vars := by
  simp [scopeUnion, eraseDups_single_scope (List.Nodup.of_map _ hf.nodup)]

section
variable [CommSemiring α]

/-- A generic lemma for the multi-factor branch of `Product` and `Sum`. -/
theorem build_spec (s : Vs) (fs : List (Factor α)) (hc : CoherentFs fs)
    (cell : List Nat → List (Factor α × List Nat) → Except Fault α) (G : Assignment → α)
    (hG : ∀ σ τ, (∀ v ∈ scopeUnion fs, σ v.id = τ v.id) → G σ = G τ)
    (hcell : ∀ σ, Fits σ (scopeUnion fs) →
      cell (tupleOf (scopeUnion fs) σ) (fs.zip (mergeAll [] (fs.map Factor.vars)).2) = .ok (G σ)) :
    ∃ f : Factor α, (do
        let (newVars, maps) := mergeAll [] (fs.map Factor.vars)
        let (fNew, s) ← s.createFactor newVars (none : Option (List α))
        let d ← odoBuild newVars (fun new => cell new (fs.zip maps))
          fNew.data.length (List.replicate newVars.length 0)
        return ({ fNew with data := d }, s)) = .ok (f, { s with factorCounter := s.factorCounter + 1 }) ∧
      f.WF ∧ f.id = s.factorCounter ∧ f.vars = scopeUnion fs ∧
      ∀ σ, Fits σ f.vars → f.val σ = G σ := by
  have hn := scopeUnion_nodup_ids hc
  set maps := (mergeAll [] (fs.map Factor.vars)).2 with hmaps
  have e : mergeAll [] (fs.map Factor.vars) = (scopeUnion fs, maps) := by
    rw [← mergeAll_scopeUnion]
  have hcell' : ∀ t, InRange (scopeUnion fs) t →
      cell t (fs.zip maps) = .ok (G (assignOf (scopeUnion fs) t)) := by
    intro t ht
    have h1 := tupleOf_assignOf hn ht.length
    have h2 := hcell (assignOf (scopeUnion fs) t) (fits_of_inRange (by rw [h1]; exact ht))
    rwa [h1] at h2
  refine ⟨{ id := s.factorCounter, vars := scopeUnion fs,
            data := (List.range (size (scopeUnion fs))).map
              (fun j => G (assignOf (scopeUnion fs) (outcomesOf (scopeUnion fs) j))) }, ?_, ⟨?_, hn⟩, rfl, rfl, ?_⟩
  · rw [e]
    simp only [Vs.createFactor, ok_bind, List.length_replicate]
    rw [odoBuild_full (h := fun t => G (assignOf (scopeUnion fs) t)) hcell']
    rfl
  · simp
  · intro σ hσ
    have ht := tupleOf_inRange hσ
    simp only [Factor.val]
    rw [getD_odo (h := fun t => G (assignOf (scopeUnion fs) t)) ht]
    apply hG
    intro v hv
    have h1 := tupleOf_assignOf hn (t := tupleOf (scopeUnion fs) σ) (tupleOf_length _ _)
    have := List.map_inj_left.1 h1 v hv
    exact this

/-- `Product` is total on coherent well-formed factors and is the pointwise product. -/
theorem product_spec (s : Vs) (fs : List (Factor α)) (hwf : ∀ f ∈ fs, f.WF) (hc : CoherentFs fs) :
    ∃ f : Factor α, s.product fs = .ok (f, { s with factorCounter := s.factorCounter + 1 }) ∧
      f.WF ∧ f.id = s.factorCounter ∧ f.vars = scopeUnion fs ∧
      ∀ σ, Fits σ f.vars → f.val σ = (fs.map (fun g => g.val σ)).prod := by
  unfold Vs.product
  split
  · rename_i f
    have hf := hwf f (by simp)
    refine ⟨{ id := s.factorCounter, data := f.data, vars := f.vars }, ?_, ⟨hf.len, hf.nodup⟩, rfl, ?_, ?_⟩
    · simp [Vs.createFactor, hf.len]
    · exact (scopeUnion_single hf).symm
    · intro σ _; simp [Factor.val]
  · have := build_spec s fs hc (fun t ps => productCell t ps 1) (fun σ => (fs.map (fun g => g.val σ)).prod)
      (by
        intro σ τ h
        congr 1
        apply List.map_congr_left
        intro g hg
        apply g.val_congr
        intro v hv
        exact h v (mem_scopeUnion.2 ⟨g, hg, hv⟩))
      (by
        intro σ hσ
        rw [productCell_eq hσ fs _ (fun f hf => (hwf f hf).len)]
        · simp
        · rw [← mergeAll_scopeUnion]; exact (mergeAll_spec [] (fs.map Factor.vars)).2.1
        · intro f hf v hv; exact mem_scopeUnion.2 ⟨f, hf, hv⟩)
    exact this

/-- `Sum` is total on coherent well-formed factors and is the pointwise sum. -/
theorem sum_spec (s : Vs) (fs : List (Factor α)) (hwf : ∀ f ∈ fs, f.WF) (hc : CoherentFs fs) :
    ∃ f : Factor α, s.sum fs = .ok (f, { s with factorCounter := s.factorCounter + 1 }) ∧
      f.WF ∧ f.id = s.factorCounter ∧ f.vars = scopeUnion fs ∧
      ∀ σ, Fits σ f.vars → f.val σ = (fs.map (fun g => g.val σ)).sum := by
  unfold Vs.sum
  split
  · rename_i f
    have hf := hwf f (by simp)
    refine ⟨{ id := s.factorCounter, data := f.data, vars := f.vars }, ?_, ⟨hf.len, hf.nodup⟩, rfl, ?_, ?_⟩
    · simp [Vs.createFactor, hf.len]
    · exact (scopeUnion_single hf).symm
    · intro σ _; simp [Factor.val]
  · have := build_spec s fs hc (fun t ps => sumCell t ps 0) (fun σ => (fs.map (fun g => g.val σ)).sum)
      (by
        intro σ τ h
        congr 1
        apply List.map_congr_left
        intro g hg
        apply g.val_congr
        intro v hv
        exact h v (mem_scopeUnion.2 ⟨g, hg, hv⟩))
      (by
        intro σ hσ
        rw [sumCell_eq hσ fs _ (fun f hf => (hwf f hf).len)]
        · simp
        · rw [← mergeAll_scopeUnion]; exact (mergeAll_spec [] (fs.map Factor.vars)).2.1
        · intro f hf v hv; exact mem_scopeUnion.2 ⟨f, hf, hv⟩)
    exact this

end

end Bbn
