import Verif.Model.VE
import Verif.Spec.Degree
import Verif.Lemmas.Repeat
import Mathlib.Data.Multiset.Basic
import Mathlib.Data.Multiset.Lattice
import Mathlib.Data.Finset.Lattice.Basic
import Mathlib.Data.Finset.Dedup
import Mathlib.Algebra.BigOperators.Ring.Finset

/-!
# Single steps of variable elimination
-/

set_option autoImplicit false

namespace Bbn

open Finset

variable {α : Type}

/-- The product of all factors at an assignment. -/
def joint [CommSemiring α] (fs : List (Factor α)) (σ : Assignment) : α := (fs.map (fun f => f.val σ)).prod

/-- The assignment fits all variables of all factors. -/
def FitsFs (σ : Assignment) (fs : List (Factor α)) : Prop := ∀ f ∈ fs, Fits σ f.vars

/-- Invariant of the factor map: distinct keys below the counter, well-formed factors over the variables `R`. -/
structure Good (R : List Var) (c : Nat) (fs : List (Factor α)) : Prop where
  ids : (fs.map Factor.id).Nodup
  lt : ∀ f ∈ fs, f.id < c
  wf : ∀ f ∈ fs, f.WF
  sub : ∀ f ∈ fs, ∀ v ∈ f.vars, v ∈ R

theorem mem_scope {f : Factor α} {i : Nat} : i ∈ scope f ↔ ∃ v ∈ f.vars, v.id = i := by
  simp [scope]

theorem joint_perm [CommSemiring α] {fs gs : List (Factor α)} (h : fs.Perm gs) (σ : Assignment) :
    joint fs σ = joint gs σ := (h.map _).prod_eq

theorem joint_append [CommSemiring α] (fs gs : List (Factor α)) (σ : Assignment) :
    joint (fs ++ gs) σ = joint fs σ * joint gs σ := by simp [joint]

theorem joint_congr [CommSemiring α] {fs : List (Factor α)} {σ τ : Assignment}
    (h : ∀ f ∈ fs, ∀ v ∈ f.vars, σ v.id = τ v.id) : joint fs σ = joint fs τ := by
  unfold joint
  congr 1
  exact List.map_congr_left (fun f hf => f.val_congr (h f hf))

theorem FitsFs.perm {σ : Assignment} {fs gs : List (Factor α)} (h : FitsFs σ fs) (hp : fs.Perm gs) : FitsFs σ gs :=
  fun f hf => h f (hp.symm.subset hf)

theorem scopes_perm {fs gs : List (Factor α)} (h : fs.Perm gs) : scopes fs = scopes gs := by
  unfold scopes; exact Multiset.coe_eq_coe.2 (h.map _)

theorem Good.perm {R : List Var} {c : Nat} {fs gs : List (Factor α)} (h : Good R c fs) (hp : fs.Perm gs) :
    Good R c gs where
  ids := (hp.map _).nodup h.ids
  lt f hf := h.lt f (hp.symm.subset hf)
  wf f hf := h.wf f (hp.symm.subset hf)
  sub f hf := h.sub f (hp.symm.subset hf)

theorem Good.mono {R : List Var} {c c' : Nat} {fs gs : List (Factor α)} (h : Good R c fs) (hs : gs.Sublist fs)
    (hc : c ≤ c') : Good R c' gs where
  ids := (hs.map _).nodup h.ids
  lt f hf := lt_of_lt_of_le (h.lt f (hs.subset hf)) hc
  wf f hf := h.wf f (hs.subset hf)
  sub f hf := h.sub f (hs.subset hf)

theorem Good.append {R : List Var} {c c' : Nat} {fs : List (Factor α)} {g : Factor α} (h : Good R c fs) (hg : g.WF)
    (hs : ∀ v ∈ g.vars, v ∈ R) (h1 : c ≤ g.id) (h2 : g.id < c') : Good R c' (fs ++ [g]) where
  ids := by
    rw [List.map_append, List.nodup_append]
    refine ⟨h.ids, by simp, ?_⟩
    intro a ha b hb
    obtain ⟨f, hf, rfl⟩ := List.mem_map.1 ha
    simp at hb
    have := h.lt f hf
    omega
  lt f hf := by
    rcases List.mem_append.1 hf with hf | hf
    · have := h.lt f hf; omega
    · simp at hf; subst hf; exact h2
  wf f hf := by
    rcases List.mem_append.1 hf with hf | hf
    · exact h.wf f hf
    · simp at hf; subst hf; exact hg
  sub f hf := by
    rcases List.mem_append.1 hf with hf | hf
    · exact h.sub f hf
    · simp at hf; subst hf; exact hs

theorem coherentFs_of_sub {R : List Var} (hR : (R.map Var.id).Nodup) {fs : List (Factor α)}
    (h : ∀ f ∈ fs, ∀ v ∈ f.vars, v ∈ R) : CoherentFs fs := by
  intro v hv w hw e
  obtain ⟨f, hf, hv⟩ := List.mem_flatMap.1 hv
  obtain ⟨g, hg, hw⟩ := List.mem_flatMap.1 hw
  exact coherent_of_nodup hR v (h f hf v hv) w (h g hg w hw) e

theorem insertFactor_fresh {c : Nat} {fs : List (Factor α)} {g : Factor α} (h : ∀ f ∈ fs, f.id < c) (hg : c ≤ g.id) :
    insertFactor fs g = fs ++ [g] := by
  unfold insertFactor
  rw [List.filter_eq_self.2]
  intro f hf
  have := h f hf
  simp only [decide_eq_true_eq]; omega

theorem deleteAll_eq (fs : List (Factor α)) (ids : List Nat) :
    deleteAll fs ids = fs.filter (fun f => f.id ∉ ids) := by
  unfold deleteAll
  induction ids generalizing fs with
  | nil => simp
  | cons i is ih =>
    rw [List.foldl_cons, ih, deleteFactor, List.filter_filter]
    apply List.filter_congr
    intro f _
    simp only [List.mem_cons, not_or, Bool.decide_and]
    rw [Bool.and_comm]

/-- Deleting the keys of the factors that satisfy `p` leaves the others. -/
theorem deleteAll_filter {fs gs : List (Factor α)} (hn : (fs.map Factor.id).Nodup) (hp : gs.Perm fs)
    (p : Factor α → Bool) :
    deleteAll fs ((gs.filter p).map Factor.id) = fs.filter (fun f => !p f) := by
  rw [deleteAll_eq]
  apply List.filter_congr
  intro f hf
  have : f.id ∈ (gs.filter p).map Factor.id ↔ p f = true := by
    constructor
    · intro h
      obtain ⟨g, hg, e⟩ := List.mem_map.1 h
      obtain ⟨hg1, hg2⟩ := List.mem_filter.1 hg
      have := List.inj_on_of_nodup_map hn (hp.subset hg1) hf e
      rwa [this] at hg2
    · intro h
      exact List.mem_map_of_mem (List.mem_filter.2 ⟨hp.symm.subset hf, h⟩)
  by_cases hpf : p f <;> simp [this, hpf]

theorem lookupFactor_mem {fs : List (Factor α)} (hn : (fs.map Factor.id).Nodup) {f : Factor α} (hf : f ∈ fs) :
    lookupFactor fs f.id = .ok f := by
  unfold lookupFactor
  cases h : fs.find? (fun g => g.id = f.id) with
  | none =>
    have := List.find?_eq_none.1 h f hf
    simp at this
  | some g =>
    have h1 := List.mem_of_find?_eq_some h
    have h2 := List.find?_some h
    simp only [decide_eq_true_eq] at h2
    rw [List.inj_on_of_nodup_map hn h1 hf h2]

theorem filter_perm_split {fs : List (Factor α)} (p : Factor α → Bool) :
    fs.Perm (fs.filter p ++ fs.filter (fun f => !p f)) := (List.filter_append_perm p fs).symm

/-- How a restricted factor relates to the original. -/
structure IsRestr [Zero α] (i k : Nat) (c r : Factor α) : Prop where
  wf : r.WF
  vars : r.vars = otherVars i c.vars
  val : ∀ σ, Fits σ r.vars → r.val σ = c.val (σ.upd i k)

theorem restrictIds_spec [Zero α] {R : List Var} {v : Var} {k : Nat} (hk : k < v.outcomes)
    (cs : List (Factor α)) :
    ∀ (rest : List (Factor α)) (st : VE α), st.factors.Perm (cs ++ rest) → Good R st.vs.factorCounter st.factors →
      (∀ c ∈ cs, v ∈ c.vars) →
      ∃ n rs fs', restrictIds ⟨v, k⟩ (cs.map Factor.id) st =
          .ok { st with vs := { st.vs with factorCounter := n }, factors := fs' } ∧
        fs'.Perm (rest ++ rs) ∧ List.Forall₂ (IsRestr v.id k) cs rs ∧ Good R n fs' := by
  induction cs with
  | nil =>
    intro rest st hp hg _
    exact ⟨st.vs.factorCounter, [], st.factors, rfl, by simpa using hp, .nil, hg⟩
  | cons c cs ih =>
    intro rest st hp hg hv
    have hc : c ∈ st.factors := hp.symm.subset (by simp)
    have hvc : v ∈ c.vars := hv c (by simp)
    obtain ⟨r, h1, h2, h3, h4, h5⟩ := restrict_spec st.vs c (hg.wf c hc) v hvc k hk
    have hdel : deleteFactor st.factors c.id = st.factors.filter (fun g => g.id ≠ c.id) := rfl
    have hdelp : (deleteFactor st.factors c.id).Perm (cs ++ rest) := by
      rw [hdel]
      have hnd : ((c :: (cs ++ rest)).map Factor.id).Nodup := (hp.map _).nodup hg.ids
      refine (hp.filter _).trans ?_
      rw [List.cons_append, List.filter_cons_of_neg (by simp), List.filter_eq_self.2]
      intro g hgm
      simp only [List.map_cons, List.nodup_cons] at hnd
      simp only [decide_eq_true_eq]
      intro e
      exact hnd.1 (e ▸ List.mem_map_of_mem hgm)
    have hgd : Good R st.vs.factorCounter (deleteFactor st.factors c.id) :=
      hg.mono (by rw [hdel]; exact List.filter_sublist) le_rfl
    have hins : insertFactor (deleteFactor st.factors c.id) r = deleteFactor st.factors c.id ++ [r] :=
      insertFactor_fresh hgd.lt (by omega)
    have hgr : Good R (st.vs.factorCounter + 1) (deleteFactor st.factors c.id ++ [r]) :=
      hgd.append h2 (fun w hw => hg.sub c hc w (mem_otherVars.1 (h4 ▸ hw)).1) (by omega) (by omega)
    obtain ⟨n, rs, fs', k1, k2, k3, k4⟩ := ih (rest ++ [r])
      { st with vs := { st.vs with factorCounter := st.vs.factorCounter + 1 },
                factors := deleteFactor st.factors c.id ++ [r] }
      (by rw [← List.append_assoc]; exact hdelp.append_right _) hgr (fun c' hc' => hv c' (by simp [hc']))
    refine ⟨n, r :: rs, fs', ?_, ?_, .cons ⟨h2, h4, h5⟩ k3, k4⟩
    · rw [List.map_cons, restrictIds, lookupFactor_mem hg.ids hc, ok_bind, h1, ok_bind]
      simp only [hins]
      exact k1
    · simpa using k2

theorem joint_forall₂_restr [CommSemiring α] {i k : Nat} {cs rs : List (Factor α)}
    (h : List.Forall₂ (IsRestr i k) cs rs) {σ : Assignment} (hσ : FitsFs σ rs) :
    joint rs σ = joint cs (σ.upd i k) := by
  induction h with
  | nil => rfl
  | @cons c r cs rs hcr _ ih =>
    have := ih (fun f hf => hσ f (by simp [hf]))
    simp only [joint, List.map_cons, List.prod_cons] at this ⊢
    rw [this, hcr.val σ (hσ r (by simp))]

theorem scope_otherVars {c r : Factor α} {i : Nat} (h : r.vars = otherVars i c.vars) : scope r = (scope c).erase i := by
  ext j
  simp only [mem_scope, h, mem_otherVars, Finset.mem_erase]
  constructor
  · rintro ⟨v, ⟨h1, h2⟩, rfl⟩; exact ⟨h2, v, h1, rfl⟩
  · rintro ⟨h1, v, h2, rfl⟩; exact ⟨v, ⟨h2, h1⟩, rfl⟩

theorem scopes_forall₂_restr [Zero α] {i k : Nat} {cs rs : List (Factor α)} (h : List.Forall₂ (IsRestr i k) cs rs) :
    scopes rs = (scopes cs).map (fun s => s.erase i) := by
  induction h with
  | nil => rfl
  | @cons c r cs rs hcr _ ih =>
    simp only [scopes, List.map_cons] at ih ⊢
    rw [← Multiset.cons_coe, ← Multiset.cons_coe, Multiset.map_cons, ih, scope_otherVars hcr.vars]

/-- `restrictEvidence` plugs the observation into all factors. -/
theorem restrictEvidence_spec [CommSemiring α] {R : List Var} (hR : (R.map Var.id).Nodup) (sch : Sched α) (st : VE α)
    {v : Var} {k : Nat} (hv : v ∈ R) (hk : k < v.outcomes) (hg : Good R st.vs.factorCounter st.factors) :
    ∃ n fs', st.restrictEvidence sch ⟨v, k⟩ =
        .ok { st with vs := { st.vs with factorCounter := n }, factors := fs', tick := st.tick + 1 } ∧
      Good R n fs' ∧ scopes fs' = (scopes st.factors).map (fun s => s.erase v.id) ∧
      ∀ σ, FitsFs σ fs' → joint fs' σ = joint st.factors (σ.upd v.id k) := by
  set p : Factor α → Bool := fun f => decide (v ∈ f.vars) with hp
  have hit : (st.iter sch).Perm st.factors := sch.fac_perm _ _
  obtain ⟨n, rs, fs', h1, h2, h3, h4⟩ := restrictIds_spec (R := R) hk ((st.iter sch).filter p)
    (st.factors.filter (fun f => !p f)) { st with tick := st.tick + 1 }
    ((filter_perm_split p).trans ((hit.symm.filter p).append_right _)) hg
    (fun c hc => by simpa [hp] using (List.mem_filter.1 hc).2)
  have hno : ∀ f ∈ st.factors.filter (fun f => !p f), v.id ∉ scope f := by
    intro f hf hin
    obtain ⟨w, hw, e⟩ := mem_scope.1 hin
    obtain ⟨hf1, hf2⟩ := List.mem_filter.1 hf
    have : w = v := coherent_of_nodup hR w (hg.sub f hf1 w hw) v hv e
    subst this
    simp [hp, hw] at hf2
  refine ⟨n, fs', h1, h4, ?_, ?_⟩
  · rw [scopes_perm h2, scopes_perm ((filter_perm_split p).trans ((hit.symm.filter p).append_right _))]
    have e1 := scopes_forall₂_restr h3
    have e2 : (scopes (st.factors.filter (fun f => !p f))).map (fun s => s.erase v.id) =
        scopes (st.factors.filter (fun f => !p f)) := by
      unfold scopes
      rw [Multiset.map_coe, List.map_map]
      congr 1
      apply List.map_congr_left
      intro f hf
      exact Finset.erase_eq_of_notMem (hno f hf)
    have app : ∀ a b : List (Factor α), scopes (a ++ b) = scopes a + scopes b := by
      intro a b; simp [scopes]
    rw [app, app, Multiset.map_add, e1, e2, add_comm]
  · intro σ hσ
    have hσ2 := hσ.perm h2
    rw [joint_perm h2, joint_append, joint_perm ((filter_perm_split p).trans ((hit.symm.filter p).append_right _)),
      joint_append, joint_forall₂_restr h3 (fun f hf => hσ2 f (by simp [hf])), mul_comm]
    congr 1
    apply joint_congr
    intro f hf w hw
    have : w.id ≠ v.id := fun e => hno f hf (mem_scope.2 ⟨w, hw, e⟩)
    simp [Assignment.upd, this]

/-- The union of the scopes that contain `i`, without `i`. -/
def mergedScope (i : Nat) (S : Multiset (Finset Nat)) : Finset Nat := ((S.filter (fun s => i ∈ s)).sup).erase i

/-- The scopes after eliminating the variable `i`. -/
def elimScopes (i : Nat) (S : Multiset (Finset Nat)) : Multiset (Finset Nat) :=
  S.filter (fun s => i ∉ s) + {mergedScope i S}

theorem mem_sup {S : Multiset (Finset Nat)} {j : Nat} : j ∈ S.sup ↔ ∃ s ∈ S, j ∈ s := by
  induction S using Multiset.induction with
  | empty => simp
  | cons a S ih => simp [ih]

theorem mem_scopes_sup {fs : List (Factor α)} {j : Nat} : j ∈ (scopes fs).sup ↔ ∃ f ∈ fs, j ∈ scope f := by
  rw [mem_sup]; simp [scopes]

theorem mem_elimScopes_sup {i j : Nat} {S : Multiset (Finset Nat)} : j ∈ (elimScopes i S).sup ↔ j ∈ S.sup ∧ j ≠ i := by
  unfold elimScopes mergedScope
  simp only [mem_sup, Multiset.mem_add, Multiset.mem_filter, Multiset.mem_singleton]
  constructor
  · rintro ⟨s, (⟨h1, h2⟩ | rfl), h3⟩
    · exact ⟨⟨s, h1, h3⟩, fun e => h2 (e ▸ h3)⟩
    · obtain ⟨h4, h5⟩ := Finset.mem_erase.1 h3
      obtain ⟨t, ht, h6⟩ := mem_sup.1 h5
      exact ⟨⟨t, (Multiset.mem_filter.1 ht).1, h6⟩, h4⟩
  · rintro ⟨⟨s, h1, h2⟩, h3⟩
    by_cases hi : i ∈ s
    · exact ⟨_, .inr rfl, Finset.mem_erase.2 ⟨h3, mem_sup.2 ⟨s, Multiset.mem_filter.2 ⟨h1, hi⟩, h2⟩⟩⟩
    · exact ⟨s, .inl ⟨h1, hi⟩, h2⟩

theorem scopes_filter (fs : List (Factor α)) (i : Nat) (p : Factor α → Bool)
    (hp : ∀ f ∈ fs, (p f = true ↔ i ∈ scope f)) :
    scopes (fs.filter p) = (scopes fs).filter (fun s => i ∈ s) ∧
    scopes (fs.filter (fun f => !p f)) = (scopes fs).filter (fun s => i ∉ s) := by
  unfold scopes
  rw [Multiset.filter_coe, Multiset.filter_coe, List.filter_map, List.filter_map]
  constructor
  · congr 2
    apply List.filter_congr
    intro f hf
    have := hp f hf
    by_cases h : i ∈ scope f
    · simp [h, this.2 h]
    · have : p f = false := by simpa using fun e => h (this.1 e)
      simp [h, this]
  · congr 2
    apply List.filter_congr
    intro f hf
    have := hp f hf
    by_cases h : i ∈ scope f
    · simp [h, this.2 h]
    · have : p f = false := by simpa using fun e => h (this.1 e)
      simp [h, this]

/-- `fs'` is `fs` after the elimination of the listed variables, one after the other: the factors with the variable
are replaced by the sum of their product. -/
inductive Elims [CommSemiring α] : List Var → List (Factor α) → List (Factor α) → Prop
  | nil (fs : List (Factor α)) : Elims [] fs fs
  | cons {v w : Var} {hs : List Var} {fs fs' : List (Factor α)} {g : Factor α} (hid : w.id = v.id)
      (hw : ∃ f ∈ fs, w ∈ f.vars) (hsub : ∀ u ∈ g.vars, ∃ f ∈ fs, u ∈ f.vars)
      (hsc : scope g = mergedScope v.id (scopes fs))
      (hfit : ∀ σ, Fits σ g.vars → ∀ k < w.outcomes, FitsFs (σ.upd v.id k) (fs.filter (fun f => v.id ∈ scope f)))
      (hval : ∀ σ, Fits σ g.vars → g.val σ =
        ∑ k ∈ range w.outcomes, joint (fs.filter (fun f => v.id ∈ scope f)) (σ.upd v.id k))
      (h : Elims hs (fs.filter (fun f => v.id ∉ scope f) ++ [g]) fs') : Elims (v :: hs) fs fs'

theorem Elims.snoc_cons [CommSemiring α] {v : Var} {hs : List Var} {fs fs1 fs2 : List (Factor α)} (h1 : Elims [v] fs fs1)
    (h2 : Elims hs fs1 fs2) : Elims (v :: hs) fs fs2 := by
  cases h1 with
  | cons a b c d e f g => cases g; exact .cons a b c d e f h2

/-- `removeHidden` sums the product of all factors over the outcomes of the variable. -/
theorem removeHidden_spec [CommSemiring α] {R : List Var} (hR : (R.map Var.id).Nodup) (sch : Sched α) (st : VE α)
    {v w : Var} (hw : w ∈ R) (hid : w.id = v.id) (hin : v.id ∈ (scopes st.factors).sup)
    (hidx : v.index < st.eliminated.length) (hg : Good R st.vs.factorCounter st.factors) :
    ∃ n fs', st.removeHidden sch v =
        .ok { st with vs := { st.vs with factorCounter := n }, factors := fs', tick := st.tick + 1,
                      eliminated := st.eliminated.set v.index true, log := st.log ++ [v.id] } ∧
      Good R n fs' ∧ scopes fs' = elimScopes v.id (scopes st.factors) ∧
      (∀ σ, FitsFs σ fs' → joint fs' σ = ∑ k ∈ range w.outcomes, joint st.factors (σ.upd v.id k)) ∧
      Elims [v] st.factors fs' := by
  set p : Factor α → Bool := fun f => f.vars.any (fun w => w.id = v.id) with hp
  have hpi : ∀ f : Factor α, p f = true ↔ v.id ∈ scope f := by
    intro f; simp [hp, mem_scope]
  have hit : (st.iter sch).Perm st.factors := sch.fac_perm _ _
  have hcs : ∀ f ∈ (st.iter sch).filter p, f ∈ st.factors := fun f hf => hit.subset (List.mem_filter.1 hf).1
  have hcoh : CoherentFs ((st.iter sch).filter p) := coherentFs_of_sub hR (fun f hf => hg.sub f (hcs f hf))
  obtain ⟨q, h1, h2, h3, h4, h5⟩ := product_spec st.vs ((st.iter sch).filter p) (fun f hf => hg.wf f (hcs f hf)) hcoh
  have hqsub : ∀ u ∈ q.vars, u ∈ R := by
    intro u hu
    rw [h4, mem_scopeUnion] at hu
    obtain ⟨f, hf, hu⟩ := hu
    exact hg.sub f (hcs f hf) u hu
  obtain ⟨f0, hf0, hin0⟩ := mem_scopes_sup.1 hin
  obtain ⟨w0, hw0, e0⟩ := mem_scope.1 hin0
  have hww : w0 = w := coherent_of_nodup hR w0 (hg.sub f0 hf0 w0 hw0) w hw (e0.trans hid.symm)
  subst hww
  have hwq : w0 ∈ q.vars := by
    rw [h4, mem_scopeUnion]
    exact ⟨f0, List.mem_filter.2 ⟨hit.symm.subset hf0, (hpi f0).2 hin0⟩, hw0⟩
  obtain ⟨g, k1, k2, k3, k4, k5⟩ := sumOut_spec { st.vs with factorCounter := st.vs.factorCounter + 1 } q h2 v w0 hwq hid
  have hdel := deleteAll_filter hg.ids hit p
  have hgd : Good R st.vs.factorCounter (st.factors.filter (fun f => !p f)) := hg.mono List.filter_sublist le_rfl
  simp only at k3
  have hins : insertFactor (deleteAll st.factors (((st.iter sch).filter p).map Factor.id)) g =
      st.factors.filter (fun f => !p f) ++ [g] := by
    rw [hdel]; exact insertFactor_fresh hgd.lt (by omega)
  have hsf := scopes_filter st.factors v.id p (fun f _ => hpi f)
  have hscg : scope g = mergedScope v.id (scopes st.factors) := by
    rw [scope_otherVars k4, mergedScope, ← hsf.1]
    congr 1
    ext j
    rw [mem_scopes_sup]
    simp only [mem_scope, h4, mem_scopeUnion]
    constructor
    · rintro ⟨u, ⟨f, hf, hu⟩, rfl⟩
      exact ⟨f, List.mem_filter.2 ⟨hcs f hf, (List.mem_filter.1 hf).2⟩, u, hu, rfl⟩
    · rintro ⟨f, hf, u, hu, rfl⟩
      obtain ⟨a, b⟩ := List.mem_filter.1 hf
      exact ⟨u, ⟨f, List.mem_filter.2 ⟨hit.symm.subset a, b⟩, hu⟩, rfl⟩
  have hfitq : ∀ σ, Fits σ g.vars → ∀ k < w0.outcomes, Fits (σ.upd v.id k) q.vars := by
    intro σ hσg k hk
    apply fits_upd (k4 ▸ hσg)
    intro u hu e
    rw [coherent_of_nodup h2.nodup u hu w0 hwq (e.trans hid.symm)]; exact hk
  refine ⟨st.vs.factorCounter + 2, st.factors.filter (fun f => !p f) ++ [g], ?_, ?_, ?_, ?_, ?_⟩
  · unfold VE.removeHidden
    dsimp only at k1 ⊢
    rw [h1, ok_bind]
    dsimp only
    rw [k1, ok_bind]
    dsimp only
    rw [goSet_ok hidx, ok_bind, ← hp, hins]; rfl
  · exact hgd.append k2 (fun u hu => hqsub u (mem_otherVars.1 (k4 ▸ hu)).1) (by omega) (by omega)
  · have app : ∀ a b : List (Factor α), scopes (a ++ b) = scopes a + scopes b := by
      intro a b; simp [scopes]
    rw [app, hsf.2, elimScopes]
    congr 1
    simp [scopes, hscg]
  · intro σ hσ
    have hσg : Fits σ g.vars := hσ g (by simp)
    rw [joint_append]
    have e1 : joint [g] σ = g.val σ := by simp [joint]
    rw [e1, k5 σ hσg, Finset.mul_sum]
    apply Finset.sum_congr rfl
    intro k hk
    have hfit : Fits (σ.upd v.id k) q.vars := by
      apply fits_upd (k4 ▸ hσg)
      intro u hu e
      rw [coherent_of_nodup h2.nodup u hu w0 hwq (e.trans hid.symm)]; simpa using hk
    rw [h5 _ hfit, joint_perm ((filter_perm_split p).trans ((hit.symm.filter p).append_right _)), joint_append, mul_comm]
    congr 1
    apply joint_congr
    intro f hf u hu
    have : u.id ≠ v.id := by
      intro e
      have := (hpi f).2 (mem_scope.2 ⟨u, hu, e⟩)
      have h6 := (List.mem_filter.1 hf).2
      simp [this] at h6
    simp [Assignment.upd, this]
  · have ef1 : st.factors.filter (fun f => decide (v.id ∈ scope f)) = st.factors.filter p :=
      List.filter_congr (fun f _ => by rw [Bool.eq_iff_iff, hpi f]; simp)
    have ef2 : st.factors.filter (fun f => decide (v.id ∉ scope f)) = st.factors.filter (fun f => !p f) :=
      List.filter_congr (fun f _ => by
        rw [Bool.eq_iff_iff, Bool.not_eq_true', ← Bool.not_eq_true, hpi f]; simp)
    refine Elims.cons (w := w0) (g := g) hid ⟨f0, hf0, hw0⟩ ?_ hscg ?_ ?_ ?_
    · intro u hu
      obtain ⟨f, hf, huf⟩ := mem_scopeUnion.1 (h4 ▸ (mem_otherVars.1 (k4 ▸ hu)).1)
      exact ⟨f, hcs f hf, huf⟩
    · intro σ hσ k hk f hf u hu
      rw [ef1] at hf
      refine hfitq σ hσ k hk u ?_
      rw [h4, mem_scopeUnion]
      exact ⟨f, (hit.symm.filter p).subset hf, hu⟩
    · intro σ hσ
      rw [k5 σ hσ, ef1]
      apply Finset.sum_congr rfl
      intro k hk
      rw [h5 _ (hfitq σ hσ k (by simpa using hk))]
      exact joint_perm (hit.filter p) _
    · rw [ef2]; exact .nil _

end Bbn
