import Verif.Lemmas.MachineExact
import Verif.Lemmas.MachineNet
import Verif.Lemmas.NetSolve
import Verif.Spec.Cost
import Mathlib.Algebra.Order.BigOperators.Group.Finset
import Mathlib.Algebra.BigOperators.GroupWithZero.Finset

/-!
# The tables of a query on a computer with limited memory
-/

set_option autoImplicit false

namespace Bbn

open Finset

variable {α : Type}

section ops
variable {L : Nat}

/-- The fault of a table that is too big. -/
def tooBig {β : Type _} : Except Fault β := .error (.panic "out of memory")

theorem createFactorM_room [Zero α] (s : Vs) {vars : List Var} (d : Option (List α)) (h : size vars ≤ L) :
    s.createFactorM (.memory L) vars d = s.createFactor vars d := by
  rw [← createFactorM_exact]
  unfold Vs.createFactorM
  have : (Mach.memory L).rows vars = Mach.exact.rows vars := by simp [Mach.memory, Mach.exact, h]
  rw [this]

theorem createFactorM_full [Zero α] (s : Vs) {vars : List Var} (d : Option (List α)) (h : L < size vars) :
    s.createFactorM (.memory L) vars d = tooBig := by
  unfold Vs.createFactorM
  have : (Mach.memory L).rows vars = .error (.panic "out of memory") := by simp [Mach.memory, h]
  rw [this]; rfl

theorem getM_memory (f : Factor α) (t : List Nat) : f.getM (.memory L) t = f.getN t := getM_exact f t

theorem restrictLoopM_memory (vars newVars : List Var) (idx obs : Nat) (xs : List α) (old : List Nat) (new : List α) :
    restrictLoopM (.memory L) vars newVars idx obs xs old new = restrictLoop vars newVars idx obs xs old new := by
  rw [← restrictLoopM_exact]
  induction xs generalizing old new with
  | nil => rfl
  | cons x xs ih =>
    unfold restrictLoopM
    simp only [ih] <;> rfl

theorem restrictM_room [Zero α] (s : Vs) (f : Factor α) (v : Var) (obs : Int) (h : size (otherVars v.id f.vars) ≤ L) :
    s.restrictM (.memory L) f v obs = s.restrict f v obs := by
  unfold Vs.restrictM Vs.restrict
  simp only [createFactorM_room s _ h, restrictLoopM_memory] <;> rfl

theorem sumOutLoopM_memory [Add α] (vars newVars : List Var) (idx : Nat) (xs : List α) (old : List Nat) (new : List α) :
    sumOutLoopM (.memory L) vars newVars idx xs old new = sumOutLoop vars newVars idx xs old new := by
  rw [← sumOutLoopM_exact]
  induction xs generalizing old new with
  | nil => rfl
  | cons x xs ih =>
    unfold sumOutLoopM
    simp only [ih] <;> rfl

theorem sumOutM_room [Zero α] [Add α] (s : Vs) (f : Factor α) (v : Var) (h : size (otherVars v.id f.vars) ≤ L) :
    s.sumOutM (.memory L) f v = s.sumOut f v := by
  unfold Vs.sumOutM Vs.sumOut
  simp only [createFactorM_room s _ h, sumOutLoopM_memory] <;> rfl

theorem productCellM_memory [Mul α] (t : List Nat) (ps : List (Factor α × List Nat)) (acc : α) :
    productCellM (.memory L) t ps acc = productCell t ps acc := by
  rw [← productCellM_exact]
  induction ps generalizing acc with
  | nil => rfl
  | cons p ps ih =>
    unfold productCellM
    simp only [ih] <;> rfl

theorem productM_room [Zero α] [One α] [Mul α] (s : Vs) (fs : List (Factor α)) (hwf : ∀ f ∈ fs, f.WF)
    (h : size (scopeUnion fs) ≤ L) : s.productM (.memory L) fs = s.product fs := by
  unfold Vs.productM Vs.product
  split
  · rename_i f
    rw [scopeUnion_single (hwf f (by simp))] at h
    rw [createFactorM_room s _ h]
  · have e := mergeAll_scopeUnion fs
    rcases hm : mergeAll [] (fs.map Factor.vars) with ⟨nv, maps⟩
    rw [hm] at e
    dsimp only at e ⊢
    rw [createFactorM_room s _ (by rw [e]; exact h)]
    simp only [productCellM_memory]

theorem productM_full [Zero α] [One α] [Mul α] (s : Vs) (fs : List (Factor α)) (hwf : ∀ f ∈ fs, f.WF)
    (h : L < size (scopeUnion fs)) : s.productM (.memory L) fs = tooBig := by
  unfold Vs.productM
  split
  · rename_i f
    rw [scopeUnion_single (hwf f (by simp))] at h
    rw [createFactorM_full s _ h]
  · have e := mergeAll_scopeUnion fs
    rcases hm : mergeAll [] (fs.map Factor.vars) with ⟨nv, maps⟩
    rw [hm] at e
    dsimp only at e ⊢
    rw [createFactorM_full s _ (by rw [e]; exact h)]
    rfl

theorem marginalM_room [Zero α] [Add α] (s : Vs) (f : Factor α) (v : Var) (h : size [v] ≤ L) :
    s.marginalM (.memory L) f v = s.marginal f v := by
  unfold Vs.marginalM Vs.marginal
  simp only [createFactorM_room s _ h] <;> rfl

theorem normalizeM_room [Zero α] [Add α] [Div α] (s : Vs) (f : Factor α) (h : size f.vars ≤ L) :
    s.normalizeM (.memory L) f = s.normalize f := by
  unfold Vs.normalizeM Vs.normalize
  simp only [createFactorM_room s _ h] <;> rfl

theorem rearrangeM_room [Zero α] (s : Vs) (f : Factor α) (vars : List Var) (h1 : size f.vars ≤ L) (h2 : size vars ≤ L) :
    s.rearrangeM (.memory L) f vars = s.rearrange f vars := by
  unfold Vs.rearrangeM Vs.rearrange
  simp only [createFactorM_room s _ h1, createFactorM_room s _ h2, getM_memory] <;> rfl

theorem normalizeForM_room [Zero α] [Add α] [Div α] [DecidableEq α] (s : Vs) (f : Factor α) (v : Var)
    (h : size f.vars ≤ L) : s.normalizeForM (.memory L) f v = s.normalizeFor f v := by
  unfold Vs.normalizeForM Vs.normalizeFor
  cases firstIdx v.id f.vars with
  | none => rfl
  | some idx =>
    dsimp only
    cases hw : goGet f.vars idx with
    | error e => rfl
    | ok w =>
      simp only [ok_bind]
      have hp : (f.vars.eraseIdx idx ++ [w]).Perm f.vars := by
        obtain ⟨hi, e⟩ := List.getElem?_eq_some_iff.1 (goGet_eq.1 hw)
        refine (List.perm_append_singleton _ _).trans ?_
        rw [← e]
        exact List.getElem_cons_eraseIdx_perm hi
      rw [rearrangeM_room s f _ h (by rw [size_perm hp]; exact h)]

end ops

theorem entriesOver_pos {k : Nat → Nat} (hk : ∀ i, 0 < k i) (s : Finset Nat) : 0 < entriesOver k s :=
  Nat.pos_of_ne_zero (Finset.prod_ne_zero_iff.2 (fun i _ => (hk i).ne'))

theorem entriesOver_mono {k : Nat → Nat} (hk : ∀ i, 0 < k i) {s t : Finset Nat} (h : s ⊆ t) :
    entriesOver k s ≤ entriesOver k t :=
  Finset.prod_le_prod_of_subset_of_one_le' h (fun i _ _ => hk i)

theorem size_entries {k : Nat → Nat} {vars : List Var} (hn : (vars.map Var.id).Nodup)
    (hk : ∀ v ∈ vars, v.outcomes = k v.id) : size vars = entriesOver k (vars.map Var.id).toFinset := by
  induction vars with
  | nil => simp [size, entriesOver]
  | cons v vs ih =>
    rw [List.map_cons, List.nodup_cons] at hn
    rw [List.map_cons, List.toFinset_cons, entriesOver, Finset.prod_insert (by simpa using hn.1), size,
      ih hn.2 (fun w hw => hk w (List.mem_cons_of_mem _ hw)), hk v List.mem_cons_self]
    rfl

theorem takeOut_eq (i : Nat) (S : Multiset (Finset Nat)) : takeOut i S = elimScopes i S := rfl

theorem size_union {R : List Var} (hR : (R.map Var.id).Nodup) {k : Nat → Nat} (hk : ∀ v ∈ R, v.outcomes = k v.id)
    {fs : List (Factor α)} (hs : ∀ f ∈ fs, ∀ v ∈ f.vars, v ∈ R) :
    size (scopeUnion fs) = entriesOver k (scopes fs).sup := by
  rw [size_entries (scopeUnion_nodup_ids (coherentFs_of_sub hR hs)) (k := k)]
  · congr 1
    ext j
    rw [mem_scopes_sup]
    simp only [List.mem_toFinset, List.mem_map, mem_scopeUnion, mem_scope]
    constructor
    · rintro ⟨v, ⟨f, hf, hv⟩, rfl⟩; exact ⟨f, hf, v, hv, rfl⟩
    · rintro ⟨f, hf, v, hv, rfl⟩; exact ⟨v, ⟨f, hf, hv⟩, rfl⟩
  · intro v hv
    obtain ⟨f, hf, hv⟩ := mem_scopeUnion.1 hv
    exact hk v (hs f hf v hv)

theorem size_other {vars : List Var} (hpos : ∀ v ∈ vars, 0 < v.outcomes) (i : Nat) :
    size (otherVars i vars) ≤ size vars :=
  size_le_of_subperm (List.filter_sublist.subperm) hpos

section solver
variable [CommSemiring α] {L : Nat} {k : Nat → Nat} {R : List Var}

theorem removeHiddenM_memory (hR : (R.map Var.id).Nodup) (hk : ∀ v ∈ R, v.outcomes = k v.id) (hk0 : ∀ i, 0 < k i)
    (sch : Sched α) (st : VE α) (v : Var) (hg : Good R st.vs.factorCounter st.factors) :
    st.removeHiddenM (.memory L) sch v =
      if entriesOver k (around v.id (scopes st.factors)) ≤ L then st.removeHidden sch v else tooBig := by
  set p : Factor α → Bool := fun f => f.vars.any (fun w => w.id = v.id) with hp
  have hpi : ∀ f : Factor α, p f = true ↔ v.id ∈ scope f := by
    intro f; simp [hp, mem_scope]
  have hit : (st.iter sch).Perm st.factors := sch.fac_perm _ _
  have hcs : ∀ f ∈ (st.iter sch).filter p, f ∈ st.factors := fun f hf => hit.subset (List.mem_filter.1 hf).1
  have hwf : ∀ f ∈ (st.iter sch).filter p, f.WF := fun f hf => hg.wf f (hcs f hf)
  have hsub : ∀ f ∈ (st.iter sch).filter p, ∀ v ∈ f.vars, v ∈ R := fun f hf => hg.sub f (hcs f hf)
  have hsz : size (scopeUnion ((st.iter sch).filter p)) = entriesOver k (around v.id (scopes st.factors)) := by
    rw [size_union hR hk hsub, (scopes_filter (st.iter sch) v.id p (fun f _ => hpi f)).1, scopes_perm hit]; rfl
  unfold VE.removeHiddenM VE.removeHidden
  simp only [← hp]
  by_cases h : entriesOver k (around v.id (scopes st.factors)) ≤ L
  · rw [if_pos h, productM_room _ _ hwf (by rw [hsz]; exact h)]
    obtain ⟨q, h1, h2, h3, h4, h5⟩ := product_spec st.vs ((st.iter sch).filter p) hwf (coherentFs_of_sub hR hsub)
    rw [h1, ok_bind, ok_bind]
    dsimp only
    rw [sumOutM_room]
    refine le_trans (size_other ?_ _) (by rw [h4, hsz]; exact h)
    intro u hu
    rw [h4] at hu
    obtain ⟨f, hf, hu⟩ := mem_scopeUnion.1 hu
    rw [hk u (hsub f hf u hu)]
    exact hk0 _
  · rw [if_neg h, productM_full _ _ hwf (by rw [hsz]; omega)]
    rfl

/-- Taking out a list of variables, and the final product. -/
theorem removeAllM_memory (hR : VarsOK R) (hk : ∀ v ∈ R, v.outcomes = k v.id) (hk0 : ∀ i, 0 < k i)
    (sch : Sched α) (hs : List Var) : ∀ (st : VE α), st.eliminated.length = R.length →
      Good R st.vs.factorCounter st.factors → (hs.map Var.id).Nodup →
      (∀ h ∈ hs, (∃ w ∈ R, w.id = h.id ∧ w.index = h.index ∧ w.outcomes = h.outcomes) ∧ h.id ∈ (scopes st.factors).sup) →
      (hs.foldlM (fun st h => st.removeHiddenM (.memory L) sch h) st >>= fun st => st.multiplyAllM (.memory L) sch) =
        if biggest k (hs.map Var.id) (scopes st.factors) ≤ L then
          hs.foldlM (fun st h => st.removeHidden sch h) st >>= fun st => st.multiplyAll sch
        else tooBig := by
  induction hs with
  | nil =>
    intro st he hg _ _
    have hit : (st.iter sch).Perm st.factors := sch.fac_perm _ _
    have hg' := hg.perm hit.symm
    have hsz : size (scopeUnion (st.iter sch)) = entriesOver k (scopes st.factors).sup := by
      rw [size_union hR.ids hk hg'.sub, scopes_perm hit]
    simp only [List.foldlM_nil, List.map_nil, biggest]
    have hpure : ∀ {γ : Type} (g : VE α → Except Fault γ), ((pure st : Except Fault (VE α)) >>= g) = g st := fun _ => rfl
    rw [hpure, hpure]
    unfold VE.multiplyAllM VE.multiplyAll
    by_cases h : entriesOver k (scopes st.factors).sup ≤ L
    · rw [if_pos h, productM_room _ _ hg'.wf (by rw [hsz]; exact h)]
    · rw [if_neg h, productM_full _ _ hg'.wf (by rw [hsz]; omega)]
      rfl
  | cons h hs ih =>
    intro st he hg hn hh
    simp only [List.map_cons, List.nodup_cons] at hn
    obtain ⟨⟨w, hw, w1, w2, w3⟩, hsc⟩ := hh h (by simp)
    have hidx : h.index < st.eliminated.length := by rw [he, ← w2]; exact hR.index_lt hw
    rw [List.foldlM_cons, List.foldlM_cons, removeHiddenM_memory hR.ids hk hk0 sch st h hg, List.map_cons, biggest]
    by_cases hb : entriesOver k (around h.id (scopes st.factors)) ≤ L
    · rw [if_pos hb]
      obtain ⟨n1, fs1, a1, a2, a3, a4, a5⟩ := removeHidden_spec hR.ids sch st hw w1 hsc hidx hg
      rw [a1, ok_bind, ok_bind]
      have := ih { st with vs := { st.vs with factorCounter := n1 }, factors := fs1, tick := st.tick + 1,
                           eliminated := st.eliminated.set h.index true, log := st.log ++ [h.id] }
        (by simpa using he) a2 hn.2 (by
          intro u hu
          obtain ⟨u1, u2⟩ := hh u (by simp [hu])
          refine ⟨u1, ?_⟩
          simp only
          rw [a3, mem_elimScopes_sup]
          refine ⟨u2, fun e => hn.1 (e ▸ List.mem_map_of_mem hu)⟩)
      rw [this]
      dsimp only
      rw [a3, takeOut_eq]
      simp only [max_le_iff, hb, true_and]
    · rw [if_neg hb, if_neg (by rw [max_le_iff]; exact fun h => hb h.1)]
      rfl

/-- `eliminateHidden` removes the same variables in the same order on every machine. -/
theorem eliminateHiddenM_run (M : Mach) (hR : VarsOK R) (sch : Sched α) (st : VE α)
    (hvars : st.vs.variables.map core = R.map core) (he : st.eliminated.length = R.length)
    (hd : DepsOK st.vs.variables st.deps)
    (evidence : List Evid) (query : List Var) (single : Bool) {decs : List Var} {t : Nat}
    (hdec : st.getDecisions sch = .ok (decs, t)) {kept : List Var}
    (hkept : kept = (considered single decs).flatMap (depsOf st.deps)) :
    ∃ (t' : Nat) (hs : List Var), st.eliminateHiddenM M sch evidence query single =
        hs.foldlM (fun st h => st.removeHiddenM M sch h) { st with tick := t' } ∧
      st.eliminateHidden sch evidence query single =
        hs.foldlM (fun st h => st.removeHidden sch h) { st with tick := t' } ∧
      hs.Perm (hiddenSet st.vs.variables st.eliminated kept evidence query) ∧
      hs.Pairwise (DegreeThenId (scopes st.factors)) := by
  have hlen : st.vs.variables.length = R.length := by simpa using congrArg List.length hvars
  have hV : VarsOK st.vs.variables := hR.of_core hvars
  obtain ⟨par, h1, h2, h3⟩ := getDecisionParents_spec sch st hd single hdec
  have h4 := hiddenVars_eq hV (he.trans hlen.symm) h2 evidence query
  have h5 : hiddenList st.vs.variables st.eliminated par evidence query =
      hiddenSet st.vs.variables st.eliminated kept evidence query := by
    unfold hiddenList hiddenSet
    apply List.filter_congr
    intro v hv
    have hlt : v.index < par.length := by rw [h2]; exact hV.index_lt hv
    have : par[v.index]? = some false ↔ ∀ p ∈ kept, p.index ≠ v.index := by
      have h3' := h3 v.index
      rw [hkept]
      constructor
      · intro hf p hp e
        obtain ⟨d, hd1, hd2⟩ := List.mem_flatMap.1 hp
        rw [hf] at h3'
        have := h3'.2 ⟨d, hd1, p, hd2, e⟩
        simp at this
      · intro h
        rcases getElem?_bool hlt with h' | h'
        · obtain ⟨d, hd1, p, hp, e⟩ := h3'.1 h'
          exact absurd e (h p (List.mem_flatMap.2 ⟨d, hd1, hp⟩))
        · exact h'
    simp only [this]
  rw [h5] at h4
  set hid := hiddenSet st.vs.variables st.eliminated kept evidence query with hhid
  have hidn : (hid.map Var.id).Nodup := (List.filter_sublist.map _).nodup hV.ids
  have hperm := sch.var_perm t hid
  obtain ⟨hs, s1, s2, s3⟩ := sort_order (scopes st.factors) (sch.var t hid) ((hperm.map _).nodup_iff.2 hidn)
  have hsp : hs.Perm hid := s2.trans hperm
  refine ⟨t + 1 + hid.length, hs, ?_, ?_, hsp, s3⟩
  · unfold VE.eliminateHiddenM
    rw [h1, ok_bind]
    dsimp only
    rw [h4, ok_bind]
    rw [degrees_eq, s1, List.foldlM_map]
  · unfold VE.eliminateHidden
    rw [h1, ok_bind]
    dsimp only
    rw [h4, ok_bind]
    rw [degrees_eq, s1, List.foldlM_map]

/-- Plugging in evidence only makes tables smaller. -/
theorem eliminateEvidenceM_memory (hk : ∀ v ∈ R, v.outcomes = k v.id) (hk0 : ∀ i, 0 < k i) (sch : Sched α) (ev : List Evid)
    (st : VE α) (h : ∀ f ∈ st.factors, size f.vars ≤ L ∧ ∀ v ∈ f.vars, v ∈ R) :
    Leq (fun st : VE α => ∀ f ∈ st.factors, size f.vars ≤ L ∧ ∀ v ∈ f.vars, v ∈ R) (st.eliminateEvidence sch ev)
      (st.eliminateEvidenceM (.memory L) sch ev) := by
  refine Leq.foldlM _ (fun st e _ hb => ?_) st h
  have key : ∀ (is : List Nat) (st : VE α), (∀ f ∈ st.factors, size f.vars ≤ L ∧ ∀ v ∈ f.vars, v ∈ R) →
      Leq (fun st : VE α => ∀ f ∈ st.factors, size f.vars ≤ L ∧ ∀ v ∈ f.vars, v ∈ R) (restrictIds e is st)
        (restrictIdsM (.memory L) e is st) := by
    intro is
    induction is with
    | nil => intro st h; exact Leq.ok h
    | cons i is ih =>
      intro st h
      refine Leq.same (fun f hf => ?_)
      have hfm : f ∈ st.factors := by
        unfold lookupFactor at hf
        split at hf
        · rename_i g hg
          cases hf
          exact List.mem_of_find?_eq_some hg
        · cases hf
      obtain ⟨f1, f2⟩ := h f hfm
      have hsz : size (otherVars e.var.id f.vars) ≤ L :=
        (size_other (fun v hv => by rw [hk v (f2 v hv)]; exact hk0 _) _).trans f1
      rw [restrictM_room _ _ _ _ hsz]
      refine Leq.bind (Q := fun p => p.1.vars = otherVars e.var.id f.vars) ?_ (fun p hp => ?_)
      · refine Leq.self (fun x hx => ?_)
        unfold Vs.restrict at hx
        split at hx
        · cases hx
        · split at hx
          · cases hx
          · dsimp only [Vs.createFactor] at hx
            rw [ok_bind] at hx
            dsimp only at hx
            obtain ⟨d, _, hx⟩ := bind_inv hx
            cases hx
            rfl
      · obtain ⟨g, s'⟩ := p
        refine ih _ (fun g' hg' => ?_)
        rcases mem_insertFactor hg' with hg' | rfl
        · exact h g' (List.mem_filter.1 hg').1
        · dsimp only at hp
          rw [hp]
          exact ⟨hsz, fun v hv => f2 v (mem_otherVars.1 hv).1⟩
  exact key _ { st with tick := st.tick + 1 } hb

/-- A query of the solver, if there are no utility variables. -/
theorem solveQueryM_memory (sch : Sched α) {vs : Vs} {fs : List (Factor α)} {deps : List (Var × List Var)}
    (hp : Problem vs fs deps) (weights : Option (List α)) {ev : List Evid} (hev : EvidenceOK vs.variables ev)
    (q : List Var) (hin : ∀ v ∈ hidden vs.variables deps ev q, ∃ f ∈ fs, v ∈ f.vars) (hut : utilities vs.variables = [])
    (hk : ∀ v ∈ vs.variables, v.outcomes = k v.id) (hk0 : ∀ i, 0 < k i) (hsz : ∀ f ∈ fs, size f.vars ≤ L) :
    ∃ hs : List Var, hs.Perm (hidden vs.variables deps ev q) ∧
      hs.Pairwise (DegreeThenId ((scopes fs).map (fun s => s \ evIds ev))) ∧
      (VE.new vs fs deps weights).solveQueryM (.memory L) sch ev q =
        if biggest k (hs.map Var.id) ((scopes fs).map (fun s => s \ evIds ev)) ≤ L then
          (VE.new vs fs deps weights).solveQuery sch ev q else tooBig := by
  obtain ⟨h0, hg, hR⟩ := new_good hp weights
  obtain ⟨n, fs1, rs, a1, a2, a3, a4⟩ := eliminateEvidence_spec hR.ids sch ev (VE.new vs fs deps weights)
    (fun e he => by
      obtain ⟨b1, b2, b3⟩ := hev e he
      rw [h0] at *
      exact ⟨b1, b3⟩) (by rw [h0]; exact hg)
  have hM := eliminateEvidenceM_memory (L := L) hk hk0 sch ev (VE.new vs fs deps weights) (by
    rw [h0]; exact fun f hf => ⟨hsz f hf, hp.facVars f hf⟩)
  have a1' := (hM _ a1).1
  rw [h0] at a4 a1 a1'
  set st1 : VE α := ⟨{ vs with factorCounter := n }, List.replicate vs.variables.length false, deps, fs1, weights,
    0 + ev.length, []⟩ with hst1
  obtain ⟨t', b⟩ := removeUtilities_spec sch st1 a2 none
  have hf : st1.factors.filter (fun f => !(utilities st1.vs.variables).any (fun u => notExcept none u ∧ u ∈ f.vars)) =
      fs1 := by
    have : utilities st1.vs.variables = [] := hut
    rw [this]; simp [hst1]
  rw [hf] at b
  have hsc : scopes fs1 = (scopes fs).map (fun s => s \ evIds ev) := (scopes_perm a3).trans (scopes_plugged a4)
  set st2 : VE α := { st1 with factors := fs1, tick := t' } with hst2
  have hdok : DepsOK st2.vs.variables st2.deps := by
    refine ⟨?_, fun e he p hp' => hR.index_lt ((hp.depVars e he).2 p hp')⟩
    rintro v hv p ⟨e, he, h1, h2, h3⟩
    have : p ∈ st2.vs.variables := (hp.depVars e he).2 p h2
    simp [this, h3]
  obtain ⟨decs, t, d1, d2, _⟩ := getDecisions_spec sch st2 hR hdok
  have hset := hiddenSet_eq (R := st2.vs.variables) hR hp.depKeys hp.depVars [] (elim := st2.eliminated) (by
    intro v hv _
    have : v.index < vs.variables.length := hR.index_lt hv
    simp [hst2, hst1, this]) d2 ev q
  rw [List.append_nil] at hset
  obtain ⟨t2, hs, c1, c2, c3, c4⟩ := eliminateHiddenM_run (.memory L) hR sch st2 rfl (by simp [hst2, hst1]) hdok ev q
    false d1 rfl
  rw [hset] at c3
  have c5 : scopes st2.factors = (scopes fs).map (fun s => s \ evIds ev) := hsc
  rw [c5] at c4
  refine ⟨hs, c3, c4, ?_⟩
  have hmem : ∀ h ∈ hs, h ∈ hidden vs.variables deps ev q := fun h hh => c3.subset hh
  have key := removeAllM_memory (L := L) (R := vs.variables) hR hk hk0 sch hs { st2 with tick := t2 } (by simp [hst2, hst1]) a2
    ((c3.map _).nodup_iff.2 ((List.filter_sublist.map _).nodup hR.ids)) (by
      intro h hh
      have h2 := hmem h hh
      refine ⟨⟨h, (List.mem_filter.1 h2).1, rfl, rfl, rfl⟩, ?_⟩
      obtain ⟨f, hf, hv⟩ := hin h h2
      change h.id ∈ (scopes fs1).sup
      rw [hsc, mem_sup]
      refine ⟨scope f \ evIds ev, Multiset.mem_map.2 ⟨scope f, by simpa [scopes] using ⟨f, hf, rfl⟩, rfl⟩, ?_⟩
      rw [Finset.mem_sdiff]
      refine ⟨mem_scope.2 ⟨h, hv, rfl⟩, ?_⟩
      have := (List.mem_filter.1 h2).2
      simp only [decide_eq_true_eq] at this
      intro he
      simp only [evIds, List.mem_toFinset, List.mem_map] at he
      obtain ⟨e, he, h3⟩ := he
      exact this.2.1 e he h3)
  have key2 : scopes ({ st2 with tick := t2 } : VE α).factors = (scopes fs).map (fun s => s \ evIds ev) := hsc
  rw [key2] at key
  have e1 : (VE.new vs fs deps weights).solveQueryM (.memory L) sch ev q =
      (hs.foldlM (fun st h => st.removeHiddenM (.memory L) sch h) { st2 with tick := t2 } >>=
        fun st => st.multiplyAllM (.memory L) sch) := by
    unfold VE.solveQueryM VE.solveM
    rw [h0, a1', ok_bind]
    simp only [Bool.false_eq_true, if_false]
    change (st1.removeUtilities sch none).eliminateHiddenM _ _ _ _ _ >>= _ = _
    rw [b, c1]
  have e2 : (VE.new vs fs deps weights).solveQuery sch ev q =
      (hs.foldlM (fun st h => st.removeHidden sch h) { st2 with tick := t2 } >>= fun st => st.multiplyAll sch) := by
    unfold VE.solveQuery VE.solve
    rw [h0, a1, ok_bind]
    simp only [Bool.false_eq_true, if_false]
    change (st1.removeUtilities sch none).eliminateHidden _ _ _ _ >>= _ = _
    rw [b, c2]
  rw [e1, e2, key]

end solver

end Bbn
