import Verif.Lemmas.VEStep
import Verif.Lemmas.Topo
import Mathlib.Data.Finset.Card

/-!
# Choosing and eliminating the hidden variables
-/

set_option autoImplicit false

namespace Bbn

open Finset

variable {α : Type}

theorem addIds_spec (vars acc : List Var) (h : (acc.map Var.id).Nodup) :
    ((addIds acc vars).map Var.id).Nodup ∧
      ((addIds acc vars).map Var.id).toFinset = (acc.map Var.id).toFinset ∪ (vars.map Var.id).toFinset := by
  unfold addIds
  induction vars generalizing acc with
  | nil => simp [h]
  | cons v vs ih =>
    rw [List.foldl_cons]
    by_cases hv : v.id ∈ acc.map Var.id
    · have : acc.any (fun w => w.id = v.id) = true := by
        obtain ⟨w, hw, e⟩ := List.mem_map.1 hv
        simp only [List.any_eq_true, decide_eq_true_eq]; exact ⟨w, hw, e⟩
      rw [if_pos this]
      obtain ⟨h1, h2⟩ := ih acc h
      refine ⟨h1, h2.trans ?_⟩
      ext j
      simp only [List.map_cons, List.toFinset_cons, Finset.mem_union, Finset.mem_insert, List.mem_toFinset]
      constructor
      · rintro (h | h) <;> simp [h]
      · rintro (h | rfl | h)
        · exact .inl h
        · exact .inl hv
        · exact .inr h
    · have : ¬ acc.any (fun w => w.id = v.id) = true := by
        simp only [List.any_eq_true, decide_eq_true_eq]
        rintro ⟨w, hw, e⟩
        exact hv (List.mem_map.2 ⟨w, hw, e⟩)
      rw [if_neg this]
      obtain ⟨h1, h2⟩ := ih (acc ++ [v]) (by
        rw [List.map_append, List.nodup_append]
        refine ⟨h, by simp, ?_⟩
        rintro a ha b hb rfl
        simp at hb; subst hb; exact hv ha)
      refine ⟨h1, h2.trans ?_⟩
      ext j
      simp only [List.map_append, List.map_cons, List.map_nil, List.toFinset_append, List.toFinset_cons,
        List.toFinset_nil, Finset.mem_union, Finset.mem_insert, List.mem_toFinset, Finset.notMem_empty, or_false]
      tauto

theorem degreeOf_eq (v : Var) (fs : List (Factor α)) : degreeOf v fs = degreeIn v.id (scopes fs) := by
  have key : ∀ (fs : List (Factor α)) (acc : List Var), (acc.map Var.id).Nodup →
      (((fs.foldl (fun acc f => if f.vars.any (fun w => w.id = v.id) then addIds acc f.vars else acc) acc)).map Var.id).Nodup ∧
      (((fs.foldl (fun acc f => if f.vars.any (fun w => w.id = v.id) then addIds acc f.vars else acc) acc)).map Var.id).toFinset =
        (acc.map Var.id).toFinset ∪ ((scopes fs).filter (fun s => v.id ∈ s)).sup := by
    intro fs
    induction fs with
    | nil => intro acc h; simp [scopes, h]
    | cons f fs ih =>
      intro acc h
      rw [List.foldl_cons]
      have hs : scopes (f :: fs) = scope f ::ₘ scopes fs := by simp [scopes]
      have hiff : f.vars.any (fun w => w.id = v.id) = true ↔ v.id ∈ scope f := by simp [mem_scope]
      by_cases hv : v.id ∈ scope f
      · rw [if_pos (hiff.2 hv)]
        obtain ⟨a1, a2⟩ := addIds_spec f.vars acc h
        obtain ⟨h1, h2⟩ := ih _ a1
        refine ⟨h1, h2.trans ?_⟩
        rw [a2, hs, Multiset.filter_cons_of_pos (p := fun s : Finset Nat => v.id ∈ s) _ hv, Multiset.sup_cons, Finset.union_assoc]; rfl
      · rw [if_neg (fun e => hv (hiff.1 e))]
        obtain ⟨h1, h2⟩ := ih acc h
        refine ⟨h1, h2.trans ?_⟩
        rw [hs, Multiset.filter_cons_of_neg (p := fun s : Finset Nat => v.id ∈ s) _ hv]
  obtain ⟨h1, h2⟩ := key fs [] (by simp)
  unfold degreeOf degreeIn
  rw [← List.length_map (f := Var.id), ← List.toFinset_card_of_nodup h1, h2]
  simp

/-- The variable list: distinct IDs, and the index of a variable is its position. -/
structure VarsOK (R : List Var) : Prop where
  ids : (R.map Var.id).Nodup
  idx : ∀ (i : Nat) v, R[i]? = some v → v.index = i

/-- The parts of a variable that never change. -/
def core (v : Var) : Nat × Nat × Nat := (v.id, v.index, v.outcomes)

theorem VarsOK.of_core {R vars : List Var} (h : VarsOK R) (hc : vars.map core = R.map core) : VarsOK vars where
  ids := by
    have e : vars.map Var.id = R.map Var.id := by
      have := congrArg (List.map (fun c : Nat × Nat × Nat => c.1)) hc
      simpa [core, Function.comp_def] using this
    rw [e]; exact h.ids
  idx i v hv := by
    have e : (vars.map core)[i]? = (R.map core)[i]? := by rw [hc]
    rw [List.getElem?_map, List.getElem?_map, hv] at e
    cases hr : R[i]? with
    | none => rw [hr] at e; simp at e
    | some w =>
      rw [hr] at e
      simp [core] at e
      rw [e.2.1]; exact h.idx i w hr

theorem core_mem {R vars : List Var} (hc : vars.map core = R.map core) {v : Var} (hv : v ∈ vars) :
    ∃ w ∈ R, w.id = v.id ∧ w.index = v.index ∧ w.outcomes = v.outcomes := by
  have : core v ∈ R.map core := by rw [← hc]; exact List.mem_map_of_mem hv
  obtain ⟨w, hw, e⟩ := List.mem_map.1 this
  simp [core] at e
  exact ⟨w, hw, e⟩

theorem VarsOK.index_lt {R : List Var} (h : VarsOK R) {v : Var} (hv : v ∈ R) : v.index < R.length := by
  obtain ⟨i, hi, rfl⟩ := List.getElem_of_mem hv
  rw [h.idx i _ (List.getElem?_eq_getElem hi)]; exact hi

theorem VarsOK.get_index {R : List Var} (h : VarsOK R) {v : Var} (hv : v ∈ R) : R[v.index]? = some v := by
  obtain ⟨i, hi, rfl⟩ := List.getElem_of_mem hv
  have := h.idx i _ (List.getElem?_eq_getElem hi)
  rw [this]; exact List.getElem?_eq_getElem hi

/-- The hidden variables, as a filter on the variables. -/
def hiddenList (vars : List Var) (elim par : List Bool) (evidence : List Evid) (query : List Var) : List Var :=
  vars.filter (fun v => v.nodeType = .chance ∧ elim[v.index]? = some false ∧ par[v.index]? = some false ∧
    (∀ e ∈ evidence, e.var.id ≠ v.id) ∧ ∀ q ∈ query, q.id ≠ v.id)

theorem hiddenVars_eq {vars : List Var} (h : VarsOK vars) {elim par : List Bool} (he : elim.length = vars.length)
    (hp : par.length = vars.length) (evidence : List Evid) (query : List Var) :
    hiddenVars vars elim par evidence query = .ok (hiddenList vars elim par evidence query) := by
  set step : List Var → Var × Nat → Except Fault (List Var) := fun h (p : Var × Nat) => do
    if p.1.nodeType ≠ .chance then return h
    else
      let el ← goGet elim p.2
      if el then return h
      else
        let par ← goGet par p.1.index
        if par then return h else return insertHidden h p.1 with hstep
  set q : Var → Bool := fun v => v.nodeType = .chance ∧ elim[v.index]? = some false ∧ par[v.index]? = some false with hq
  have key : ∀ (l pre : List Var), vars = pre ++ l →
      (l.zipIdx pre.length).foldlM step (pre.filter q) = .ok ((pre ++ l).filter q) := by
    intro l
    induction l with
    | nil => intro pre _; simp; rfl
    | cons v l ih =>
      intro pre hv
      have hget : vars[pre.length]? = some v := by rw [hv]; simp
      have hidx := h.idx _ _ hget
      have hlt : pre.length < vars.length := by rw [hv]; simp
      rw [List.zipIdx_cons, List.foldlM_cons]
      have hone : step (pre.filter q) (v, pre.length) = .ok ((pre ++ [v]).filter q) := by
        simp only [hstep]
        have hnot : (v.id ∉ pre.map Var.id) := by
          have := h.ids
          rw [hv, List.map_append, List.nodup_append] at this
          intro hin
          exact this.2.2 _ hin v.id (by simp) rfl
        by_cases h1 : v.nodeType = .chance
        · rw [if_neg (by simp [h1])]
          rcases getElem?_bool (he ▸ hlt : pre.length < elim.length) with h2 | h2
          · rw [goGet_eq.2 h2, ok_bind]
            simp [hq, h2, hidx, List.filter_append]; rfl
          · rw [goGet_eq.2 h2, ok_bind]
            simp only [Bool.false_eq_true, if_false]
            rcases getElem?_bool (hp ▸ hlt : pre.length < par.length) with h3 | h3
            · rw [hidx, goGet_eq.2 h3, ok_bind]
              simp [hq, h2, h3, hidx, List.filter_append]; rfl
            · rw [hidx, goGet_eq.2 h3, ok_bind]
              simp only [Bool.false_eq_true, if_false]
              have : insertHidden (pre.filter q) v = pre.filter q ++ [v] := by
                unfold insertHidden
                rw [List.filter_eq_self.2]
                intro w hw
                simp only [decide_eq_true_eq]
                intro e
                exact hnot (e ▸ List.mem_map_of_mem (List.mem_filter.1 hw).1)
              rw [this]
              simp [hq, h1, h2, h3, hidx, List.filter_append]; rfl
        · rw [if_pos h1]
          simp [hq, h1, List.filter_append]; rfl
      rw [hone, ok_bind]
      have := ih (pre ++ [v]) (by rw [hv]; simp)
      simpa using this
  have h0 := key vars [] rfl
  simp only [List.length_nil, List.filter_nil, List.nil_append] at h0
  unfold hiddenVars
  rw [← hstep, h0, ok_bind]
  unfold hiddenList
  dsimp only
  rw [List.filter_filter, List.filter_filter]
  refine congrArg Except.ok (List.filter_congr ?_)
  intro v _
  rw [Bool.eq_iff_iff]
  simp only [hq, Bool.and_eq_true, List.all_eq_true, decide_eq_true_eq]
  tauto

/-- Marking positions in a list of flags. -/
theorem foldlM_goSet_spec (vs : List Var) : ∀ (acc : List Bool), (∀ v ∈ vs, v.index < acc.length) →
    ∃ acc', vs.foldlM (fun acc v => goSet acc v.index true) acc = .ok acc' ∧ acc'.length = acc.length ∧
      ∀ i : Nat, acc'[i]? = some true ↔ acc[i]? = some true ∨ ∃ v ∈ vs, v.index = i := by
  induction vs with
  | nil => intro acc _; exact ⟨acc, rfl, rfl, by simp⟩
  | cons v vs ih =>
    intro acc h
    have hv := h v (by simp)
    obtain ⟨acc', h1, h2, h3⟩ := ih (acc.set v.index true) (by simpa using fun w hw => h w (by simp [hw]))
    refine ⟨acc', by rw [List.foldlM_cons, goSet_ok hv, ok_bind]; exact h1, by simpa using h2, ?_⟩
    intro i
    rw [h3 i]
    by_cases e : v.index = i
    · subst e; simp [hv]
    · rw [List.getElem?_set_ne e]; simp [e]

/-- The decisions whose parents are kept: the last one, or all. -/
def considered (single : Bool) (decisions : List Var) : List Var :=
  if single then decisions.reverse.take 1 else decisions.reverse

theorem mem_considered {single : Bool} {decs : List Var} {d : Var} (h : d ∈ considered single decs) : d ∈ decs := by
  unfold considered at h
  split at h
  · exact List.mem_reverse.1 (List.mem_of_mem_take h)
  · exact List.mem_reverse.1 h

/-- The parents that the dependency map gives for a decision. -/
def depsOf (deps : List (Var × List Var)) (d : Var) : List Var :=
  match deps.find? (fun e => e.1 = d) with
  | none => []
  | some e => e.2

theorem depsOf_mem {deps : List (Var × List Var)} {d p : Var} (h : p ∈ depsOf deps d) : ∃ e ∈ deps, e.1 = d ∧ p ∈ e.2 := by
  unfold depsOf at h
  cases hf : deps.find? (fun e => e.1 = d) with
  | none => rw [hf] at h; simp at h
  | some e =>
    rw [hf] at h
    have := List.find?_some hf
    exact ⟨e, List.mem_of_find?_eq_some hf, by simpa using this, h⟩

/-- What the elimination needs to know about the dependency map. -/
structure DepsOK (vars : List Var) (deps : List (Var × List Var)) : Prop where
  closed : DepsClosed (vars.filter (fun v => v.nodeType = .decision)) deps
  idx : ∀ e ∈ deps, ∀ p ∈ e.2, p.index < vars.length

theorem getDecisions_spec (sch : Sched α) (st : VE α) (hv : VarsOK st.vs.variables) (hd : DepsOK st.vs.variables st.deps) :
    ∃ decs t, st.getDecisions sch = .ok (decs, t) ∧
      decs.Perm (st.vs.variables.filter (fun v => v.nodeType = .decision)) ∧
      (DecAcyclic st.deps → TopoOrdered st.deps decs) :=
  sortTopological_spec sch ((List.Nodup.of_map _ hv.ids).filter _) hd.closed st.tick

theorem getDecisionParents_spec (sch : Sched α) (st : VE α)
    (hd : DepsOK st.vs.variables st.deps) (single : Bool) {decs : List Var} {t : Nat}
    (h : st.getDecisions sch = .ok (decs, t)) :
    ∃ par, st.getDecisionParents sch single = .ok (par, t) ∧ par.length = st.vs.variables.length ∧
      ∀ i : Nat, par[i]? = some true ↔ ∃ d ∈ considered single decs, ∃ p ∈ depsOf st.deps d, p.index = i := by
  have key : ∀ (ds : List Var) (acc : List Bool), acc.length = st.vs.variables.length →
      ∃ par, ds.foldlM (markParents st.deps) acc = .ok par ∧
        par.length = st.vs.variables.length ∧
        ∀ i : Nat, par[i]? = some true ↔ acc[i]? = some true ∨ ∃ d ∈ ds, ∃ p ∈ depsOf st.deps d, p.index = i := by
    intro ds
    induction ds with
    | nil => intro acc h; exact ⟨acc, rfl, h, by simp⟩
    | cons d ds ih =>
      intro acc hacc
      have hone : ∃ acc', markParents st.deps acc d = .ok acc' ∧
          acc'.length = st.vs.variables.length ∧
          ∀ i : Nat, acc'[i]? = some true ↔ acc[i]? = some true ∨ ∃ p ∈ depsOf st.deps d, p.index = i := by
        unfold depsOf markParents
        cases hf : st.deps.find? (fun e => e.1 = d) with
        | none => exact ⟨acc, rfl, hacc, by simp⟩
        | some e =>
          obtain ⟨acc', h1, h2, h3⟩ := foldlM_goSet_spec e.2 acc
            (fun p hp => hacc ▸ hd.idx e (List.mem_of_find?_eq_some hf) p hp)
          exact ⟨acc', h1, h2.trans hacc, h3⟩
      obtain ⟨acc', h1, h2, h3⟩ := hone
      obtain ⟨par, k1, k2, k3⟩ := ih acc' h2
      refine ⟨par, ?_, k2, ?_⟩
      · rw [List.foldlM_cons, h1, ok_bind]; exact k1
      · intro i
        rw [k3 i, h3 i]
        simp [or_assoc]
  obtain ⟨par, h1, h2, h3⟩ := key (considered single decs) (List.replicate st.vs.variables.length false) (by simp)
  refine ⟨par, ?_, h2, ?_⟩
  · unfold VE.getDecisionParents
    rw [h, ok_bind]
    dsimp only
    unfold considered at h1
    rw [h1, ok_bind]; rfl
  · intro i
    rw [h3 i]
    constructor
    · rintro (h | h)
      · rw [List.getElem?_replicate] at h
        split at h <;> simp at h
      · exact h
    · exact .inr

theorem mem_foldl_elimScopes {hs : List Var} {S : Multiset (Finset Nat)} {j : Nat} :
    j ∈ (hs.foldl (fun S h => elimScopes h.id S) S).sup ↔ j ∈ S.sup ∧ j ∉ hs.map Var.id := by
  induction hs generalizing S with
  | nil => simp
  | cons h hs ih =>
    rw [List.foldl_cons, ih, mem_elimScopes_sup]
    simp only [List.map_cons, List.mem_cons, not_or]
    tauto

/-- Eliminating a list of variables one after the other. -/
theorem removeHidden_list [CommSemiring α] {R : List Var} (hR : VarsOK R) (sch : Sched α) (hs : List Var) :
    ∀ (st : VE α), st.eliminated.length = R.length → Good R st.vs.factorCounter st.factors →
      (hs.map Var.id).Nodup →
      (∀ h ∈ hs, (∃ w ∈ R, w.id = h.id ∧ w.index = h.index ∧ w.outcomes = h.outcomes) ∧ h.id ∈ (scopes st.factors).sup) →
      ∃ n fs' el, hs.foldlM (fun st h => st.removeHidden sch h) st =
          .ok { st with vs := { st.vs with factorCounter := n }, factors := fs', tick := st.tick + hs.length,
                        eliminated := el, log := st.log ++ hs.map Var.id } ∧
        Good R n fs' ∧ el.length = R.length ∧
        (∀ i : Nat, el[i]? = some true ↔ st.eliminated[i]? = some true ∨ ∃ h ∈ hs, h.index = i) ∧
        scopes fs' = hs.foldl (fun S h => elimScopes h.id S) (scopes st.factors) ∧
        (∀ σ, FitsFs σ fs' → joint fs' σ = sumOver hs (joint st.factors) σ) ∧ Elims hs st.factors fs' := by
  induction hs with
  | nil =>
    intro st he hg _ _
    exact ⟨st.vs.factorCounter, st.factors, st.eliminated, by simp; rfl, hg, he, by simp, rfl, fun _ _ => rfl, .nil _⟩
  | cons h hs ih =>
    intro st he hg hn hh
    simp only [List.map_cons, List.nodup_cons] at hn
    obtain ⟨⟨w, hw, w1, w2, w3⟩, hsc⟩ := hh h (by simp)
    have hidx : h.index < st.eliminated.length := by rw [he, ← w2]; exact hR.index_lt hw
    obtain ⟨n1, fs1, a1, a2, a3, a4, a5⟩ := removeHidden_spec hR.ids sch st hw w1 hsc hidx hg
    obtain ⟨n2, fs2, el, b1, b2, b3, b4, b5, b6, b7⟩ := ih
      { st with vs := { st.vs with factorCounter := n1 }, factors := fs1, tick := st.tick + 1,
                eliminated := st.eliminated.set h.index true, log := st.log ++ [h.id] }
      (by simpa using he) a2 hn.2 (by
        intro u hu
        obtain ⟨u1, u2⟩ := hh u (by simp [hu])
        refine ⟨u1, ?_⟩
        simp only
        rw [a3, mem_elimScopes_sup]
        refine ⟨u2, fun e => hn.1 (e ▸ List.mem_map_of_mem hu)⟩)
    refine ⟨n2, fs2, el, ?_, b2, b3, ?_, ?_, ?_, a5.snoc_cons b7⟩
    · rw [List.foldlM_cons, a1, ok_bind]
      simp only [List.length_cons, List.map_cons] at b1 ⊢
      rw [b1]
      simp [Nat.add_assoc, Nat.add_comm 1]
    · intro i
      rw [b4 i]
      by_cases e : h.index = i
      · subst e; simp [hidx]
      · simp only
        rw [List.getElem?_set_ne e]; simp [e]
    · rw [b5, List.foldl_cons, a3]
    · intro σ hσ
      rw [b6 σ hσ]
      have hperm : sumOver (h :: hs) (joint st.factors) σ = ∑ k ∈ range h.outcomes, sumOver hs (joint st.factors) (σ.upd h.id k) := rfl
      rw [hperm, ← sumOver_snoc hs h hn.1]
      apply sumOver_congr _ hn.2
      intro τ ht1 ht2
      rw [← w3]
      apply a4
      -- the assignment fits the factors after the first elimination
      intro f hf u hu
      by_cases hu2 : u.id ∈ hs.map Var.id
      · obtain ⟨x, hx, e⟩ := List.mem_map.1 hu2
        obtain ⟨⟨y, hy, y1, y2, y3⟩, _⟩ := hh x (by simp [hx])
        have : u = y := coherent_of_nodup hR.ids u (a2.sub f hf u hu) y hy (e.symm.trans y1.symm)
        rw [this, y1, y3]; exact ht2 x hx
      · rw [ht1 _ hu2]
        have : u.id ∈ (scopes fs2).sup := by
          rw [b5]
          exact mem_foldl_elimScopes.2 ⟨mem_scopes_sup.2 ⟨f, hf, mem_scope.2 ⟨u, hu, rfl⟩⟩, hu2⟩
        obtain ⟨g, hg2, hin⟩ := mem_scopes_sup.1 this
        obtain ⟨u', hu', e⟩ := mem_scope.1 hin
        have : u' = u := coherent_of_nodup hR.ids u' (b2.sub g hg2 u' hu') u (a2.sub f hf u hu) e
        subst this
        exact hσ g hg2 _ hu'

theorem degrees_eq (sch : Sched α) (fs : List (Factor α)) (vs : List Var) (t : Nat) :
    degrees sch fs t vs = vs.map (fun v => (v, degreeIn v.id (scopes fs))) := by
  induction vs generalizing t with
  | nil => rfl
  | cons v vs ih => rw [degrees, ih, degreeOf_eq, scopes_perm (sch.fac_perm t fs), List.map_cons]

theorem stableSort_cons {A : Type} (le : A → A → Bool) (a : A) (l : List A) :
    stableSort le (a :: l) = insertBy le a (stableSort le l) := rfl

theorem insertBy_append {A : Type} {le : A → A → Bool} {a : A} : ∀ {l₁ l₂ : List A}, (∀ b ∈ l₁, !le a b) →
    (∀ b ∈ l₂.head?, le a b) → insertBy le a (l₁ ++ l₂) = l₁ ++ a :: l₂
  | [], [], _, _ => rfl
  | [], b :: l₂, _, h => by simp [insertBy, h b (by simp)]
  | b :: l₁, l₂, h, h2 => by
    have h3 := h b (by simp)
    simp only [Bool.not_eq_true'] at h3
    simp only [List.cons_append, insertBy, h3, Bool.false_eq_true, if_false]
    rw [insertBy_append (fun c hc => h c (by simp [hc])) h2]

/-- The stable sort of the model gives what merge sort gives. -/
theorem stableSort_eq {A : Type} {le : A → A → Bool} (trans : ∀ a b c, le a b → le b c → le a c)
    (total : ∀ a b, le a b || le b a) (l : List A) : stableSort le l = l.mergeSort le := by
  induction l with
  | nil => simp [stableSort]
  | cons a l ih =>
    obtain ⟨l₁, l₂, h1, h2, h3⟩ := List.mergeSort_cons trans total a l
    rw [stableSort_cons, ih, h2, h1]
    have hs := List.pairwise_mergeSort trans total (a :: l)
    rw [h1, List.pairwise_append] at hs
    refine insertBy_append h3 (fun b hb => ?_)
    exact (List.pairwise_cons.1 hs.2.1).1 b (List.mem_of_mem_head? hb)

theorem stableSort_perm {A : Type} (le : A → A → Bool) (l : List A) : (stableSort le l).Perm l := by
  have key : ∀ (a : A) (l : List A), (insertBy le a l).Perm (a :: l) := by
    intro a l
    induction l with
    | nil => exact .refl _
    | cons b l ih =>
      rw [insertBy]
      split
      · exact .refl _
      · exact (ih.cons b).trans (.swap a b l)
  induction l with
  | nil => exact .refl _
  | cons a l ih => exact (key a _).trans (ih.cons a)

theorem stableSort_id {A : Type} (f : A → Nat) (l : List A) :
    stableSort (fun a b => decide (f a ≤ f b)) l = l.mergeSort (fun a b => decide (f a ≤ f b)) := by
  apply stableSort_eq
  · intro a b c h1 h2
    simp only [decide_eq_true_eq] at *
    omega
  · intro a b
    simp only [Bool.or_eq_true, decide_eq_true_eq]
    omega

theorem sort_order (S : Multiset (Finset Nat)) (vs : List Var) (hn : (vs.map Var.id).Nodup) :
    ∃ hs : List Var, stableSort (fun a b => a.2 ≤ b.2)
        (stableSort (fun a b => a.1.id ≤ b.1.id) (vs.map (fun v => (v, degreeIn v.id S)))) =
          hs.map (fun v => (v, degreeIn v.id S)) ∧
      hs.Perm vs ∧ hs.Pairwise (DegreeThenId S) := by
  rw [stableSort_id (fun x : Var × Nat => x.2), stableSort_id (fun x : Var × Nat => x.1.id)]
  set L := vs.map (fun v => (v, degreeIn v.id S)) with hL
  set L1 := L.mergeSort (fun a b => decide (a.1.id ≤ b.1.id)) with hL1
  set L2 := L1.mergeSort (fun a b => decide (a.2 ≤ b.2)) with hL2
  have hp : L2.Perm L := (List.mergeSort_perm _ _).trans (List.mergeSort_perm _ _)
  have hform : ∀ x ∈ L2, x.2 = degreeIn x.1.id S := by
    intro x hx
    obtain ⟨v, _, rfl⟩ := List.mem_map.1 (hp.subset hx)
    rfl
  have h1 : L1.Pairwise (fun a b => a.1.id ≤ b.1.id) := by
    have := List.pairwise_mergeSort (le := fun a b : Var × Nat => decide (a.1.id ≤ b.1.id))
      (by intro a b c; simp only [decide_eq_true_eq]; omega)
      (by intro a b; simp only [Bool.or_eq_true, decide_eq_true_eq]; omega) L
    simpa using this
  have h2 : L2.Pairwise (fun a b => a.2 ≤ b.2) := by
    have := List.pairwise_mergeSort (le := fun a b : Var × Nat => decide (a.2 ≤ b.2))
      (by intro a b c; simp only [decide_eq_true_eq]; omega)
      (by intro a b; simp only [Bool.or_eq_true, decide_eq_true_eq]; omega) L1
    simpa using this
  have hnd : (L2.map (fun x => x.1.id)).Nodup := by
    refine ((hp.map _).nodup_iff).2 ?_
    simpa [hL, Function.comp_def] using hn
  have hLnd : L2.Nodup := List.Nodup.of_map _ hnd
  refine ⟨L2.map Prod.fst, ?_, ?_, ?_⟩
  · rw [List.map_map]
    conv_lhs => rw [← List.map_id L2]
    apply List.map_congr_left
    intro x hx
    simp only [id, Function.comp]
    rw [← hform x hx]
  · have := hp.map Prod.fst
    simpa [hL, Function.comp_def] using this
  · rw [List.pairwise_map]
    rw [List.pairwise_iff_forall_sublist] at h2 ⊢
    intro a b hab
    have hle := h2 hab
    have ha : a ∈ L2 := hab.subset (by simp)
    have hb : b ∈ L2 := hab.subset (by simp)
    have hne : a.1.id ≠ b.1.id := by
      have := (hab.map (fun x => x.1.id)).nodup hnd
      simpa using this
    unfold DegreeThenId
    rw [← hform a ha, ← hform b hb]
    rcases Nat.lt_or_ge a.2 b.2 with h | h
    · exact .inl h
    · refine .inr ⟨by omega, ?_⟩
      by_contra hc
      have hlt : b.1.id < a.1.id := by omega
      -- in the list sorted by ID, `b` comes before `a`
      have hba : [b, a].Sublist L1 := by
        have ha1 : a ∈ L1 := (List.mergeSort_perm L1 _).subset ha
        have hb1 : b ∈ L1 := (List.mergeSort_perm L1 _).subset hb
        obtain ⟨s, t, e⟩ := List.append_of_mem hb1
        rw [e] at ha1 h1 ⊢
        rw [List.pairwise_append] at h1
        rcases List.mem_append.1 ha1 with h' | h'
        · have := h1.2.2 a h' b (by simp); omega
        · rcases List.mem_cons.1 h' with h' | h'
          · rw [h'] at hlt; omega
          · refine List.Sublist.trans ?_ (List.sublist_append_right s _)
            exact List.Sublist.cons_cons _ (List.singleton_sublist.2 h')
      have hba2 : [b, a].Sublist L2 := List.pair_sublist_mergeSort
        (by intro a b c; simp only [decide_eq_true_eq]; omega)
        (by intro a b; simp only [Bool.or_eq_true, decide_eq_true_eq]; omega)
        (by simp only [decide_eq_true_eq]; omega) hba
      -- both orders in a list without duplicates
      obtain ⟨s, t, e⟩ := List.append_of_mem hb
      have hdis := e ▸ hLnd
      rw [List.nodup_append, List.nodup_cons] at hdis
      have hat : a ∈ t := by
        rw [e, List.sublist_append_iff] at hba2
        obtain ⟨l1, l2, e2, s1, s2⟩ := hba2
        cases l1 with
        | nil =>
          simp at e2; subst e2
          rcases List.cons_sublist_cons'.1 s2 with h' | h'
          · exact (h'.subset (by simp))
          · exact List.singleton_sublist.1 h'.2
        | cons x l1 =>
          simp at e2
          obtain ⟨rfl, _⟩ := e2
          exact absurd rfl (hdis.2.2 b (s1.subset (by simp)) b (by simp))
      have has : a ∈ s := by
        have hab' := hab
        rw [e, List.sublist_append_iff] at hab'
        obtain ⟨l1, l2, e2, s1, s2⟩ := hab'
        cases l1 with
        | nil =>
          simp at e2; subst e2
          rcases List.cons_sublist_cons'.1 s2 with h' | h'
          · exact absurd (h'.subset (by simp)) hdis.2.1.1
          · rw [h'.1] at hlt; omega
        | cons x l1 =>
          simp at e2
          obtain ⟨rfl, _⟩ := e2
          exact s1.subset (by simp)
      exact hdis.2.2 a has a (by simp [hat]) rfl

/-- The hidden variables: chance variables that are not eliminated, not parents of the considered decisions, not
evidence and not query. -/
def hiddenSet (vars : List Var) (elim : List Bool) (kept : List Var) (evidence : List Evid) (query : List Var) :
    List Var :=
  vars.filter (fun v => v.nodeType = .chance ∧ elim[v.index]? = some false ∧ (∀ p ∈ kept, p.index ≠ v.index) ∧
    (∀ e ∈ evidence, e.var.id ≠ v.id) ∧ ∀ q ∈ query, q.id ≠ v.id)

/-- `eliminateHidden` removes the hidden variables one after the other, in an order by degree and then ID. -/
theorem eliminateHidden_run [CommSemiring α] {R : List Var} (hR : VarsOK R) (sch : Sched α) (st : VE α)
    (hvars : st.vs.variables.map core = R.map core) (he : st.eliminated.length = R.length)
    (hd : DepsOK st.vs.variables st.deps)
    (evidence : List Evid) (query : List Var) (single : Bool) {decs : List Var} {t : Nat}
    (hdec : st.getDecisions sch = .ok (decs, t)) {kept : List Var}
    (hkept : kept = (considered single decs).flatMap (depsOf st.deps)) :
    ∃ (t' : Nat) (hs : List Var), st.eliminateHidden sch evidence query single =
        hs.foldlM (fun st h => st.removeHidden sch h) { st with tick := t' } ∧
      hs.Perm (hiddenSet st.vs.variables st.eliminated kept evidence query) ∧
      hs.Pairwise (DegreeThenId (scopes st.factors)) := by
  have hlen : st.vs.variables.length = R.length := by simpa using congrArg List.length hvars
  have hV : VarsOK st.vs.variables := hR.of_core hvars
  obtain ⟨par, h1, h2, h3⟩ := getDecisionParents_spec sch st hd single hdec
  have h4 := hiddenVars_eq hV (he.trans hlen.symm) h2 evidence query
  have h5 : hiddenList st.vs.variables st.eliminated par evidence query =
      hiddenSet st.vs.variables st.eliminated kept evidence query := by
    unfold hiddenList hiddenSet
    apply List.filter_congr
    intro v hv
    have hlt : v.index < par.length := by rw [h2]; exact hV.index_lt hv
    have : par[v.index]? = some false ↔ ∀ p ∈ kept, p.index ≠ v.index := by
      have h3' := h3 v.index
      rw [hkept]
      constructor
      · intro hf p hp e
        obtain ⟨d, hd1, hd2⟩ := List.mem_flatMap.1 hp
        rw [hf] at h3'
        have := h3'.2 ⟨d, hd1, p, hd2, e⟩
        simp at this
      · intro h
        rcases getElem?_bool hlt with h' | h'
        · obtain ⟨d, hd1, p, hp, e⟩ := h3'.1 h'
          exact absurd e (h p (List.mem_flatMap.2 ⟨d, hd1, hp⟩))
        · exact h'
    simp only [this]
  rw [h5] at h4
  set hid := hiddenSet st.vs.variables st.eliminated kept evidence query with hhid
  have hidn : (hid.map Var.id).Nodup := (List.filter_sublist.map _).nodup hV.ids
  have hperm := sch.var_perm t hid
  obtain ⟨hs, s1, s2, s3⟩ := sort_order (scopes st.factors) (sch.var t hid) ((hperm.map _).nodup_iff.2 hidn)
  have hsp : hs.Perm hid := s2.trans hperm
  refine ⟨t + 1 + hid.length, hs, ?_, hsp, s3⟩
  unfold VE.eliminateHidden
  rw [h1, ok_bind]
  dsimp only
  rw [h4, ok_bind]
  rw [degrees_eq, s1, List.foldlM_map]

theorem eliminateHidden_spec [CommSemiring α] {R : List Var} (hR : VarsOK R) (sch : Sched α) (st : VE α)
    (hvars : st.vs.variables.map core = R.map core) (he : st.eliminated.length = R.length)
    (hd : DepsOK st.vs.variables st.deps) (hg : Good R st.vs.factorCounter st.factors)
    (evidence : List Evid) (query : List Var) (single : Bool) {decs : List Var} {t : Nat}
    (hdec : st.getDecisions sch = .ok (decs, t)) {kept : List Var}
    (hkept : kept = (considered single decs).flatMap (depsOf st.deps))
    (hin : ∀ v ∈ hiddenSet st.vs.variables st.eliminated kept evidence query, v.id ∈ (scopes st.factors).sup) :
    ∃ n fs' el t' hs, st.eliminateHidden sch evidence query single =
        .ok { st with vs := { st.vs with factorCounter := n }, factors := fs', tick := t',
                      eliminated := el, log := st.log ++ hs.map Var.id } ∧
      Good R n fs' ∧ el.length = R.length ∧
      (∀ i : Nat, el[i]? = some true ↔ st.eliminated[i]? = some true ∨ ∃ h ∈ hs, h.index = i) ∧
      hs.Perm (hiddenSet st.vs.variables st.eliminated kept evidence query) ∧
      hs.Pairwise (DegreeThenId (scopes st.factors)) ∧
      scopes fs' = hs.foldl (fun S h => elimScopes h.id S) (scopes st.factors) ∧
      (∀ σ, FitsFs σ fs' → joint fs' σ = sumOver hs (joint st.factors) σ) ∧ Elims hs st.factors fs' := by
  have hV : VarsOK st.vs.variables := hR.of_core hvars
  obtain ⟨t1, hs, h1, hsp, s3⟩ := eliminateHidden_run hR sch st hvars he hd evidence query single hdec hkept
  obtain ⟨n, fs', el, a1, a2, a3, a4, a5, a6, a7⟩ := removeHidden_list hR sch hs
    { st with tick := t1 } he hg ((hsp.map _).nodup_iff.2 ((List.filter_sublist.map _).nodup hV.ids)) (by
      intro h hh
      have hh2 := hsp.subset hh
      have hmem : h ∈ st.vs.variables := (List.mem_filter.1 hh2).1
      exact ⟨core_mem hvars hmem, hin h hh2⟩)
  exact ⟨n, fs', el, t1 + hs.length, hs, h1.trans a1, a2, a3, a4, hsp, s3, a5, a6, a7⟩

end Bbn
