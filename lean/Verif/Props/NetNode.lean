import Verif.Props.NetTree
import Verif.Props.NetEach

/-!
# The nodes of the decision tree
-/

set_option autoImplicit false

namespace Bbn

open Finset

theorem pair_unique {β : Type} {l : List (String × β)} (h : (l.map Prod.fst).Nodup) {a b : String × β} (ha : a ∈ l)
    (hb : b ∈ l) (e : a.1 = b.1) : a = b := List.inj_on_of_nodup_map h ha hb e

theorem find_pair {β : Type} {l : List (String × β)} (h : (l.map Prod.fst).Nodup) {a : String × β} (ha : a ∈ l) :
    l.find? (fun e => e.1 = a.1) = some a := by
  have hs : (l.find? (fun e => e.1 = a.1)).isSome := List.find?_isSome.2 ⟨a, ha, by simp⟩
  obtain ⟨b, hb⟩ := Option.isSome_iff_exists.1 hs
  rw [hb, pair_unique h (List.mem_of_find?_eq_some hb) ha (by simpa using List.find?_some hb)]

variable {α : Type} [Field α] [LinearOrder α] [IsStrictOrderedRing α]

namespace Net.Timeline

variable {n : Net α} {stages : List NVar}

omit [Field α] [LinearOrder α] [IsStrictOrderedRing α] in
theorem perm_after (h : n.Timeline stages) (hn : n.Valid) {A l : List NVar} (hl : stages = A ++ l) :
    (n.stateVars.filter (fun v => v.name ∉ A.map NVar.name)).Perm (l ++ rest n stages) := by
  have hnd := h.once
  rw [hl, List.map_append, List.nodup_append] at hnd
  have hp := (h.perm hn).filter (fun v => decide (v.name ∉ A.map NVar.name))
  rw [List.filter_append, hl, List.filter_append] at hp
  have e1 : A.filter (fun v => decide (v.name ∉ A.map NVar.name)) = [] := List.filter_eq_nil_iff.2 (fun v hv => by
    simp only [decide_eq_true_eq, not_not]
    exact List.mem_map_of_mem hv)
  have e2 : l.filter (fun v => decide (v.name ∉ A.map NVar.name)) = l := List.filter_eq_self.2 (fun v hv => by
    simp only [decide_eq_true_eq]
    exact fun e => hnd.2.2 _ e _ (List.mem_map_of_mem hv) rfl)
  have e3 : (rest n (A ++ l)).filter (fun v => decide (v.name ∉ A.map NVar.name)) = rest n (A ++ l) :=
    List.filter_eq_self.2 (fun v hv => by
      have := (List.mem_filter.1 hv).2
      simp only [decide_eq_true_eq, List.map_append, List.mem_append, not_or] at this
      simpa using this.1)
  rw [e1, e2, e3, List.nil_append] at hp
  rw [hl]
  exact hp

/-- The sum over all that is not yet known, for later decisions as `δ` says. -/
theorem later (h : n.Timeline stages) (hn : n.Valid) {δ : String → World → α} (hδ : n.Follows stages δ) {A l : List NVar}
    (hl : stages = A ++ l) {w : World} (hw : n.Allowed w) :
    sumWorlds (n.stateVars.filter (fun v => v.name ∉ A.map NVar.name)) (fun w =>
      (n.chanceTables.map (fun f => n.prob f w)).prod * n.totalIn w * taken δ l w) w =
      sumWorlds l (fun w => ends n stages w * taken δ l w) w := by
  rw [sumWorlds_perm _ (h.perm_after hn hl) _ ((stateVars_names hn).sublist (List.filter_sublist.map _)), sumWorlds_append]
  have hsub : ∀ v ∈ l, v ∈ stages := fun v hv => by rw [hl]; exact List.mem_append_right _ hv
  refine sumWorlds_congr _ _ ?_ (fun w1 h1 h2 => ?_)
  · have := h.once
    rw [hl, List.map_append, List.nodup_append] at this
    exact this.2.1
  have hw1 : n.Allowed w1 := by
    intro u hu
    by_cases e : u.name ∈ l.map NVar.name
    · obtain ⟨x, hx, e⟩ := List.mem_map.1 e
      rw [← name_unique hn (mem_stateVars.1 (h.state x (hsub x hx))).1 (mem_stateVars.1 hu).1 e]
      exact h1 x hx
    · rw [h2 _ e]
      exact hw u hu
  unfold ends
  rw [mul_comm, ← sumWorlds_mul]
  refine sumWorlds_congr _ _ ((stateVars_names hn).sublist (List.filter_sublist.map _)) (fun w' h3 h4 => ?_)
  have hst : ∀ s ∈ stages.map NVar.name, w' s = w1 s := by
    intro s hs
    refine h4 s (fun hr => ?_)
    obtain ⟨v, hv, rfl⟩ := List.mem_map.1 hr
    have := (List.mem_filter.1 hv).2
    simp only [decide_eq_true_eq] at this
    exact this hs
  have hw' : n.Allowed w' := by
    intro u hu
    rcases List.mem_append.1 ((h.perm hn).subset hu) with hm | hm
    · rw [hst _ (List.mem_map_of_mem hm)]; exact hw1 u hu
    · exact h3 u hm
  rw [mul_comm]
  congr 1
  unfold taken
  congr 1
  refine List.map_congr_left (fun v hv => ?_)
  obtain ⟨h5, h6⟩ := List.mem_filter.1 hv
  obtain ⟨C, B, hc⟩ := List.append_of_mem (hsub v h5)
  refine (hδ C v B hc (by simpa using h6)).2.2 w' w1 hw' hw1 (fun s hs => hst s ?_)
  rw [hc]
  simp only [List.map_append, List.map_cons, List.map_nil, List.mem_append, List.mem_cons, List.not_mem_nil, or_false] at hs ⊢
  tauto

theorem worthTo_later (h : n.Timeline stages) (hn : n.Valid) {δ : String → World → α} (hδ : n.Follows stages δ) {A : List NVar}
    {d : NVar} {l : List NVar} (hl : stages = A ++ d :: l) (hd : d.nodeType = .decision) {w : World} (hw : n.Allowed w) :
    n.worthTo δ (order l) d.name w = sumWorlds l (fun w => ends n stages w * taken δ l w) w := by
  rw [← h.later hn hδ (A := A ++ [d]) (by rw [hl]; simp) hw]
  unfold Net.worthTo
  have hvars : n.hiddenFrom (order l) d.name = n.stateVars.filter (fun v => v.name ∉ (A ++ [d]).map NVar.name) := by
    unfold Net.hiddenFrom Net.stateVars
    rw [List.filter_filter]
    refine List.filter_congr (fun v hv => ?_)
    rw [Bool.eq_iff_iff]
    simp only [decide_eq_true_eq, Bool.and_eq_true]
    rw [h.known hl hd]
    have hiff : v.name ∉ (A ++ [d]).map NVar.name ↔ ¬ (v.name = d.name ∨ v.name ∈ A.map NVar.name) := by
      simp only [List.map_append, List.map_singleton, List.mem_append, List.mem_singleton]
      tauto
    rw [hiff]
    constructor
    · rintro ⟨h1, h2⟩
      exact ⟨h2, by rcases h1 with h1 | ⟨h1, _⟩ <;> rw [h1] <;> decide⟩
    · rintro ⟨h2, h1⟩
      refine ⟨?_, h2⟩
      cases e : v.nodeType with
      | chance => exact .inl rfl
      | decision =>
        refine .inr ⟨rfl, ?_⟩
        have := (h.order_perm hn).symm.subset (mem_decisions.2 (isKind_mem.2 ⟨v, hv, rfl, e⟩))
        unfold order at this ⊢
        rw [hl, List.filter_append, List.filter_cons_of_pos (by simpa using hd), List.map_append, List.map_cons,
          List.mem_append, List.mem_cons] at this
        rcases this with h3 | h3 | h3
        · obtain ⟨u, hu, e⟩ := List.mem_map.1 h3
          exact absurd (.inr (e ▸ List.mem_map_of_mem (List.mem_filter.1 hu).1)) h2
        · exact absurd (.inl h3) h2
        · exact h3
      | utility => exact absurd e h1
  rw [hvars]
  congr 1
  funext w
  unfold taken order
  rw [List.map_map]
  simp only [Function.comp_def]
  ring

/-- Best responses at every node give the value of the subtree at every node. -/
theorem node (h : n.Timeline stages) (hn : n.Valid) {π : String → World → α} (hπ : n.Follows stages π)
    (hb : ∀ A d l, stages = A ++ d :: l → d.nodeType = .decision → ∀ w : World,
      (∀ v ∈ n.variables, w v.name < v.outcomes.length) → π d.name w ≠ 0 → ∀ k < d.outcomes.length,
      n.worthTo π (order l) d.name (w.set d.name k) ≤ n.worthTo π (order l) d.name w) :
    ∀ (l A : List NVar), stages = A ++ l → ∀ w, n.Allowed w → (∀ s, s ∉ stages.map NVar.name → w s = 0) →
      sumWorlds l (fun w => ends n stages w * taken π l w) w = worldTree (ends n stages) l w := by
  intro l
  induction l with
  | nil => intro A _ w _ _; simp [sumWorlds, taken, worldTree]
  | cons v l ih =>
    intro A hl w hw h0
    have hv := h.state v (by rw [hl]; simp)
    have hz : ∀ k s, s ∉ stages.map NVar.name → (w.set v.name k) s = 0 := fun k s hs => by
      rw [World.set_ne _ (fun e => hs (by rw [e, hl]; simp))]
      exact h0 s hs
    have ih' := fun k (hk : k < v.outcomes.length) => ih (A ++ [v]) (by rw [hl]; simp) _ (stage_allowed hn hw hv hk) (hz k)
    by_cases hd : v.nodeType = .decision
    · rw [taken_step hn h.state h.once hπ _ hl hd hw, worldTree, if_pos hd]
      obtain ⟨p1, p2, _⟩ := hπ A v l hl hd
      have hy : ∀ k < v.outcomes.length, n.worthTo π (order l) v.name (w.set v.name k) =
          worldTree (ends n stages) l (w.set v.name k) := fun k hk => by
        rw [h.worthTo_later hn hπ hl hd (stage_allowed hn hw hv hk), ih' k hk]
      have hlarge : ∀ k ∈ range v.outcomes.length, π v.name (w.set v.name k) *
          sumWorlds l (fun w => ends n stages w * taken π l w) (w.set v.name k) = π v.name (w.set v.name k) *
          largest v.outcomes.length (fun k => worldTree (ends n stages) l (w.set v.name k)) := by
        intro k hk
        have hk := Finset.mem_range.1 hk
        by_cases e : π v.name (w.set v.name k) = 0
        · rw [e, zero_mul, zero_mul]
        · congr 1
          rw [ih' k hk]
          refine le_antisymm (largest_ge (fun k => worldTree (ends n stages) l (w.set v.name k)) hk) ?_
          obtain ⟨j, hj, e2⟩ := largest_mem (fun k => worldTree (ends n stages) l (w.set v.name k)) (Nat.zero_lt_of_lt hk)
          rw [e2]
          have := hb A v l hl hd (w.set v.name k) (fun u hu => ?_) e j hj
          · have e3 : (w.set v.name k).set v.name j = w.set v.name j := by
              funext s; simp only [World.set]; split <;> rfl
            rw [e3, hy j hj, hy k hk] at this
            exact this
          · by_cases hs : u.name ∈ stages.map NVar.name
            · obtain ⟨x, hx, e'⟩ := List.mem_map.1 hs
              have hx' := h.state x hx
              have := stage_allowed hn hw hv hk x hx'
              rw [e'] at this
              rw [← name_unique hn (mem_stateVars.1 hx').1 hu e']
              rw [e']
              exact this
            · rw [hz k _ hs]
              exact (hn.outcomes u hu).1
      rw [Finset.sum_congr rfl hlarge, ← Finset.sum_mul, p2 w hw, one_mul]
    · simp only [sumWorlds, worldTree, if_neg hd, taken_skip hd]
      exact Finset.sum_congr rfl (fun k hk => ih' k (Finset.mem_range.1 hk))

end Net.Timeline

omit [LinearOrder α] [IsStrictOrderedRing α] in
/-- With perfect recall the last decision knows all that the earlier ones know. -/
theorem worthAmong_recall [DecidableEq α] {n : Net α} (hn : n.Valid) (hr : n.Recall) {order : List String}
    (hp : order.Perm n.decisions) (ho : n.Ordered order) {A : List String} {d : String} {B : List String}
    (hl : order = A ++ d :: B) (δ : String → World → α) (w : World) :
    n.worthAmong δ A B d w = n.worthTo δ B d w := by
  unfold Net.worthAmong Net.worthTo
  congr 1
  unfold Net.unknownTo Net.hiddenFrom Net.stateVars
  rw [List.filter_filter]
  refine List.filter_congr (fun v hv => ?_)
  rw [Bool.eq_iff_iff]
  simp only [decide_eq_true_eq, Bool.and_eq_true]
  have hk : n.Known (A ++ [d]) v.name ↔ n.Known [d] v.name := by
    refine ⟨hr.known hn hp ho hl, fun h => ?_⟩
    rcases h with h | ⟨f, hf, h1, h2⟩
    · exact .inl (List.mem_append_right _ h)
    · exact .inr ⟨f, hf, List.mem_append_right _ h1, h2⟩
  constructor
  · rintro ⟨h1, h2⟩
    refine ⟨?_, fun h => h1 (hk.2 h)⟩
    cases e : v.nodeType with
    | chance => exact .inl rfl
    | utility => exact absurd e h2
    | decision =>
      refine .inr ⟨rfl, ?_⟩
      have := hp.symm.subset (mem_decisions.2 (isKind_mem.2 ⟨v, hv, rfl, e⟩))
      rw [hl, List.mem_append, List.mem_cons] at this
      rcases this with h | h | h
      · exact absurd (.inl (List.mem_append_left _ h)) h1
      · exact absurd (.inl (List.mem_append_right _ (List.mem_singleton.2 h))) h1
      · exact h
  · rintro ⟨h1, h2⟩
    refine ⟨fun h => h2 (hk.1 h), ?_⟩
    rcases h1 with h1 | ⟨h1, _⟩ <;> rw [h1] <;> decide

/-- Perfect recall: in both modes each decision is a best answer to the later ones. -/
theorem recall_answer (sch : NSched α) {n : Net α} (hn : n.Valid) (hs : n.Solvable) (hr : n.Recall)
    (hnn : ∀ f ∈ n.chanceTables, ∀ x ∈ f.tab, 0 ≤ x) (hm : ∀ d ∈ n.decisions, n.Matters [d] d) (stepwise : Bool) :
    ∃ tables n' order, n.solvePolicies sch stepwise = (.ok tables, n') ∧ order.Perm n.decisions ∧ n.Ordered order ∧
      (∀ A d B, order = A ++ d :: B → n.Strategy A d (n.byTables tables d)) ∧
      ∀ A d B, order = A ++ d :: B →
        ∀ w : World, (∀ v ∈ n.variables, w v.name < v.outcomes.length) → n.byTables tables d w ≠ 0 → ∀ k < n.count d,
          n.worthTo (n.byTables tables) B d (w.set d k) ≤ n.worthTo (n.byTables tables) B d w := by
  cases stepwise with
  | true =>
    obtain ⟨tables, n', order, h1, h2, h3, h4, h5⟩ := C83_stepwise sch hn (fun _ => hs) hnn
    exact ⟨tables, n', order, h1, h2, h3, h4, fun A d B hl => h5 A d B hl (hm d (h2.subset (by rw [hl]; simp)))⟩
  | false =>
    by_cases hd : n.decisions = []
    · obtain ⟨tables, n', h1, _⟩ := solvePolicies_net sch hn (fun _ => hs.toFeasible) false
      exact ⟨tables, n', [], h1, by rw [hd], fun A d B hl => by simp at hl, fun A d B hl => by simp at hl,
        fun A d B hl => by simp at hl⟩
    · obtain ⟨tables, n', order, h1, h2, h3, _, h4⟩ := C156_answer sch hn hs hd hnn (fun order hp ho A d B hl =>
        (hm d (hp.subset (by rw [hl]; simp))).mono (fun s h => hr.known hn hp ho hl h)) (stepwise := false) (by simp)
      refine ⟨tables, n', order, h1, h2, h3, fun A d B hl => (h4 A d B hl).1, fun A d B hl w hw hne k hk => ?_⟩
      have := (h4 A d B hl).2 w hw hne k hk
      rw [worthAmong_recall hn hr h2 h3 hl, worthAmong_recall hn hr h2 h3 hl] at this
      exact this

/-- **C155.** Perfect recall, both ways of solving: at every node of the decision tree, also at one that is
not reached under the policies, `SolveUtility` with the path to the node observed (policies of the decisions taken so far
ignored) reports what rolling back the subtree by hand gives. -/
theorem C155_node (sch : NSched α) {n : Net α} (hn : n.Valid) (hs : n.Solvable) {stages : List NVar}
    (ht : n.Timeline stages) (ho : ∀ v ∈ stages, v.outcomes.Nodup) (hnn : ∀ f ∈ n.chanceTables, ∀ x ∈ f.tab, 0 ≤ x)
    (hm : ∀ d ∈ n.decisions, n.Matters [d] d) (stepwise : Bool) :
    ∃ tables n', n.solvePolicies sch stepwise = (.ok tables, n') ∧ ∃ leaf : List (String × String) → α,
      (∀ sch₁ path, n.EvidenceOK path → path.map Prod.fst = stages.map NVar.name →
        n'.Worth sch₁ path "" true (leaf path)) ∧
      ∀ sch₂ seen later path, stages = seen ++ later → n.EvidenceOK path → path.map Prod.fst = seen.map NVar.name →
        n'.Worth sch₂ path "" true (rollback leaf later path) := by
  obtain ⟨tables, n', order, h1, h2, h3, h4, h5⟩ := recall_answer sch hn hs (ht.recall hn) hnn hm stepwise
  obtain ⟨tables', m', k1, _, k3, _, k5, k6, ⟨vs0, names0, pols0, k7⟩, k8, _⟩ :=
    solvePolicies_net sch hn (fun _ => hs.toFeasible) stepwise
  rw [h1] at k1
  obtain ⟨e1, rfl⟩ := Prod.mk.inj k1
  obtain rfl := Except.ok.inj e1
  have hvars : n'.variables = n.variables := by rw [k7]
  have hsol : n'.AllSolved := by
    intro v hv ht
    unfold Net.hasPolicy
    exact mapGet_isSome.2 (k8.symm.subset ((k3 _).2 (by rw [isKind_iff hn (by rw [← hvars]; exact hv)]; exact ht)))
  have hutil : n'.utilityVars ≠ [] := by rw [k7]; exact hs.utility
  have hask : ∀ w, n'.asked "" w = n.totalIn w := fun w => by rw [k7]; rfl
  have hagr : ∀ ev w, n'.Agrees ev w ↔ n.Agrees ev w := fun ev w => by unfold Net.Agrees; rw [hvars]
  have hr := ht.recall hn
  obtain rfl := hr.inLine.unique hn h2 (ht.order_perm hn) h3 (ht.order_ordered hn)
  have hπ := (ht.strategies hn _).1 h4
  obtain ⟨hpp, _⟩ := stored_tables sch hn (fun _ => hs.toFeasible) h1
  set leaf : List (String × String) → α := fun path => n.total [] (fun w => if n.Agrees path w then n.totalIn w else 0) with hlf
  have main : ∀ sch₂ seen later path, stages = seen ++ later → n.EvidenceOK path → path.map Prod.fst = seen.map NVar.name →
      n'.Worth sch₂ path "" true (rollback leaf later path) := by
    intro sch₂ seen later path hl hev hpath
    have hsub : ∀ v ∈ seen, v ∈ stages := fun v hv => by rw [hl]; exact List.mem_append_left _ hv
    have hw := worth_total sch₂ k5 k6.toPoliciesOK hsol (evidence := path) ⟨hev.keys, by rw [hvars]; exact hev.known⟩
      (u := "") (.inl ⟨rfl, hutil⟩) true
    have hact : n'.active path true = n'.policies.filter (fun p => (fun s => decide (s ∉ seen.map NVar.name)) p.1) := by
      unfold Net.active
      rw [if_pos rfl]
      refine List.filter_congr (fun p hp => ?_)
      rw [decide_eq_decide, ← hpath]
      simp only [List.mem_map, not_exists, not_and]
    rw [hact, solved_filter sch hn hs.toFeasible h1 (fun s => decide (s ∉ seen.map NVar.name))] at hw
    -- the world in which the path was taken
    set t : World := fun s => if s ∈ seen.map NVar.name then n.observe path (fun _ => 0) s else 0 with ht'
    have hobs : ∀ v ∈ seen, t v.name < v.outcomes.length ∧ (v.name, v.outcomes.getD (t v.name) "") ∈ path := by
      intro v hv
      have hmem : v.name ∈ path.map Prod.fst := by rw [hpath]; exact List.mem_map_of_mem hv
      obtain ⟨e, he, ee⟩ := List.mem_map.1 hmem
      have hfind : path.find? (fun e => e.1 = v.name) = some e := by
        rw [← ee]
        exact find_pair hev.keys he
      have hvv := (mem_stateVars.1 (ht.state v (hsub v hv))).1
      have htv : t v.name = v.outcomes.idxOf e.2 := by
        rw [ht']
        simp only [List.mem_map_of_mem (f := NVar.name) hv, if_true]
        unfold Net.observe
        rw [hfind]
        simp only [find_name hn hvv, Option.map_some, Option.getD_some]
      obtain ⟨u, hu, eu, _, hin⟩ := hev.known e he
      have := name_unique hn hu hvv (by rw [eu, ee])
      rw [this] at hin
      have hlt := List.idxOf_lt_length_of_mem hin
      rw [htv]
      refine ⟨hlt, ?_⟩
      rw [List.getD_eq_getElem?_getD, List.getElem?_eq_getElem hlt, Option.getD_some, List.getElem_idxOf, ← ee]
      exact he
    have hz : ∀ s, s ∉ stages.map NVar.name → t s = 0 := by
      intro s hs
      rw [ht']
      simp only
      rw [if_neg (fun h => hs ?_)]
      obtain ⟨v, hv, rfl⟩ := List.mem_map.1 h
      exact List.mem_map_of_mem (hsub v hv)
    have hat : n.Allowed t := by
      intro u hu
      by_cases e : u.name ∈ seen.map NVar.name
      · obtain ⟨v, hv, e⟩ := List.mem_map.1 e
        rw [← name_unique hn (mem_stateVars.1 (ht.state v (hsub v hv))).1 (mem_stateVars.1 hu).1 e]
        exact (hobs v hv).1
      · rw [ht']
        simp only [e, if_false]
        exact allowed_zero hn u hu
    have htold : path = told seen t := by
      unfold told
      refine List.ext_getElem (by simpa using congrArg List.length hpath) (fun i h1 h2 => ?_)
      rw [List.getElem_map]
      have hi : i < seen.length := by simpa using h2
      have hname : path[i].1 = seen[i].name := by
        have := List.getElem_of_eq hpath (i := i) (by simpa using h1)
        simpa using this
      have hm := (hobs _ (List.getElem_mem hi)).2
      have := pair_unique hev.keys (List.getElem_mem h1) hm hname
      exact this
    have hagt : ∀ w', n.Agrees path w' ↔ ∀ v ∈ seen, w' v.name = t v.name := by
      intro w'
      unfold Net.Agrees
      conv_lhs => rw [htold]
      unfold told
      simp only [List.forall_mem_map]
      refine forall₂_congr (fun v hv => ?_)
      have hvv := (mem_stateVars.1 (ht.state v (hsub v hv))).1
      have hlt := (hobs v hv).1
      have hi : v.outcomes.idxOf (v.outcomes.getD (t v.name) "") = t v.name := by
        rw [List.getD_eq_getElem?_getD, List.getElem?_eq_getElem hlt, Option.getD_some]
        exact (ho v (hsub v hv)).idxOf_getElem _ hlt
      constructor
      · intro h'
        rw [h' v hvv rfl, hi]
      · intro h' u hu e
        rw [name_unique hn hu hvv e, hi, h']
    have e3 := rollback_world hn (Net.Timeline.ends n stages) leaf ht.state ht.once
      (fun w hw h0 => ht.leaf hn ho hw h0) later seen hl t hat hz
    rw [← htold] at e3
    rw [e3, ← ht.node hn hπ (fun A d l hl hd w hw hne k hk => ?_) later seen hl t hat hz, ← ht.later hn hπ hl hat]
    · convert hw using 1
      unfold Net.total
      have hjoint : (fun w => n.joint [] w * ((if n'.Agrees path w then n'.asked "" w else 0) *
          ((n.decisions.filter (fun s => decide (s ∉ seen.map NVar.name))).map (fun d => n.byTables tables d w)).prod)) =
          fun w => if n.Agrees path w then (n.chanceTables.map (fun f => n.prob f w)).prod * n.totalIn w *
            taken (n.byTables tables) later w else 0 := by
        funext w
        have hprod : ((n.decisions.filter (fun s => decide (s ∉ seen.map NVar.name))).map (fun d => n.byTables tables d w)).prod =
            taken (n.byTables tables) later w := by
          have hp := (ht.order_perm hn).filter (fun s => decide (s ∉ seen.map NVar.name))
          rw [← (hp.map _).prod_eq]
          have hnd := ht.once
          rw [hl, List.map_append, List.nodup_append] at hnd
          have : (Net.Timeline.order stages).filter (fun s => decide (s ∉ seen.map NVar.name)) = Net.Timeline.order later := by
            unfold Net.Timeline.order
            rw [hl, List.filter_append, List.map_append, List.filter_append,
              List.filter_eq_nil_iff.2 (fun s hs => ?_), List.nil_append, List.filter_eq_self.2 (fun s hs => ?_)]
            · obtain ⟨v, hv, rfl⟩ := List.mem_map.1 hs
              simp only [decide_eq_true_eq]
              exact fun e => hnd.2.2 _ e _ (List.mem_map_of_mem (List.mem_filter.1 hv).1) rfl
            · obtain ⟨v, hv, rfl⟩ := List.mem_map.1 hs
              simp only [decide_eq_true_eq, not_not]
              exact List.mem_map_of_mem (List.mem_filter.1 hv).1
          rw [this]
          unfold Net.Timeline.order taken
          rw [List.map_map]
          rfl
        rw [hprod]
        unfold Net.joint
        simp only [hagr, hask]
        split_ifs <;> simp [mul_assoc]
      rw [hjoint, sumWorlds_pin (P := fun v => decide (v.name ∈ seen.map NVar.name)) (t := t) (stateVars_names hn) hat]
      · congr 2
        funext v
        exact decide_not
      · intro s hs
        refine hz s (fun e => hs ?_)
        obtain ⟨v, hv, rfl⟩ := List.mem_map.1 e
        exact List.mem_map_of_mem (ht.state v hv)
      · exact (hagt t).2 (fun _ _ => rfl)
      · intro w' ha v _ hP
        obtain ⟨u, hu, e⟩ := List.mem_map.1 (of_decide_eq_true hP)
        rw [← e]
        exact (hagt w').1 ha u hu
      · intro w' w'' hh ha
        rw [hagt] at ha ⊢
        intro v hv
        rw [← hh v (ht.state v (hsub v hv)) (by simp only [decide_eq_true_eq]; exact List.mem_map_of_mem hv)]
        exact ha v hv
    · have hord : Net.Timeline.order stages = Net.Timeline.order A ++ d.name :: Net.Timeline.order l := by
        unfold Net.Timeline.order
        rw [hl, List.filter_append, List.filter_cons_of_pos (by simpa using hd), List.map_append, List.map_cons]
      exact h5 _ _ _ hord w hw hne k
        (by rw [count_eq hn (mem_stateVars.1 (ht.state d (by rw [hl]; simp))).1]; exact hk)
  refine ⟨tables, n', h1, leaf, fun sch₁ path hev hpath => ?_, main⟩
  exact main sch₁ stages [] path (by simp) hev hpath

namespace Ex

/-- In the oil network, after a test that says "closed", drilling or not is worth the better of the two leaves. -/
example (sch sch₂ : NSched ℚ) (stepwise : Bool) : ∃ tables n', oil.solvePolicies sch stepwise = (.ok tables, n') ∧
    ∃ leaf : List (String × String) → ℚ,
      n'.Worth sch₂ [("Do test drill", "yes"), ("Test result", "closed"), ("Do drill", "no")] "" true
        (leaf [("Do test drill", "yes"), ("Test result", "closed"), ("Do drill", "no")]) ∧
      n'.Worth sch₂ [("Do test drill", "yes"), ("Test result", "closed")] "" true
        (rollback leaf (oilStages.drop 2) [("Do test drill", "yes"), ("Test result", "closed")]) := by
  obtain ⟨tables, n', h1, leaf, h2, h3⟩ := C155_node sch oil_valid oil_solvable oil_timeline
    (by decide) (by decide +kernel) oil_matters stepwise
  exact ⟨tables, n', h1, leaf, h2 sch₂ _ ⟨by decide, by decide⟩ rfl,
    h3 sch₂ (oilStages.take 2) (oilStages.drop 2) _ rfl ⟨by decide, by decide⟩ rfl⟩

end Ex

end Bbn
