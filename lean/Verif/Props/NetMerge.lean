import Verif.Spec.Merge
import Verif.Props.NetSameJoint

/-!
# C147: outcomes that nothing distinguishes can be merged
-/

set_option autoImplicit false

namespace Bbn

open Finset

variable {α : Type}

section Merge

variable [Field α] [DecidableEq α] {n m : Net α} {s : String} {ρ : Nat → Nat} (hm : n.Merges m s ρ)

include hm

theorem Merges.var {v : NVar} (h : v ∈ n.variables) : ∃ v' ∈ m.variables, v'.name = v.name ∧ v'.nodeType = v.nodeType ∧
    (v.name ≠ s → v'.outcomes = v.outcomes) := forall₂_mem_left hm.vars h

theorem Merges.back {v' : NVar} (h : v' ∈ m.variables) : ∃ v ∈ n.variables, v'.name = v.name ∧ v'.nodeType = v.nodeType ∧
    (v.name ≠ s → v'.outcomes = v.outcomes) := forall₂_mem_right hm.vars h

theorem Merges.isKind (t : NodeType) (x : String) : m.isKind t x = n.isKind t x := by
  rw [Bool.eq_iff_iff, isKind_mem, isKind_mem]
  constructor
  · rintro ⟨v, hv, e, k⟩
    obtain ⟨u, hu, k1, k2, _⟩ := Merges.back hm hv
    exact ⟨u, hu, by rw [← k1, e], by rw [← k2, k]⟩
  · rintro ⟨v, hv, e, k⟩
    obtain ⟨u, hu, k1, k2, _⟩ := Merges.var hm hv
    exact ⟨u, hu, by rw [k1, e], by rw [k2, k]⟩

theorem Merges.count (hn : n.Valid) (hn' : m.Valid) {x : String} (h : ∃ v ∈ n.variables, v.name = x) (hx : x ≠ s) :
    m.count x = n.count x := by
  obtain ⟨v, hv, rfl⟩ := h
  obtain ⟨u, hu, k1, _, k3⟩ := Merges.var hm hv
  rw [count_eq hn hv, ← k1, count_eq hn' hu, k3 hx]

theorem Merges.allowed (hn : n.Valid) (hn' : m.Valid) {w : World} (hw : n.Allowed w) :
    m.Allowed (w.set s (ρ (w s))) := by
  intro v' hv'
  obtain ⟨h1, h2⟩ := mem_stateVars.1 hv'
  obtain ⟨v, hv, k1, k2, k3⟩ := Merges.back hm h1
  have hlt := hw v (mem_stateVars.2 ⟨hv, by rw [← k2]; exact h2⟩)
  by_cases e : v.name = s
  · have := hm.into (w s) (by rw [← e, count_eq hn hv]; exact hlt)
    rw [k1, e, World.set_eq, ← count_eq hn' h1, k1, e]
    exact this
  · rw [k1, World.set_ne _ e, k3 e]; exact hlt

theorem Merges.agrees (hn : n.Valid) {evidence : List (String × String)}
    (hu : n.Unmerged m s ρ evidence) {w : World} (hw : n.Allowed w) :
    m.Agrees evidence (w.set s (ρ (w s))) ↔ n.Agrees evidence w := by
  obtain ⟨vs, hvs, es, hc⟩ := isKind_mem.1 hm.chance
  have hlt := hw vs (mem_stateVars.2 ⟨hvs, by rw [hc]; decide⟩)
  constructor
  · intro h e he v hv k
    obtain ⟨v', hv', k1, k2, k3⟩ := Merges.var hm hv
    have := h e he v' hv' (by rw [k1, k])
    by_cases x : e.1 = s
    · rw [x, World.set_eq] at this
      have hvv : vs = v := name_unique hn hvs hv (by rw [es, k, x])
      rw [x]
      refine ((hu e he x v hv v' hv' (by rw [k, x]) (by rw [k1, k, x])).2 (w s) ?_).1 this
      rw [← hvv, ← es]; exact hlt
    · rw [World.set_ne _ x] at this
      rw [this, k3 (by rw [k]; exact x)]
  · intro h e he v' hv' k
    obtain ⟨v, hv, k1, k2, k3⟩ := Merges.back hm hv'
    have := h e he v hv (by rw [← k1, k])
    by_cases x : e.1 = s
    · rw [x, World.set_eq]
      rw [x] at this
      have hvv : vs = v := name_unique hn hvs hv (by rw [es, ← k1, k, x])
      refine ((hu e he x v hv v' hv' (by rw [← k1, k, x]) (by rw [k, x])).2 (w s) ?_).2 this
      rw [← hvv, ← es]; exact hlt
    · rw [World.set_ne _ x, this, k3 (by rw [← k1, k]; exact x)]

theorem Merges.evidence {evidence : List (String × String)} (hu : n.Unmerged m s ρ evidence)
    (h : n.EvidenceOK evidence) : m.EvidenceOK evidence := by
  refine ⟨h.keys, fun e he => ?_⟩
  obtain ⟨v, hv, e1, e2, e3⟩ := h.known e he
  obtain ⟨u, hu', k1, k2, k3⟩ := Merges.var hm hv
  refine ⟨u, hu', by rw [k1, e1], by rw [k2]; exact e2, ?_⟩
  by_cases x : v.name = s
  · exact (hu e he (by rw [← e1, x]) v hv u hu' x (by rw [k1, x])).1
  · rw [k3 x]; exact e3

/-- The probabilities of the other variables are the same. -/
theorem Merges.kernel (hn : n.Valid) (hn' : m.Valid) {v v' : NVar} (hv : v ∈ n.stateVars) (e : v'.name = v.name)
    (hs : v.name ≠ s) {w : World} (hw : n.Allowed w) : n.kernel v w = m.kernel v' (w.set s (ρ (w s))) := by
  have hv0 := (mem_stateVars.1 hv).1
  by_cases hc : v.nodeType = .chance
  · obtain ⟨f, hf, ef⟩ := hn.hasTable v hv0 (by rw [hc]; decide)
    have hf0 : f ∈ n.chanceTables := mem_chanceTables.2 ⟨hf, by rw [ef, isKind_iff hn hv0, hc]⟩
    obtain ⟨g, hg, eg, h⟩ := hm.others f hf0 (by rw [ef]; exact hs)
    rw [kernel_table hn hf0 ef.symm, kernel_table hn' hg (by rw [e, eg, ef]), h w hw]
  · have h1 : n.isKind .chance v.name = false := by rw [Bool.eq_false_iff, ne_eq, isKind_iff hn hv0]; exact hc
    rw [kernel_none h1, kernel_none (n := m) (by rw [Merges.isKind hm, e]; exact h1)]

theorem Merges.state : List.Forall₂ (fun v v' : NVar => v'.name = v.name ∧ v'.nodeType = v.nodeType ∧
    (v.name ≠ s → v'.outcomes = v.outcomes)) n.stateVars m.stateVars := by
  have h := hm.vars
  unfold Net.stateVars
  revert h
  generalize n.variables = l
  generalize m.variables = l'
  intro h
  induction h with
  | nil => exact List.Forall₂.nil
  | cons hd _ ih =>
    rw [List.filter_cons, List.filter_cons, hd.2.1]
    split
    · exact List.Forall₂.cons hd ih
    · exact ih

omit hm in
theorem perm_last (s : String) : ∀ l : List NVar, (l.map NVar.name).Nodup → ∀ v ∈ l, v.name = s →
    l.Perm (l.filter (fun v => v.name ≠ s) ++ [v]) := by
  intro l
  induction l with
  | nil => intro _ v hv; simp at hv
  | cons a l ih =>
    intro hnd v hv e
    rw [List.map_cons, List.nodup_cons] at hnd
    rcases List.mem_cons.1 hv with rfl | hv
    · have hl : l.filter (fun u => u.name ≠ s) = l := by
        rw [List.filter_eq_self]
        intro u hu
        simp only [ne_eq, decide_eq_true_eq]
        intro e'
        exact hnd.1 (by rw [e, ← e']; exact List.mem_map_of_mem hu)
      rw [List.filter_cons_of_neg (by simp [e]), hl]
      exact (List.perm_append_singleton v l).symm
    · have ha : a.name ≠ s := fun e' => hnd.1 (by rw [e', ← e]; exact List.mem_map_of_mem hv)
      rw [List.filter_cons_of_pos (by simp [ha])]
      exact (ih hnd.2 v hv e).cons a

/-- Every sum over the situations of the coarse network is a sum over those of the fine one. -/
theorem Merges.total (hn : n.Valid) (hn' : m.Valid) {F G : World → α}
    (hF : ∀ w, n.Allowed w → F w = G (w.set s (ρ (w s)))) : n.total [] F = m.total [] G := by
  obtain ⟨vs, hvs, es, hc⟩ := isKind_mem.1 hm.chance
  have hvs' : vs ∈ n.stateVars := mem_stateVars.2 ⟨hvs, by rw [hc]; decide⟩
  obtain ⟨us, hus', eu, hcu, _⟩ := forall₂_mem_left (Merges.state hm) hvs'
  have hus := (mem_stateVars.1 hus').1
  have hpn := perm_last s n.stateVars (stateVars_names hn) vs hvs' es
  have hpm := perm_last s m.stateVars (stateVars_names hn') us hus' (eu.trans es)
  have hrest : (m.stateVars.filter (fun v => v.name ≠ s)).map NVar.bare =
      (n.stateVars.filter (fun v => v.name ≠ s)).map NVar.bare := by
    have := Merges.state hm
    revert this
    generalize n.stateVars = l
    generalize m.stateVars = l'
    intro h
    induction h with
    | nil => rfl
    | cons hd _ ih =>
      rw [List.filter_cons, List.filter_cons, hd.1]
      split
      · rename_i hx
        simp only [ne_eq, decide_eq_true_eq] at hx
        rw [List.map_cons, List.map_cons, ih]
        unfold NVar.bare
        rw [hd.1, hd.2.2 hx]
      · exact ih
  unfold Net.total
  rw [sumWorlds_perm _ hpn _ (stateVars_names hn), sumWorlds_perm _ hpm _ (stateVars_names hn'), sumWorlds_append,
    sumWorlds_append, ← sumWorlds_bare _ (m.stateVars.filter _), hrest, sumWorlds_bare]
  have hnd : ((n.stateVars.filter (fun v => v.name ≠ s)).map NVar.name).Nodup :=
    (stateVars_names hn).sublist (List.filter_sublist.map _)
  refine sumWorlds_congr _ _ hnd (fun w hw _ => ?_)
  -- the remaining sum over the outcomes of the variable
  have hall : ∀ k < n.count s, n.Allowed (w.set s k) := by
    intro k hk v hv
    by_cases e : v.name = s
    · rw [e, World.set_eq, ← count_eq hn (mem_stateVars.1 hv).1, e]; exact hk
    · rw [World.set_ne _ e]
      exact hw v (List.mem_filter.2 ⟨hv, by simp [e]⟩)
  have cn : vs.outcomes.length = n.count s := by rw [← es, count_eq hn hvs]
  have cm : us.outcomes.length = m.count s := by rw [← es, ← eu, count_eq hn' hus]
  simp only [sumWorlds]
  rw [cn, cm, es, eu, es]
  obtain ⟨f, hf, ef⟩ := hn.hasTable vs hvs (by rw [hc]; decide)
  have hf0 : f ∈ n.chanceTables := mem_chanceTables.2 ⟨hf, by rw [ef, isKind_iff hn hvs, hc]⟩
  obtain ⟨g, hg, eg, hown⟩ := hm.own f hf0 (by rw [ef, es])
  -- split off the variable's own probability
  have hjn : ∀ w', n.joint [] w' = n.prob f w' *
      ((n.stateVars.filter (fun v => v.name ≠ s)).map (fun v => n.kernel v w')).prod := by
    intro w'
    rw [joint_kernel hn, (hpn.map _).prod_eq, List.map_append, List.prod_append, mul_comm]
    simp [kernel_table hn hf0 (v := vs) ef.symm]
  have hjm : ∀ w', m.joint [] w' = m.prob g w' *
      ((n.stateVars.filter (fun v => v.name ≠ s)).map (fun v => m.kernel v w')).prod := by
    intro w'
    have hb : (fun v => m.kernel v w') = (fun v => m.kernel v w') ∘ NVar.bare := rfl
    have h1 : (m.stateVars.filter (fun v => v.name ≠ s)).map (fun v => m.kernel v w') =
        (n.stateVars.filter (fun v => v.name ≠ s)).map (fun v => m.kernel v w') := by
      rw [hb, ← List.map_map, hrest, List.map_map]
    rw [joint_kernel hn', (hpm.map _).prod_eq, List.map_append, List.prod_append, mul_comm, h1]
    simp [kernel_table hn' hg (v := us) (by rw [eu, es, eg])]
  have hterm : ∀ k ∈ range (n.count s), n.joint [] (w.set s k) * F (w.set s k) = n.prob f (w.set s k) *
      (((n.stateVars.filter (fun v => v.name ≠ s)).map (fun v => m.kernel v (w.set s (ρ k)))).prod * G (w.set s (ρ k))) := by
    intro k hk
    have hk := mem_range.1 hk
    have hw' := hall k hk
    have e1 : (w.set s k).set s (ρ ((w.set s k) s)) = w.set s (ρ k) := by rw [World.set_eq, World.set_set]
    rw [hjn, hF _ hw', e1, mul_assoc]
    congr 3
    refine List.map_congr_left (fun v hv => ?_)
    obtain ⟨hv1, hv2⟩ := List.mem_filter.1 hv
    simp only [ne_eq, decide_eq_true_eq] at hv2
    rw [Merges.kernel hm hn hn' hv1 rfl hv2 hw', e1]
  rw [sum_congr rfl hterm, ← sum_fiberwise_of_maps_to (g := ρ) (t := range (m.count s))
    (fun k hk => mem_range.2 (hm.into k (mem_range.1 hk)))]
  have h0 : 0 < n.count s := by rw [← cn]; exact (hn.outcomes vs hvs).1
  refine sum_congr rfl (fun j hj => ?_)
  have e2 : ∀ x, (w.set s 0).set s x = w.set s x := fun x => World.set_set _ _ _ _
  have := hown _ (hall 0 h0) j (mem_range.1 hj)
  rw [e2] at this
  rw [hjm, this, mul_assoc, sum_mul]
  refine sum_congr rfl (fun k hk => ?_)
  rw [(mem_filter.1 hk).2, e2]

end Merge

/-- **C147, queries.** Outcomes of a chance variable are merged that no other variable distinguishes. Then the answers for
all other variables stay the same, and the answer for a merged outcome is the sum of the answers for its parts. Evidence
may be about all other variables, and about outcomes of the variable that are not merged with others. -/
theorem C147_query [Field α] [CharZero α] [DecidableEq α] (sch sch' : NSched α) {n m : Net α} (hn : n.Valid) (hn' : m.Valid)
    (hpol : n.policies = []) (hpol' : m.policies = []) {s : String} {ρ : Nat → Nat} (hm : n.Merges m s ρ)
    {evidence : List (String × String)} (hev : n.EvidenceOK evidence) (hu : n.Unmerged m s ρ evidence) {query : List String}
    (hq : ∀ q ∈ query, n.isKind .chance q = true ∧ q ∉ evidence.map Prod.fst) (ign ign' : Bool)
    (possible : n.mass [] (n.Agrees evidence) ≠ 0) :
    ∃ r f n1 r' f' m1, n.solveQuery sch evidence query ign = (.ok (r, f), n1) ∧
      m.solveQuery sch' evidence query ign' = (.ok (r', f'), m1) ∧
      (r.map Prod.fst).Nodup ∧ (r'.map Prod.fst).Nodup ∧
      (∀ x, x ∈ r.map Prod.fst ↔ x ∈ query) ∧ (∀ x, x ∈ r'.map Prod.fst ↔ x ∈ query) ∧
      (∀ q ∈ query, q ≠ s → ∃ d : List α, (q, d) ∈ r ∧ (q, d) ∈ r') ∧
      (s ∈ query → ∃ d d' : List α, (s, d) ∈ r ∧ (s, d') ∈ r' ∧ d.length = n.count s ∧ d'.length = m.count s ∧
        ∀ j < m.count s, d'[j]? = some (∑ k ∈ (range (n.count s)).filter (fun k => ρ k = j), d.getD k 0)) := by
  have hmass : n.mass [] (n.Agrees evidence) = m.mass [] (m.Agrees evidence) :=
    Merges.total hm hn hn' (fun w hw => by simp only [Merges.agrees hm hn hu hw])
  have hok : ∀ {m : Net α}, m.Valid → ∀ i, (∀ q ∈ query, m.isKind .chance q = true) → m.QueryOK evidence i query := by
    intro m hm i h
    refine ⟨fun q hq' => ?_, fun q hq' e he e' => (hq q hq').2 (e' ▸ List.mem_map_of_mem he), fun q hq' => ?_⟩
    · obtain ⟨v, hv, e1, e2⟩ := isKind_mem.1 (h q hq')
      exact ⟨v, mem_stateVars.2 ⟨hv, by rw [e2]; decide⟩, e1⟩
    · obtain ⟨v, hv, e1, e2⟩ := isKind_mem.1 (h q hq')
      rw [← e1]; exact chance_occurs hm _ hv e2
  have hact : n.active evidence ign = [] := by simp [Net.active, hpol]
  have hact' : m.active evidence ign' = [] := by simp [Net.active, hpol']
  obtain ⟨r, f, n1, a1, a2, a3, a4⟩ := C31_solveQuery_posterior sch hn (by constructor <;> simp [hpol]) hev ign
    (hok hn _ (fun q h => (hq q h).1)) (by rw [hact]; exact possible)
  obtain ⟨r', f', m1, b1, b2, b3, b4⟩ := C31_solveQuery_posterior sch' hn' (by constructor <;> simp [hpol'])
    (Merges.evidence hm hu hev) ign' (hok hn' _ (fun q h => by rw [Merges.isKind hm]; exact (hq q h).1))
    (by rw [hact', ← hmass]; exact possible)
  rw [hact] at a4
  rw [hact'] at b4
  refine ⟨r, f, n1, r', f', m1, a1, b1, a2, b2, a3, b3, fun q hqm hqs => ?_, fun hqm => ?_⟩
  · obtain ⟨d, c1, c2, c3⟩ := a4 q hqm
    obtain ⟨d', e1, e2, e3⟩ := b4 q hqm
    refine ⟨d, c1, ?_⟩
    have hc : m.count q = n.count q := by
      obtain ⟨v, hv, ev, _⟩ := isKind_mem.1 (hq q hqm).1
      exact Merges.count hm hn hn' ⟨v, hv, ev⟩ hqs
    have : d = d' := by
      apply List.ext_getElem?
      intro k
      by_cases hk : k < n.count q
      · rw [c3 k hk, e3 k (by rw [hc]; exact hk), hmass]
        congr 2
        refine Merges.total hm hn hn' (fun w hw => ?_)
        simp only [Merges.agrees hm hn hu hw, World.set_ne _ hqs]
      · rw [List.getElem?_eq_none (by omega), List.getElem?_eq_none (by omega)]
    rw [this]; exact e1
  · obtain ⟨d, c1, c2, c3⟩ := a4 s hqm
    obtain ⟨d', e1, e2, e3⟩ := b4 s hqm
    refine ⟨d, d', c1, e1, c2, e2, fun j hj => ?_⟩
    rw [e3 j hj]
    have h1 : ∀ k ∈ (range (n.count s)).filter (fun k => ρ k = j), d.getD k 0 =
        n.mass [] (fun w => n.Agrees evidence w ∧ w s = k) / n.mass [] (n.Agrees evidence) := by
      intro k hk
      rw [List.getD_eq_getElem?_getD, c3 k (mem_range.1 (mem_filter.1 hk).1)]; rfl
    rw [sum_congr rfl h1, ← sum_div, hmass]
    congr 2
    have h2 : m.mass [] (fun w => m.Agrees evidence w ∧ w s = j) =
        n.mass [] (fun w => n.Agrees evidence w ∧ ρ (w s) = j) := by
      refine (Merges.total hm hn hn' (fun w hw => ?_)).symm
      simp only [Merges.agrees hm hn hu hw, World.set_eq]
    rw [h2]
    unfold Net.mass
    obtain ⟨vs, hvs, es, hc⟩ := isKind_mem.1 hm.chance
    have h3 : ∀ S : Finset Nat, ∑ k ∈ S, n.total [] (fun w => if n.Agrees evidence w ∧ w s = k then 1 else 0) =
        n.total [] (fun w => ∑ k ∈ S, if n.Agrees evidence w ∧ w s = k then 1 else 0) := by
      intro S
      induction S using Finset.induction_on with
      | empty =>
        simp only [sum_empty]
        unfold Net.total
        simp only [mul_zero, sumWorlds_zero]
      | insert a S ha ih =>
        simp only [sum_insert ha]
        rw [ih]
        unfold Net.total
        rw [← sumWorlds_add]
        simp only [mul_add]
    rw [h3]
    unfold Net.total
    refine sumWorlds_congr _ _ (stateVars_names hn) (fun w hw _ => ?_)
    have hlt : w s < n.count s := by
      rw [← es, count_eq hn hvs]; exact hw vs (mem_stateVars.2 ⟨hvs, by rw [hc]; decide⟩)
    congr 1
    by_cases hag : n.Agrees evidence w
    · simp only [hag, true_and]
      rw [sum_ite_eq]
      simp [hlt]
    · simp [hag]

/-- **C147, utilities.** If the utilities do not tell merged outcomes apart either, expected utilities stay the same. -/
theorem C147_utility [Field α] [DecidableEq α] (sch sch' : NSched α) {n m : Net α} (hn : n.Valid) (hn' : m.Valid)
    (hdec : ∀ v ∈ n.variables, v.nodeType ≠ .decision) (hpol : n.policies = []) (hpol' : m.policies = [])
    {s : String} {ρ : Nat → Nat} (hm : n.Merges m s ρ) {u : String}
    (hu : u = "" ∧ n.utilityVars ≠ [] ∨ ∃ v ∈ n.utilityVars, v.name = u)
    (hu' : u = "" ∧ m.utilityVars ≠ [] ∨ ∃ v ∈ m.utilityVars, v.name = u)
    (hsame : ∀ w, n.Allowed w → n.asked u w = m.asked u (w.set s (ρ (w s)))) {evidence : List (String × String)}
    (hev : n.EvidenceOK evidence) (hun : n.Unmerged m s ρ evidence) (ign ign' : Bool) :
    ∃ y : α, n.Worth sch evidence u ign y ∧ m.Worth sch' evidence u ign' y := by
  have hs : n.AllSolved := fun v hm h => absurd h (hdec v hm)
  have hs' : m.AllSolved := fun v hv h => by
    obtain ⟨w, hw, _, e, _⟩ := Merges.back hm hv
    exact absurd (e.symm.trans h) (hdec w hw)
  have hact : n.active evidence ign = [] := by simp [Net.active, hpol]
  have hact' : m.active evidence ign' = [] := by simp [Net.active, hpol']
  have h1 := worth_total sch hn (by constructor <;> simp [hpol]) hs hev hu ign
  have h2 := worth_total sch' hn' (by constructor <;> simp [hpol']) hs' (Merges.evidence hm hun hev) hu' ign'
  rw [hact] at h1
  rw [hact'] at h2
  refine ⟨_, h1, ?_⟩
  have : n.total [] (fun w => if n.Agrees evidence w then n.asked u w else 0) =
      m.total [] (fun w => if m.Agrees evidence w then m.asked u w else 0) :=
    Merges.total hm hn hn' (fun w hw => by simp only [Merges.agrees hm hn hun hw, hsame w hw])
  rw [this]
  exact h2

namespace Ex

/-- Weather with two kinds of rain, which nothing tells apart. -/
def finer : Net ℚ where
  name := "weather"
  info := ""
  «variables» := [⟨"Weather", .chance, ["dry", "drizzle", "shower"], (0, 0), "", some 0⟩,
    ⟨"Grass", .chance, ["wet", "dry"], (0, 0), "", some 1⟩, ⟨"Mood", .utility, ["mood"], (0, 0), "", some 2⟩]
  factors := [⟨"Weather", [], some [6, 3, 1], [], 3⟩, ⟨"Grass", ["Weather"], some [1, 9, 4, 1, 8, 2], [3], 2⟩,
    ⟨"Mood", ["Weather", "Grass"], some [10, 12, -5, -3, -5, -3], [3, 2], 1⟩]
  policies := []
  vs := none
  names := []
  totalUtility := none

/-- The same with one kind of rain. -/
def coarser : Net ℚ where
  name := "weather"
  info := ""
  «variables» := [⟨"Weather", .chance, ["dry", "rain"], (0, 0), "", some 0⟩,
    ⟨"Grass", .chance, ["wet", "dry"], (0, 0), "", some 1⟩, ⟨"Mood", .utility, ["mood"], (0, 0), "", some 2⟩]
  factors := [⟨"Weather", [], some [3, 2], [], 2⟩, ⟨"Grass", ["Weather"], some [1, 9, 4, 1], [2], 2⟩,
    ⟨"Mood", ["Weather", "Grass"], some [10, 12, -5, -3], [2, 2], 1⟩]
  policies := []
  vs := none
  names := []
  totalUtility := none

theorem finer_valid : finer.Valid where
  names := by decide
  named := by decide
  few := by decide
  outcomes := by decide
  tables := by decide
  hasTable := by decide
  known := by decide
  dims := by decide
  parents := by decide
  size := by
    intro f hf _ _
    simp only [finer, List.mem_cons, List.not_mem_nil, or_false] at hf
    rcases hf with rfl | rfl | rfl <;> exact ⟨_, rfl, by decide⟩
  single := by decide
  weights := by intro i h; simp [finer] at h

theorem coarser_valid : coarser.Valid where
  names := by decide
  named := by decide
  few := by decide
  outcomes := by decide
  tables := by decide
  hasTable := by decide
  known := by decide
  dims := by decide
  parents := by decide
  size := by
    intro f hf _ _
    simp only [coarser, List.mem_cons, List.not_mem_nil, or_false] at hf
    rcases hf with rfl | rfl | rfl <;> exact ⟨_, rfl, by decide⟩
  single := by decide
  weights := by intro i h; simp [coarser] at h

theorem finer_allowed {w : World} (hw : finer.Allowed w) : w "Weather" < 3 ∧ w "Grass" < 2 :=
  ⟨hw ⟨"Weather", .chance, ["dry", "drizzle", "shower"], (0, 0), "", some 0⟩ (by decide),
    hw ⟨"Grass", .chance, ["wet", "dry"], (0, 0), "", some 1⟩ (by decide)⟩

theorem finer_merges : finer.Merges coarser "Weather" (fun k => min k 1) where
  vars := .cons (by decide) (.cons (by decide) (.cons (by decide) .nil))
  chance := by decide
  into := by decide
  others := by
    intro f hf hne
    have : f = ⟨"Grass", ["Weather"], some [1, 9, 4, 1, 8, 2], [3], 2⟩ := by revert f; decide
    subst this
    refine ⟨⟨"Grass", ["Weather"], some [1, 9, 4, 1], [2], 2⟩, by decide, rfl, fun w hw => ?_⟩
    obtain ⟨h1, h2⟩ := finer_allowed hw
    rw [prob_three _ _ (x := "Weather") (y := "Grass") (z := "Grass") (by decide) w,
      prob_three _ _ (x := "Weather") (y := "Grass") (z := "Grass") (by decide) (w.set _ _)]
    have key : ∀ a < 3, ∀ b < 2, finer.prob ⟨"Grass", ["Weather"], some [1, 9, 4, 1, 8, 2], [3], 2⟩
        (three "Weather" "Grass" "Grass" a b b) = coarser.prob ⟨"Grass", ["Weather"], some [1, 9, 4, 1], [2], 2⟩
        (three "Weather" "Grass" "Grass" (min a 1) b b) := by decide +kernel
    exact key _ h1 _ h2
  own := by
    intro f hf hne
    have : f = ⟨"Weather", [], some [6, 3, 1], [], 3⟩ := by revert f; decide
    subst this
    refine ⟨⟨"Weather", [], some [3, 2], [], 2⟩, by decide, rfl, fun w _ j hj => ?_⟩
    have h1 : ∀ k, coarser.prob ⟨"Weather", [], some [3, 2], [], 2⟩ (w.set "Weather" k) =
        coarser.prob ⟨"Weather", [], some [3, 2], [], 2⟩ (World.set (fun _ => 0) "Weather" k) := fun k =>
      prob_congr _ _ (by intro s hs; obtain rfl : s = "Weather" := by simpa [NFactor.dims] using hs
                         rw [World.set_eq, World.set_eq])
    have h2 : ∀ k, finer.prob ⟨"Weather", [], some [6, 3, 1], [], 3⟩ (w.set "Weather" k) =
        finer.prob ⟨"Weather", [], some [6, 3, 1], [], 3⟩ (World.set (fun _ => 0) "Weather" k) := fun k =>
      prob_congr _ _ (by intro s hs; obtain rfl : s = "Weather" := by simpa [NFactor.dims] using hs
                         rw [World.set_eq, World.set_eq])
    rw [h1, Finset.sum_congr rfl (fun k _ => h2 k)]
    have key : ∀ j < 2, coarser.prob ⟨"Weather", [], some [3, 2], [], 2⟩ (World.set (fun _ => 0) "Weather" j) =
        ∑ k ∈ (range 3).filter (fun k => min k 1 = j),
          finer.prob ⟨"Weather", [], some [6, 3, 1], [], 3⟩ (World.set (fun _ => 0) "Weather" k) := by decide +kernel
    exact key j hj

theorem finer_asked (w : World) (hw : finer.Allowed w) :
    finer.asked "Mood" w = coarser.asked "Mood" (w.set "Weather" (min (w "Weather") 1)) := by
  obtain ⟨h1, h2⟩ := finer_allowed hw
  have hu : ∀ (n : Net ℚ) (w : World),
      (∀ f ∈ n.factors, f.forVar = "Mood" → ∀ s ∈ f.dims, s = "Mood" ∨ s = "Weather" ∨ s = "Grass") →
      n.asked "Mood" w = n.asked "Mood" (three "Weather" "Grass" "Grass" (w "Weather") (w "Grass") (w "Grass")) := by
    intro n w h
    have hm : ("Mood" : String) ≠ "" := by decide
    unfold Net.asked
    rw [if_neg hm, if_neg hm]
    unfold Net.utilityIn
    congr 1
    refine List.map_congr_left (fun f hf => ?_)
    rw [List.mem_filter] at hf
    unfold Net.entry
    congr 2
    refine List.map_congr_left (fun s hs => ?_)
    rcases h f hf.1 (by simpa using hf.2) s hs with rfl | rfl | rfl <;> simp [World.set, three]
  rw [hu finer w (by decide), hu coarser _ (by decide)]
  have : ∀ a < 3, ∀ b < 2, finer.asked "Mood" (three "Weather" "Grass" "Grass" a b b) =
      coarser.asked "Mood" (three "Weather" "Grass" "Grass" (min a 1) b b) := by decide +kernel
  exact this _ h1 _ h2

end Ex

open Ex in
/-- The hypotheses of `C147_query` are met: the weather and the grass; and the weather, given wet grass. -/
example (sch sch' : NSched ℚ) : (∃ r f n1 r' f' m1, finer.solveQuery sch [("Grass", "wet")] ["Weather"] false = (.ok (r, f), n1) ∧
      coarser.solveQuery sch' [("Grass", "wet")] ["Weather"] false = (.ok (r', f'), m1)) ∧
    ∃ r f n1 r' f' m1, finer.solveQuery sch [("Weather", "dry")] ["Grass"] false = (.ok (r, f), n1) ∧
      coarser.solveQuery sch' [("Weather", "dry")] ["Grass"] false = (.ok (r', f'), m1) ∧
      ∃ d : List ℚ, ("Grass", d) ∈ r ∧ ("Grass", d) ∈ r' := by
  constructor
  · obtain ⟨r, f, n1, r', f', m1, h1, h2, _⟩ := C147_query sch sch' finer_valid coarser_valid rfl rfl finer_merges
      (evidence := [("Grass", "wet")]) ⟨by decide, by decide⟩ (by unfold Net.Unmerged; decide) (query := ["Weather"])
      (by decide) false false (by decide +kernel)
    exact ⟨r, f, n1, r', f', m1, h1, h2⟩
  · obtain ⟨r, f, n1, r', f', m1, h1, h2, _, _, _, _, h3, _⟩ := C147_query sch sch' finer_valid coarser_valid rfl rfl
      finer_merges (evidence := [("Weather", "dry")]) ⟨by decide, by decide⟩ (by unfold Net.Unmerged; decide)
      (query := ["Grass"]) (by decide) false false (by decide +kernel)
    exact ⟨r, f, n1, r', f', m1, h1, h2, h3 "Grass" (by simp) (by decide)⟩

open Ex in
/-- What the two networks answer. -/
example : (finer.solveQuery back [("Grass", "wet")] ["Weather"] false).1.toOption.map Prod.fst =
      some [("Weather", [3 / 19, 12 / 19, 4 / 19])] ∧
    (coarser.solveQuery back [("Grass", "wet")] ["Weather"] false).1.toOption.map Prod.fst =
      some [("Weather", [3 / 19, 16 / 19])] := by
  decide +kernel

open Ex in
/-- The hypotheses of `C147_utility` are met. -/
example (sch sch' : NSched ℚ) : ∃ y : ℚ, finer.Worth sch [("Grass", "wet")] "Mood" false y ∧
    coarser.Worth sch' [("Grass", "wet")] "Mood" false y :=
  C147_utility sch sch' finer_valid coarser_valid (by decide) rfl rfl finer_merges (.inr (by decide)) (.inr (by decide))
    finer_asked ⟨by decide, by decide⟩ (by unfold Net.Unmerged; decide) false false

end Bbn
