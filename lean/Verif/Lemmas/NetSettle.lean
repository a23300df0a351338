import Verif.Spec.Settle
import Verif.Props.NetListing
import Verif.Props.NetOptimal

/-!
# Networks with policies, and networks with these as chance tables
-/

set_option autoImplicit false

namespace Bbn

open Finset

variable {α : Type}

/-- `m` is the network `n` with the stored policies as chance tables. -/
structure Net.Settled [Field α] [DecidableEq α] (n m : Net α) : Prop where
  vars : m.variables.map NVar.kindOf = n.variables.map (fun v => v.settled.kindOf)
  total : m.totalUtility = n.totalUtility
  solved : ∀ v ∈ n.variables, v.nodeType = .decision → n.hasPolicy v.name = true
  free : m.policies = []
  joint : ∀ w, n.Allowed w → m.joint [] w = n.joint n.policies w
  utility : ∀ s, n.isKind .utility s = true →
    (m.factors.filter (fun f => f.forVar = s)).map NFactor.core = (n.factors.filter (fun f => f.forVar = s)).map NFactor.core

theorem settled_utility {v : NVar} : v.settled.nodeType = .utility ↔ v.nodeType = .utility := by
  unfold NVar.settled
  cases h : v.nodeType <;> simp

theorem settled_decision {v : NVar} : v.settled.nodeType ≠ .decision := by
  unfold NVar.settled
  cases h : v.nodeType <;> simp

@[simp] theorem settled_name (v : NVar) : v.settled.name = v.name := rfl
@[simp] theorem settled_outcomes (v : NVar) : v.settled.outcomes = v.outcomes := rfl

set_option linter.unusedSectionVars false

section settled

variable [Field α] [DecidableEq α] {n m : Net α} (h : n.Settled m)

include h in
theorem settled_get {i : Nat} {v : NVar} (hv : n.variables[i]? = some v) :
    ∃ u, m.variables[i]? = some u ∧ u.name = v.name ∧ u.nodeType = v.settled.nodeType ∧ u.outcomes = v.outcomes := by
  have := congrArg (fun l => l[i]?) h.vars
  simp only [List.getElem?_map, hv, Option.map_some] at this
  obtain ⟨u, hu, e⟩ := Option.map_eq_some_iff.1 this
  simp only [NVar.kindOf, Prod.mk.injEq] at e
  exact ⟨u, hu, e.1, e.2.1, e.2.2⟩

include h in
theorem settled_get' {i : Nat} {u : NVar} (hu : m.variables[i]? = some u) :
    ∃ v, n.variables[i]? = some v ∧ u.name = v.name ∧ u.nodeType = v.settled.nodeType ∧ u.outcomes = v.outcomes := by
  have := congrArg (fun l => l[i]?) h.vars
  simp only [List.getElem?_map, hu, Option.map_some] at this
  obtain ⟨v, hv, e⟩ := Option.map_eq_some_iff.1 this.symm
  simp only [NVar.kindOf, Prod.mk.injEq] at e
  exact ⟨v, hv, e.1.symm, e.2.1.symm, e.2.2.symm⟩

include h in
theorem settled_var {v : NVar} (hv : v ∈ n.variables) :
    ∃ u ∈ m.variables, u.name = v.name ∧ u.nodeType = v.settled.nodeType ∧ u.outcomes = v.outcomes := by
  obtain ⟨i, hi⟩ := List.getElem?_of_mem hv
  obtain ⟨u, hu, k⟩ := settled_get h hi
  exact ⟨u, List.mem_of_getElem? hu, k⟩

include h in
theorem settled_var' {u : NVar} (hu : u ∈ m.variables) :
    ∃ v ∈ n.variables, u.name = v.name ∧ u.nodeType = v.settled.nodeType ∧ u.outcomes = v.outcomes := by
  obtain ⟨i, hi⟩ := List.getElem?_of_mem hu
  obtain ⟨v, hv, k⟩ := settled_get' h hi
  exact ⟨v, List.mem_of_getElem? hv, k⟩

/-- What depends only on names and outcomes of the variables in order. -/
theorem find_kind (g : String) : ∀ {L M : List NVar}, M.map NVar.kindOf = L.map (fun v => v.settled.kindOf) →
    (M.find? (fun v => v.name = g)).map NVar.outcomes = (L.find? (fun v => v.name = g)).map NVar.outcomes := by
  intro L
  induction L with
  | nil => intro M hM; simp only [List.map_nil, List.map_eq_nil_iff] at hM; subst hM; rfl
  | cons v L ih =>
    intro M hM
    cases M with
    | nil => simp at hM
    | cons u M =>
      simp only [List.map_cons, List.cons.injEq, NVar.kindOf, Prod.mk.injEq] at hM
      obtain ⟨⟨e1, _, e3⟩, hM⟩ := hM
      rw [settled_name] at e1
      rw [settled_outcomes] at e3
      by_cases hg : v.name = g
      · rw [List.find?_cons_of_pos (by simp [e1, hg]), List.find?_cons_of_pos (by simp [hg])]
        simp [e3]
      · rw [List.find?_cons_of_neg (by simp [e1, hg]), List.find?_cons_of_neg (by simp [hg])]
        exact ih hM

theorem filter_kind (p : String → Bool) : ∀ {L M : List NVar}, M.map NVar.kindOf = L.map (fun v => v.settled.kindOf) →
    (M.filter (fun v => decide (v.nodeType ≠ .utility) && p v.name)).map NVar.bare =
      (L.filter (fun v => decide (v.nodeType ≠ .utility) && p v.name)).map NVar.bare := by
  intro L
  induction L with
  | nil => intro M hM; simp only [List.map_nil, List.map_eq_nil_iff] at hM; subst hM; rfl
  | cons v L ih =>
    intro M hM
    cases M with
    | nil => simp at hM
    | cons u M =>
      simp only [List.map_cons, List.cons.injEq, NVar.kindOf, Prod.mk.injEq] at hM
      obtain ⟨⟨e1, e2, e3⟩, hM⟩ := hM
      simp only [settled_name, settled_outcomes] at e1 e3
      have hb : (decide (u.nodeType ≠ .utility) && p u.name) = (decide (v.nodeType ≠ .utility) && p v.name) := by
        rw [e1, e2]
        congr 1
        rw [decide_eq_decide, ne_eq, ne_eq, settled_utility]
      rw [List.filter_cons, List.filter_cons, hb]
      split_ifs
      · rw [List.map_cons, List.map_cons, ih hM]
        congr 1
        unfold NVar.bare
        rw [e1, e3]
      · exact ih hM

include h in
theorem settled_count (s : String) : m.count s = n.count s := by
  have := find_kind s h.vars
  unfold Net.count outcomeCount
  have h1 := congrArg (Option.map List.length) this
  rw [Option.map_map, Option.map_map] at h1
  have e : ∀ o : Option NVar, Option.map (List.length ∘ NVar.outcomes) o = Option.map (fun v => v.outcomes.length) o := fun _ => rfl
  rw [e, e] at h1
  rw [h1]

include h in
theorem settled_entry {f f' : NFactor α} (e : f'.core = f.core) (w : World) : m.entry f' w = n.entry f w := by
  obtain ⟨e1, e2, e3⟩ := core_eq e
  unfold Net.entry NFactor.tab NFactor.dims
  rw [e1, e2, e3]
  simp only [settled_count h]

include h in
theorem settled_states : m.stateVars.map NVar.bare = n.stateVars.map NVar.bare := by
  have := filter_kind (fun _ => true) h.vars
  simp only [Bool.and_true] at this
  exact this

include h in
theorem settled_totalName : m.totalName = n.totalName := by
  unfold Net.totalName
  rw [h.total]
  cases n.totalUtility with
  | none => rfl
  | some i =>
    dsimp only
    cases hv : n.variables[i]? with
    | some v =>
      obtain ⟨u, hu, e, _⟩ := settled_get h hv
      rw [hu]; simp [e]
    | none =>
      cases hu : m.variables[i]? with
      | none => rfl
      | some u =>
        obtain ⟨v, hv', _⟩ := settled_get' h hu
        rw [hv] at hv'; cases hv'

include h in
theorem settled_agrees (evidence : List (String × String)) (w : World) : m.Agrees evidence w ↔ n.Agrees evidence w := by
  constructor
  · intro hm e he v hv hve
    obtain ⟨u, hu, k1, _, k3⟩ := settled_var h hv
    rw [hm e he u hu (by rw [k1, hve]), k3]
  · intro hm e he u hu hue
    obtain ⟨v, hv, k1, _, k3⟩ := settled_var' h hu
    rw [hm e he v hv (by rw [← k1, hue]), k3]

include h in
theorem settled_evidence {evidence : List (String × String)} (he : n.EvidenceOK evidence) : m.EvidenceOK evidence := by
  refine ⟨he.keys, fun e hm => ?_⟩
  obtain ⟨v, hv, e1, e2, e3⟩ := he.known e hm
  obtain ⟨u, hu, k1, k2, k3⟩ := settled_var h hv
  exact ⟨u, hu, by rw [k1, e1], by rw [k2, ne_eq, settled_utility]; exact e2, by rw [k3]; exact e3⟩

include h in
theorem settled_state {q : String} (hq : ∃ v ∈ n.stateVars, v.name = q) : ∃ v ∈ m.stateVars, v.name = q := by
  obtain ⟨v, hv, e⟩ := hq
  obtain ⟨u, hu, k1, k2, _⟩ := settled_var h (mem_stateVars.1 hv).1
  exact ⟨u, mem_stateVars.2 ⟨hu, by rw [k2, ne_eq, settled_utility]; exact (mem_stateVars.1 hv).2⟩, by rw [k1, e]⟩

include h in
theorem settled_chance {u : NVar} (hu : u ∈ m.stateVars) : u.nodeType = .chance := by
  obtain ⟨hu1, hu2⟩ := mem_stateVars.1 hu
  obtain ⟨v, _, _, k2, _⟩ := settled_var' h hu1
  cases ht : u.nodeType with
  | chance => rfl
  | utility => exact absurd ht hu2
  | decision => exact absurd (k2.symm.trans ht) settled_decision

variable (hn : n.Valid) (hm : m.Valid)

include h hn in
theorem settled_total (F : World → α) : m.total [] F = n.total n.policies F := by
  unfold Net.total
  have hs := settled_states h
  rw [sumWorlds_relisted (l := m.stateVars) (l' := n.stateVars) _ (by rw [hs]) _ (by
    have := congrArg (List.map NVar.name) hs
    rw [bare_names, bare_names] at this
    rw [this]; exact stateVars_names hn)]
  apply sumWorlds_congr _ _ (stateVars_names hn)
  intro w hw _
  rw [h.joint w hw]

include h in
theorem settled_utilityIn {s : String} (hs : n.isKind .utility s = true) (w : World) : m.utilityIn s w = n.utilityIn s w := by
  unfold Net.utilityIn
  have hu := h.utility s hs
  have key : ∀ (F G : NFactor α → α), (∀ f f' : NFactor α, f'.core = f.core → F f' = G f) → ∀ {L M : List (NFactor α)},
      M.map NFactor.core = L.map NFactor.core → (M.map F).sum = (L.map G).sum := by
    intro F G hFG L
    induction L with
    | nil => intro M hM; simp only [List.map_nil, List.map_eq_nil_iff] at hM; subst hM; rfl
    | cons f L ih =>
      intro M hM
      cases M with
      | nil => simp at hM
      | cons f' M =>
        simp only [List.map_cons, List.cons.injEq] at hM
        rw [List.map_cons, List.map_cons, List.sum_cons, List.sum_cons, ih hM.2, hFG f f' hM.1]
  exact key _ _ (fun f f' e => settled_entry h e _) hu

include h hn in
theorem settled_weight (s : String) : m.weight s = n.weight s := by
  unfold Net.weight
  rw [h.total, settled_totalName h]
  cases hT : n.totalUtility with
  | none => rfl
  | some i =>
    dsimp only
    obtain ⟨v, _, _, hv, h2, _⟩ := hn.weights i hT
    have hname : n.totalName = v.name := by unfold Net.totalName; rw [hT]; simp [hv]
    have hu := h.utility n.totalName (by
      rw [hname]; exact (isKind_iff hn (List.mem_of_getElem? hv) _).2 h2)
    have hh := congrArg List.head? hu
    rw [List.head?_map, List.head?_map, List.head?_filter, List.head?_filter] at hh
    cases hf : n.factors.find? (fun f => decide (f.forVar = n.totalName)) with
    | none =>
      rw [hf] at hh
      rw [Option.map_eq_none_iff.1 hh]
    | some f =>
      rw [hf] at hh
      obtain ⟨f', hf', e⟩ := Option.map_eq_some_iff.1 hh
      obtain ⟨_, e2, e3⟩ := core_eq e
      rw [hf']
      simp only [Option.map_some, Option.getD_some, NFactor.tab, e2, e3]

theorem utility_kind (p : String → Bool) (G : String → α) : ∀ {L M : List NVar},
    M.map NVar.kindOf = L.map (fun v => v.settled.kindOf) →
    (M.filter (fun v => decide (v.nodeType = .utility ∧ p v.name = true))).map (fun v => G v.name) =
      (L.filter (fun v => decide (v.nodeType = .utility ∧ p v.name = true))).map (fun v => G v.name) := by
  intro L
  induction L with
  | nil => intro M hM; simp only [List.map_nil, List.map_eq_nil_iff] at hM; subst hM; rfl
  | cons v L ih =>
    intro M hM
    cases M with
    | nil => simp at hM
    | cons u M =>
      simp only [List.map_cons, List.cons.injEq, NVar.kindOf, Prod.mk.injEq] at hM
      obtain ⟨⟨e1, e2, e3⟩, hM⟩ := hM
      simp only [settled_name] at e1
      have hb : decide (u.nodeType = .utility ∧ p u.name = true) = decide (v.nodeType = .utility ∧ p v.name = true) := by
        rw [e1, e2, decide_eq_decide, settled_utility]
      rw [List.filter_cons, List.filter_cons, hb]
      split_ifs
      · rw [List.map_cons, List.map_cons, ih hM, e1]
      · exact ih hM

include h hn in
theorem settled_asked {u : String} (hu : u = "" ∨ n.isKind .utility u = true) (w : World) : m.asked u w = n.asked u w := by
  unfold Net.asked
  split_ifs with h0
  · unfold Net.totalIn Net.utilityVars
    have := utility_kind (fun s => decide (s ≠ n.totalName)) (fun s => m.weight s * m.utilityIn s w) h.vars
    simp only [decide_eq_true_eq] at this
    rw [settled_totalName h, this]
    congr 1
    apply List.map_congr_left
    intro v hv
    simp only [List.mem_filter, decide_eq_true_eq] at hv
    rw [settled_weight h hn, settled_utilityIn h ((isKind_iff hn hv.1 _).2 hv.2.1)]
  · exact settled_utilityIn h (hu.resolve_left h0) w

include h in
theorem settled_observe (evidence : List (String × String)) (w : World) : m.observe evidence w = n.observe evidence w := by
  funext s
  unfold Net.observe
  cases evidence.find? (fun e => e.1 = s) with
  | none => rfl
  | some e =>
    dsimp only
    have := congrArg (Option.map (fun o : List String => o.idxOf e.2)) (find_kind s h.vars)
    rw [Option.map_map, Option.map_map] at this
    exact congrArg (fun o => o.getD 0) this

include h in
theorem settled_hidden (evidence : List (String × String)) (query : List String) :
    (m.hiddenVars evidence query).map NVar.bare = (n.hiddenVars evidence query).map NVar.bare := by
  have hk := filter_kind (fun s => decide ((∀ e ∈ evidence, e.1 ≠ s) ∧ s ∉ query)) h.vars
  have hdec : ∀ s, m.isKind .decision s = false := by
    intro s
    rw [Bool.eq_false_iff]
    intro hs
    obtain ⟨u, hu, _, e⟩ := isKind_mem.1 hs
    obtain ⟨v, _, _, k2, _⟩ := settled_var' h hu
    exact settled_decision (k2.symm.trans e)
  have hsol : ∀ s, n.isKind .decision s = true → n.hasPolicy s = true := by
    intro s hs
    obtain ⟨v, hv, e1, e2⟩ := isKind_mem.1 hs
    rw [← e1]; exact h.solved v hv e2
  have e1 : m.hiddenVars evidence query = m.variables.filter (fun v => decide (v.nodeType ≠ .utility) &&
      decide ((∀ e ∈ evidence, e.1 ≠ v.name) ∧ v.name ∉ query)) := by
    unfold Net.hiddenVars Net.stateVars
    rw [List.filter_filter]
    apply List.filter_congr
    intro v hv
    rw [Bool.and_comm]
    by_cases hu : v.nodeType = .utility
    · simp [hu]
    · have hc : v.nodeType = .chance := settled_chance h (mem_stateVars.2 ⟨hv, hu⟩)
      congr 1
      rw [decide_eq_decide]
      simp [hc, hdec]
  have e2 : n.hiddenVars evidence query = n.variables.filter (fun v => decide (v.nodeType ≠ .utility) &&
      decide ((∀ e ∈ evidence, e.1 ≠ v.name) ∧ v.name ∉ query)) := by
    unfold Net.hiddenVars Net.stateVars
    rw [List.filter_filter]
    apply List.filter_congr
    intro v hv
    rw [Bool.and_comm]
    by_cases hu : v.nodeType = .utility
    · simp [hu]
    · have hc : v.nodeType = .chance ∨ n.hasPolicy v.name = true := by
        cases ht : v.nodeType with
        | chance => exact .inl rfl
        | utility => exact absurd ht hu
        | decision => exact .inr (h.solved v hv ht)
      congr 1
      rw [decide_eq_decide]
      constructor
      · rintro ⟨_, k2, k3, _⟩; exact ⟨k2, k3⟩
      · rintro ⟨k2, k3⟩
        exact ⟨hc, k2, k3, fun f _ h1 h2 => by rw [hsol _ h1] at h2; cases h2⟩
  rw [e1, e2]
  exact hk

end settled

/-- Settled networks give the same answers to queries. -/
theorem settled_query [Field α] [CharZero α] [DecidableEq α] (sch sch' : NSched α) {n m : Net α} (hn : n.Valid)
    (hp : n.PoliciesOK) (hm : m.Valid) (h : n.Settled m) {evidence : List (String × String)} (hev : n.EvidenceOK evidence)
    {query : List String} (hq : ∀ q ∈ query, (∃ v ∈ n.stateVars, v.name = q) ∧ ∀ e ∈ evidence, e.1 ≠ q)
    (ign : Bool) (possible : n.mass n.policies (n.Agrees evidence) ≠ 0) :
    ∃ r f n1 r' f' m1, n.solveQuery sch evidence query false = (.ok (r, f), n1) ∧
      m.solveQuery sch' evidence query ign = (.ok (r', f'), m1) ∧ (∀ s, s ∈ r.map Prod.fst ↔ s ∈ query) ∧
      ∀ q d, (q, d) ∈ r' ↔ (q, d) ∈ r := by
  have hact : n.active evidence false = n.policies := by simp [Net.active]
  have hact' : m.active evidence ign = [] := by simp [Net.active, h.free]
  have hm0 : m.mass [] (m.Agrees evidence) = n.mass n.policies (n.Agrees evidence) := by
    unfold Net.mass
    rw [settled_total h hn]
    simp only [settled_agrees h]
  have hm1 : ∀ q k, m.mass [] (fun w => m.Agrees evidence w ∧ w q = k) =
      n.mass n.policies (fun w => n.Agrees evidence w ∧ w q = k) := by
    intro q k
    unfold Net.mass
    rw [settled_total h hn]
    simp only [settled_agrees h]
  obtain ⟨r, f, n1, a1, a2, a3, a4⟩ := C31_solveQuery_posterior sch hn hp hev (query := query) false
    ⟨fun q hm => (hq q hm).1, fun q hm => (hq q hm).2, fun q hqm => by
      obtain ⟨v, hv, rfl⟩ := (hq q hqm).1
      obtain ⟨hv1, hv2⟩ := mem_stateVars.1 hv
      cases ht : v.nodeType with
      | chance => exact chance_occurs hn _ hv1 ht
      | utility => exact absurd ht hv2
      | decision =>
        rw [hact]
        obtain ⟨p, hp1, hp2⟩ := List.mem_map.1 (mapGet_isSome.1 (h.solved v hv1 ht))
        obtain ⟨i, u, k1, k2, _, w, k3, k4⟩ := hp.decision p hp1
        exact .inr ⟨p, hp1, w, k3, by rw [k4, k1]; simp [k2, hp2]⟩⟩
    (by rw [hact]; exact possible)
  obtain ⟨r', f', m1, b1, b2, b3, b4⟩ := C31_solveQuery_posterior sch' hm (by constructor <;> simp [h.free])
    (settled_evidence h hev) ign (query := query) ⟨fun q hm => settled_state h (hq q hm).1, fun q hm => (hq q hm).2,
      fun q hqm => by
        obtain ⟨v, hv, rfl⟩ := settled_state h (hq q hqm).1
        exact chance_occurs hm _ (mem_stateVars.1 hv).1 (settled_chance h hv)⟩ (by rw [hact', hm0]; exact possible)
  refine ⟨r, f, n1, r', f', m1, a1, b1, a3, ?_⟩
  have hsame : ∀ q ∈ query, ∃ d, (q, d) ∈ r ∧ (q, d) ∈ r' := by
    intro q hqm
    obtain ⟨d, u1, u2, u3⟩ := a4 q hqm
    obtain ⟨d', v1, v2, v3⟩ := b4 q hqm
    have hcq := settled_count h q
    have : d' = d := by
      apply List.ext_getElem?
      intro k
      by_cases hk : k < n.count q
      · rw [u3 k hk, v3 k (by rw [hcq]; exact hk), hact, hact', hm0, hm1]
      · rw [List.getElem?_eq_none (l := d) (by omega), List.getElem?_eq_none (l := d') (by rw [v2, hcq]; omega)]
    exact ⟨d, u1, this ▸ v1⟩
  have huni : ∀ {L : List (String × List α)}, (L.map Prod.fst).Nodup → ∀ {q d d'}, (q, d) ∈ L → (q, d') ∈ L → d = d' := by
    intro L hL q d d' h1 h2
    have := List.inj_on_of_nodup_map hL h1 h2 rfl
    simpa using this
  intro q d
  constructor
  · intro hm
    obtain ⟨e, h1, h2⟩ := hsame q ((b3 q).1 (List.mem_map_of_mem hm))
    rw [huni b2 hm h2]; exact h1
  · intro hm
    obtain ⟨e, h1, h2⟩ := hsame q ((a3 q).1 (List.mem_map_of_mem hm))
    rw [huni a2 hm h1]; exact h2

/-- Settled networks give the same utilities. -/
theorem settled_solveUtility [Field α] [DecidableEq α] (sch sch' : NSched α) {n m : Net α} (hn : n.Valid)
    (hp : n.PoliciesOK) (hm : m.Valid) (h : n.Settled m) {evidence : List (String × String)} (hev : n.EvidenceOK evidence)
    {query : List String} (hq : ∀ q ∈ query, ∃ v ∈ n.stateVars, v.name = q) {u : String}
    (hu : u = "" ∧ n.utilityVars ≠ [] ∨ ∃ v ∈ n.utilityVars, v.name = u) (ign : Bool) :
    ∃ g n1 g' m1, n.solveUtility sch evidence query u false = (.ok g, n1) ∧
      m.solveUtility sch' evidence query u ign = (.ok g', m1) ∧
      ∀ w, (∀ v ∈ n.variables, w v.name < v.outcomes.length) →
        ∃ x, g.get (ints (tupleOf g.vars (n.ids w))) = .ok x ∧ g'.get (ints (tupleOf g'.vars (m.ids w))) = .ok x := by
  have hact : n.active evidence false = n.policies := by simp [Net.active]
  have hact' : m.active evidence ign = [] := by simp [Net.active, h.free]
  have huv : ∀ v ∈ n.utilityVars, ∃ v' ∈ m.utilityVars, v'.name = v.name := by
    intro v hv
    simp only [Net.utilityVars, List.mem_filter, decide_eq_true_eq] at hv ⊢
    obtain ⟨x, hx, k1, k2, _⟩ := settled_var h hv.1
    exact ⟨x, ⟨hx, by rw [k2, settled_utility]; exact hv.2.1, by rw [k1, settled_totalName h]; exact hv.2.2⟩, k1⟩
  have hu' : u = "" ∧ m.utilityVars ≠ [] ∨ ∃ v ∈ m.utilityVars, v.name = u := by
    rcases hu with ⟨e, hne⟩ | ⟨v, hv, e⟩
    · refine .inl ⟨e, fun h0 => ?_⟩
      obtain ⟨v, hv⟩ := List.exists_mem_of_ne_nil _ hne
      obtain ⟨v', hv', _⟩ := huv v hv
      rw [h0] at hv'
      simp at hv'
    · obtain ⟨v', hv', e'⟩ := huv v hv
      exact .inr ⟨v', hv', by rw [e', e]⟩
  have huk : u = "" ∨ n.isKind .utility u = true := by
    rcases hu with ⟨e, _⟩ | ⟨v, hv, e⟩
    · exact .inl e
    · simp only [Net.utilityVars, List.mem_filter, decide_eq_true_eq] at hv
      exact .inr (by rw [← e]; exact (isKind_iff hn hv.1 _).2 hv.2.1)
  obtain ⟨g, n1, a1, _, a3⟩ := C75_solveUtility_exact sch hn hp hev hq hu false
  obtain ⟨g', m1, b1, _, b3⟩ := C75_solveUtility_exact sch' hm (by constructor <;> simp [h.free]) (settled_evidence h hev)
    (fun q hm => settled_state h (hq q hm)) hu' ign
  refine ⟨g, n1, g', m1, a1, b1, fun w hw => ⟨_, a3 w hw, ?_⟩⟩
  have hh := settled_hidden h evidence query
  have hnd : ((n.hiddenVars evidence query).map NVar.name).Nodup :=
    (stateVars_names hn).sublist (List.filter_sublist.map NVar.name)
  rw [b3 w (fun v hv => ?_), hact, hact']
  · congr 1
    rw [sumWorlds_relisted (l := m.hiddenVars evidence query) (l' := n.hiddenVars evidence query) _ (by rw [hh]) w (by
      have := congrArg (List.map NVar.name) hh
      rw [bare_names, bare_names] at this
      rw [this]; exact hnd)]
    apply sumWorlds_congr _ _ hnd
    intro w' hw1 hw2
    rw [settled_observe h, settled_asked h hn huk, h.joint]
    have hfit : n.FitsAll w' := by
      intro v hv
      by_cases hvm : v.name ∈ (n.hiddenVars evidence query).map NVar.name
      · obtain ⟨x, hx, e⟩ := List.mem_map.1 hvm
        have hxm : x ∈ n.variables := (mem_stateVars.1 (List.mem_filter.1 hx).1).1
        have : x = v := List.inj_on_of_nodup_map hn.names hxm hv e
        rw [← this]; exact hw1 x hx
      · rw [hw2 _ hvm]; exact hw v hv
    exact fun v hv => observe_fits hn hev hfit v (mem_stateVars.1 hv).1
  · obtain ⟨x, hx, k1, _, k3⟩ := settled_var' h hv
    rw [k1, k3]
    exact hw x hx

end Bbn
