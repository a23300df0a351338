import Verif.Lemmas.NetSettle
import Verif.Props.NetMarkov

/-!
# Solved decisions act as chance variables with the returned tables
-/

set_option autoImplicit false

namespace Bbn

open Finset

variable {α : Type}

section new

variable [Field α] [LinearOrder α] [IsStrictOrderedRing α] {vars : List NVar} {tables : List (NFactor α)}
  (h : WellFormed vars tables) {name info : String} {n : Net α} (hb : Built name info vars tables n)
  {pol : List (String × NFactor α)}

/-- Returned tables: one for each decision. -/
structure Net.TablesFor (n : Net α) (pol : List (String × NFactor α)) : Prop where
  nodup : (pol.map Prod.fst).Nodup
  keys : ∀ s, s ∈ pol.map Prod.fst ↔ n.isKind .decision s = true
  tables : ∀ t ∈ pol, n.PolicyTable t.1 t.2

set_option linter.unusedSectionVars false

theorem settled_isUtility (g : String) : IsUtility (vars.map NVar.settled) g ↔ IsUtility vars g := by
  unfold IsUtility
  constructor
  · rintro ⟨u, hu, e1, e2⟩
    obtain ⟨v, hv, rfl⟩ := List.mem_map.1 hu
    exact ⟨v, hv, e1, settled_utility.1 e2⟩
  · rintro ⟨v, hv, e1, e2⟩
    exact ⟨v.settled, List.mem_map_of_mem hv, e1, settled_utility.2 e2⟩

theorem settled_outcomeCount (g : String) : outcomeCount (vars.map NVar.settled) g = outcomeCount vars g := by
  have hk : (vars.map NVar.settled).map NVar.kindOf = vars.map (fun v => v.settled.kindOf) := by rw [List.map_map]; rfl
  have := congrArg (Option.map List.length) (find_kind g hk)
  rw [Option.map_map, Option.map_map] at this
  exact this

include hb in
theorem built_isKind (t : NodeType) (s : String) : n.isKind t s = true ↔ ∃ v ∈ vars, v.name = s ∧ v.nodeType = t := by
  rw [isKind_mem, hb.links]
  constructor
  · rintro ⟨u, hu, e1, e2⟩
    obtain ⟨v, hv, rfl⟩ := List.mem_map.1 hu
    rw [linked_name] at e1
    rw [linked_type] at e2
    exact ⟨v, hv, e1, e2⟩
  · rintro ⟨v, hv, e1, e2⟩
    exact ⟨_, List.mem_map_of_mem hv, by rw [linked_name]; exact e1, by rw [linked_type]; exact e2⟩

include hb in
theorem built_count (s : String) : n.count s = (outcomeCount vars s).getD 0 := by
  unfold Net.count
  rw [hb.links, outcomeCount_linked]

theorem mem_settledTables {f : NFactor α} : f ∈ settledTables vars tables pol ↔
    (f ∈ tables ∧ ∀ v ∈ vars, v.name = f.forVar → v.nodeType ≠ .decision) ∨ ∃ t ∈ pol, t.2 = f := by
  unfold settledTables
  rw [List.mem_append, List.mem_filter, List.mem_map]
  simp only [Bool.not_eq_true', List.any_eq_false, decide_eq_true_eq, not_and, ne_eq]

variable (hp : n.TablesFor pol)

include h hb hp in
theorem settled_forVars : ((settledTables vars tables pol).map NFactor.forVar).Nodup := by
  unfold settledTables
  rw [List.map_append, List.map_map]
  refine List.Nodup.append (h.tables.sublist (List.filter_sublist.map _)) ?_ ?_
  · have : pol.map (NFactor.forVar ∘ Prod.snd) = pol.map Prod.fst :=
      List.map_congr_left (fun t ht => (hp.tables t ht).forVar)
    rw [this]; exact hp.nodup
  · intro s h1 h2
    obtain ⟨f, hf, rfl⟩ := List.mem_map.1 h1
    obtain ⟨t, ht, e⟩ := List.mem_map.1 h2
    simp only [List.mem_filter, Bool.not_eq_true', List.any_eq_false, decide_eq_true_eq, not_and] at hf
    obtain ⟨v, hv, e1, e2⟩ := (built_isKind hb _ _).1 (hp.tables t ht).decision
    exact hf.2 v hv (by rw [e1, ← (hp.tables t ht).forVar]; exact e) e2

include h hb hp in
theorem settled_tableFor_mem {f : NFactor α} (hf : f ∈ settledTables vars tables pol) {v : NVar} (e : f.forVar = v.name) :
    tableFor (settledTables vars tables pol) v = some f := by
  unfold tableFor
  cases hg : (settledTables vars tables pol).find? (fun f => f.forVar = v.name) with
  | none =>
    rw [List.find?_eq_none] at hg
    exact absurd e (by simpa using hg f hf)
  | some g =>
    have h1 := List.mem_of_find?_eq_some hg
    have h2 := List.find?_some hg
    simp only [decide_eq_true_eq] at h2
    rw [List.inj_on_of_nodup_map (settled_forVars h hb hp) h1 hf (h2.trans e.symm)]

include h in
/-- A table of a variable that is no decision stays. -/
theorem mem_settled {f : NFactor α} (hf : f ∈ tables) {v : NVar} (hv : v ∈ vars) (e : f.forVar = v.name)
    (hd : v.nodeType ≠ .decision) : f ∈ settledTables vars tables pol := by
  refine mem_settledTables.2 (.inl ⟨hf, fun u hu hue => ?_⟩)
  rw [List.inj_on_of_nodup_map h.accepted.names hu hv (by rw [hue, e])]
  exact hd

include h hb hp in
/-- The table listed for a variable that is no decision is the original one. -/
theorem of_mem_settled {f : NFactor α} (hf : f ∈ settledTables vars tables pol) {v : NVar} (hv : v ∈ vars)
    (e : f.forVar = v.name) (hd : v.nodeType ≠ .decision) : f ∈ tables := by
  rcases mem_settledTables.1 hf with ⟨h1, _⟩ | ⟨t, ht, rfl⟩
  · exact h1
  · obtain ⟨u, hu, e1, e2⟩ := (built_isKind hb _ _).1 (hp.tables t ht).decision
    rw [(hp.tables t ht).forVar, ← e1] at e
    rw [List.inj_on_of_nodup_map h.accepted.names hu hv e] at e2
    exact absurd e2 hd

include h hb hp in
/-- A table listed for a decision is the returned one. -/
theorem of_mem_settled_decision {f : NFactor α} (hf : f ∈ settledTables vars tables pol) {v : NVar} (hv : v ∈ vars)
    (e : f.forVar = v.name) (hd : v.nodeType = .decision) : n.PolicyTable v.name f := by
  rcases mem_settledTables.1 hf with ⟨_, h2⟩ | ⟨t, ht, rfl⟩
  · exact absurd hd (h2 v hv e.symm)
  · have := hp.tables t ht
    rw [← this.forVar, e] at this
    exact this

include h hb hp in
theorem settled_tableFor {v : NVar} (hv : v ∈ vars) (hd : v.nodeType ≠ .decision) :
    tableFor (settledTables vars tables pol) v.settled = tableFor tables v := by
  obtain ⟨f, hf, e⟩ := h.hasTable v hv hd
  rw [tableFor_mem h hf e]
  exact settled_tableFor_mem h hb hp (mem_settled h hf hv e hd) e

include h hb hp in
theorem settled_isTotal {v : NVar} (hv : v ∈ vars) :
    IsTotal (vars.map NVar.settled) (settledTables vars tables pol) v.settled ↔ IsTotal vars tables v := by
  unfold IsTotal
  rw [settled_utility]
  constructor
  · rintro ⟨h1, h2⟩
    rw [settled_tableFor h hb hp hv (by rw [h1]; decide)] at h2
    simp only [settled_isUtility] at h2
    exact ⟨h1, h2⟩
  · rintro ⟨h1, h2⟩
    rw [settled_tableFor h hb hp hv (by rw [h1]; decide)]
    simp only [settled_isUtility]
    exact ⟨h1, h2⟩

include h hb hp in
/-- The settled structure is well-formed. -/
theorem settled_wellFormed : WellFormed (vars.map NVar.settled) (settledTables vars tables pol) := by
  have hnames : (vars.map NVar.settled).map NVar.name = vars.map NVar.name := by rw [List.map_map]; rfl
  have hput : ∀ {v : NVar}, v ∈ vars → v.settled ∈ vars.map NVar.settled := fun hv => List.mem_map_of_mem hv
  have hdec : ∀ {f : NFactor α} {v : NVar}, v ∈ vars → n.PolicyTable v.name f → ∀ g ∈ f.given,
      ∃ u ∈ vars, u.name = g ∧ u.nodeType ≠ .utility := by
    intro f v hv hf g hg
    rcases hf.parents g hg with hk | hk
    · obtain ⟨u, hu, e1, e2⟩ := (built_isKind hb _ _).1 hk
      exact ⟨u, hu, e1, by rw [e2]; decide⟩
    · obtain ⟨u, hu, e1, e2⟩ := (built_isKind hb _ _).1 hk
      exact ⟨u, hu, e1, by rw [e2]; decide⟩
  have hnot : ∀ {u : NVar}, u ∈ vars → u.nodeType ≠ .utility → ¬ IsUtility vars u.name := by
    rintro u hu hk ⟨x, hx, e1, e2⟩
    rw [List.inj_on_of_nodup_map h.accepted.names hx hu e1] at e2
    exact hk e2
  constructor
  · constructor
    · rw [hnames]; exact h.accepted.names
    · intro v' hv' f hf g hg
      obtain ⟨v, hv, rfl⟩ := List.mem_map.1 hv'
      have hm := List.mem_of_find?_eq_some hf
      have he : f.forVar = v.name := of_decide_eq_true (List.find?_some (p := fun f : NFactor α => decide (f.forVar = v.settled.name)) hf)
      by_cases hd : v.nodeType = .decision
      · obtain ⟨u, hu, e1, _⟩ := hdec hv (of_mem_settled_decision h hb hp hm hv he hd) g hg
        exact ⟨_, hput hu, e1⟩
      · obtain ⟨u, hu, e1⟩ := h.accepted.parents v hv f (tableFor_mem h (of_mem_settled h hb hp hm hv he hd) he) g hg
        exact ⟨_, hput hu, e1⟩
    · intro v' hv' hk
      obtain ⟨v, hv, rfl⟩ := List.mem_map.1 hv'
      rw [settled_utility] at hk
      rw [settled_tableFor h hb hp hv (by rw [hk]; decide)]
      simp only [settled_isUtility]
      exact h.accepted.utility v hv hk
    · intro v' hv' w' hw' h1 h2
      obtain ⟨v, hv, rfl⟩ := List.mem_map.1 hv'
      obtain ⟨w, hw, rfl⟩ := List.mem_map.1 hw'
      rw [h.accepted.oneTotal v hv w hw ((settled_isTotal h hb hp hv).1 h1) ((settled_isTotal h hb hp hw).1 h2)]
    · intro v' hv' h1 f hf
      obtain ⟨v, hv, rfl⟩ := List.mem_map.1 hv'
      have h1' := (settled_isTotal h hb hp hv).1 h1
      rw [settled_tableFor h hb hp hv (by rw [h1'.1]; decide)] at hf
      exact h.accepted.weights v hv h1' f hf
  · intro v' hv'
    obtain ⟨v, hv, rfl⟩ := List.mem_map.1 hv'
    exact h.named v hv
  · rw [List.length_map]; exact h.few
  · intro v' hv'
    obtain ⟨v, hv, rfl⟩ := List.mem_map.1 hv'
    exact h.outcomes v hv
  · exact settled_forVars h hb hp
  · intro v' hv' _
    obtain ⟨v, hv, rfl⟩ := List.mem_map.1 hv'
    by_cases hd : v.nodeType = .decision
    · obtain ⟨t, ht, e⟩ := List.mem_map.1 ((hp.keys v.name).2 ((built_isKind hb _ _).2 ⟨v, hv, rfl, hd⟩))
      exact ⟨t.2, mem_settledTables.2 (.inr ⟨t, ht, rfl⟩), by rw [(hp.tables t ht).forVar, e]; rfl⟩
    · obtain ⟨f, hf, e⟩ := h.hasTable v hv hd
      exact ⟨f, mem_settled h hf hv e hd, e⟩
  · intro f hf
    rcases mem_settledTables.1 hf with ⟨h1, _⟩ | ⟨t, ht, rfl⟩
    · obtain ⟨v, hv, e⟩ := h.known f h1
      exact ⟨_, hput hv, e⟩
    · obtain ⟨v, hv, e1, _⟩ := (built_isKind hb _ _).1 (hp.tables t ht).decision
      exact ⟨_, hput hv, by rw [(hp.tables t ht).forVar]; exact e1⟩
  · intro f hf
    rcases mem_settledTables.1 hf with ⟨h1, _⟩ | ⟨t, ht, rfl⟩
    · exact h.dims f h1
    · exact (hp.tables t ht).dims
  · intro v' hv' hk f hf e g hg
    obtain ⟨v, hv, rfl⟩ := List.mem_map.1 hv'
    rw [settled_isUtility]
    by_cases hd : v.nodeType = .decision
    · obtain ⟨u, hu, e1, e2⟩ := hdec hv (of_mem_settled_decision h hb hp hf hv e hd) g hg
      rw [← e1]; exact hnot hu e2
    · exact h.parents v hv (fun e => hk (settled_utility.2 e)) f (of_mem_settled h hb hp hf hv e hd) e g hg
  · intro v' hv' _ hT f hf e
    obtain ⟨v, hv, rfl⟩ := List.mem_map.1 hv'
    simp only [settled_outcomeCount]
    by_cases hd : v.nodeType = .decision
    · have ht := of_mem_settled_decision h hb hp hf hv e hd
      obtain ⟨data, k1, k2⟩ := ht.size
      refine ⟨data, k1, ?_⟩
      rw [k2]
      unfold NFactor.dims
      rw [List.map_append, List.prod_append, List.map_singleton, List.prod_singleton, e]
      have hcv : n.count v.name = v.outcomes.length := by
        rw [built_count hb]
        unfold outcomeCount
        cases hg : vars.find? (fun x => x.name = v.name) with
        | none => simpa using List.find?_eq_none.1 hg v hv
        | some x =>
          have g2 := List.find?_some hg
          simp only [decide_eq_true_eq] at g2
          rw [List.inj_on_of_nodup_map h.accepted.names (List.mem_of_find?_eq_some hg) hv g2]
          rfl
      rw [settled_name, hcv, settled_outcomes]
      congr 2
      exact List.map_congr_left (fun g _ => built_count hb g)
    · exact h.size v hv hd (fun hT' => hT ((settled_isTotal h hb hp hv).2 hT')) f (of_mem_settled h hb hp hf hv e hd) e
  · intro v' hv' hk hT
    obtain ⟨v, hv, rfl⟩ := List.mem_map.1 hv'
    exact h.single v hv (settled_utility.1 hk) (fun hT' => hT ((settled_isTotal h hb hp hv).2 hT'))
  · intro v' hv' hT f hf e
    obtain ⟨v, hv, rfl⟩ := List.mem_map.1 hv'
    have hT' := (settled_isTotal h hb hp hv).1 hT
    obtain ⟨k1, k2⟩ := h.weights v hv hT' f (of_mem_settled h hb hp hf hv e (by rw [hT'.1]; decide)) e
    refine ⟨k1, fun u' hu' hk hne => ?_⟩
    obtain ⟨u, hu, rfl⟩ := List.mem_map.1 hu'
    exact k2 u hu (settled_utility.1 hk) hne

end new

/-- The network built from the settled structure, and the network after `SolvePolicies`. -/
theorem settled_net [Field α] [LinearOrder α] [IsStrictOrderedRing α] {vars : List NVar} {tables : List (NFactor α)}
    (h : WellFormed vars tables) {name info name' info' : String} {n n' m : Net α} (hn : n.Valid)
    (hb : Built name info vars tables n) {pol : List (String × NFactor α)} (hp : n.TablesFor pol)
    (hm : Built name' info' (vars.map NVar.settled) (settledTables vars tables pol) m) {vs : Option Vs}
    {names : List (String × NVar × Var)} {pols : List (String × Factor α)}
    (hn' : n' = { n with vs := vs, names := names, policies := pols })
    (hkeys : (n'.policies.map Prod.fst).Perm n.decisions)
    (hval : ∀ p ∈ n'.policies, ∀ w, n.Allowed w → p.2.val (n.ids w) = n.byTables pol p.1 w) : n'.Settled m := by
  have hvars : n'.variables = n.variables := by rw [hn']
  have hfac : n'.factors = n.factors := by rw [hn']
  have hkind : ∀ t s, n'.isKind t s = n.isKind t s := by intro t s; unfold Net.isKind; rw [hvars]
  have hmv : m.variables.map NVar.kindOf = n'.variables.map (fun v => v.settled.kindOf) := by
    rw [hvars, hm.links, hb.links, List.map_map, List.map_map, List.map_map]
    apply List.map_congr_left
    intro v _
    simp [NVar.kindOf, NVar.settled]
  have hcount : ∀ s, m.count s = n.count s := by
    intro s
    rw [built_count hm, built_count hb, settled_outcomeCount]
  have hchance : ∀ s, m.isKind .chance s = true ↔ n.isKind .chance s = true ∨ n.isKind .decision s = true := by
    intro s
    rw [built_isKind hm, built_isKind hb, built_isKind hb]
    constructor
    · rintro ⟨u, hu, e1, e2⟩
      obtain ⟨v, hv, rfl⟩ := List.mem_map.1 hu
      cases ht : v.nodeType with
      | chance => exact .inl ⟨v, hv, e1, ht⟩
      | decision => exact .inr ⟨v, hv, e1, ht⟩
      | utility => rw [settled_utility.2 ht] at e2; cases e2
    · rintro (⟨v, hv, e1, e2⟩ | ⟨v, hv, e1, e2⟩) <;>
        exact ⟨v.settled, List.mem_map_of_mem hv, e1, by simp [NVar.settled, e2]⟩
  have huniq : ∀ {s : String} {t t' : NodeType}, n.isKind t s = true → n.isKind t' s = true → t = t' := by
    intro s t t' h1 h2
    obtain ⟨v, hv, e1, e2⟩ := (built_isKind hb _ _).1 h1
    obtain ⟨u, hu, e3, e4⟩ := (built_isKind hb _ _).1 h2
    rw [List.inj_on_of_nodup_map h.accepted.names hu hv (by rw [e3, e1])] at e4
    rw [← e2, ← e4]
  have hdecide : ∀ f : NFactor α, (!(vars.any fun v => decide (v.name = f.forVar ∧ v.nodeType = .decision))) =
      !(n.isKind .decision f.forVar) := by
    intro f
    congr 1
    rw [Bool.eq_iff_iff, built_isKind hb]
    simp only [List.any_eq_true, decide_eq_true_eq]
  refine ⟨hmv, ?_, ?_, hm.policies, ?_, ?_⟩
  · rw [hn']
    show m.totalUtility = n.totalUtility
    by_cases hex : ∃ v ∈ vars, IsTotal vars tables v
    · obtain ⟨v, hv, hT⟩ := hex
      obtain ⟨i, hi⟩ := List.getElem?_of_mem hv
      rw [hb.total i v hi hT, hm.total i v.settled (by rw [List.getElem?_map, hi]; rfl) ((settled_isTotal h hb hp hv).2 hT)]
    · rw [hb.noTotal (fun v hv hT => hex ⟨v, hv, hT⟩), hm.noTotal (fun v' hv' hT => by
        obtain ⟨v, hv, rfl⟩ := List.mem_map.1 hv'
        exact hex ⟨v, hv, (settled_isTotal h hb hp hv).1 hT⟩)]
  · intro v hv hd
    rw [hvars] at hv
    exact mapGet_isSome.2 (hkeys.symm.subset (mem_decisions.2 ((isKind_iff hn hv _).2 hd)))
  · intro w hw
    have hw' : n.Allowed w := by
      intro v hv
      exact hw v (by unfold Net.stateVars at hv ⊢; rw [hvars]; exact hv)
    have hprob : ∀ f f' : NFactor α, f'.core = f.core → n.prob f' w = m.prob f w := by
      intro f f' e
      obtain ⟨e1, e2, e3⟩ := core_eq e
      rw [prob_same e1 e2 e3 (fun s _ => (hcount s).symm)]
    have hprob' : ∀ f f' : NFactor α, f'.core = f.core → n.prob f' w = n.prob f w := by
      intro f f' e
      obtain ⟨e1, e2, e3⟩ := core_eq e
      rw [prob_same e1 e2 e3 (fun s _ => rfl)]
    have k1 : (m.chanceTables.map (fun f => m.prob f w)).prod =
        (((settledTables vars tables pol).filter (fun f => m.isKind .chance f.forVar)).map (fun f => n.prob f w)).prod :=
      (relisted_fold (by rw [hm.tables]) (F := fun f => m.prob f w) (F' := fun f => n.prob f w) hprob
        (fun s => m.isKind .chance s)).prod_eq
    have k2 : (n.chanceTables.map (fun f => n.prob f w)).prod =
        ((tables.filter (fun f => n.isKind .chance f.forVar)).map (fun f => n.prob f w)).prod :=
      (relisted_fold (by rw [hb.tables]) (F := fun f => n.prob f w) (F' := fun f => n.prob f w) hprob'
        (fun s => n.isKind .chance s)).prod_eq
    have k3 : (settledTables vars tables pol).filter (fun f => m.isKind .chance f.forVar) =
        tables.filter (fun f => n.isKind .chance f.forVar) ++ pol.map Prod.snd := by
      unfold settledTables
      rw [List.filter_append, List.filter_filter]
      congr 1
      · apply List.filter_congr
        intro f _
        rw [hdecide, Bool.eq_iff_iff, Bool.and_eq_true, hchance, Bool.not_eq_true']
        constructor
        · rintro ⟨c | d, e⟩
          · exact c
          · rw [d] at e; cases e
        · intro c
          refine ⟨.inl c, ?_⟩
          rw [Bool.eq_false_iff]
          intro d
          exact absurd (huniq c d) (by decide)
      · rw [List.filter_eq_self]
        intro f hf
        obtain ⟨t, ht, rfl⟩ := List.mem_map.1 hf
        rw [hchance, (hp.tables t ht).forVar]
        exact .inr (hp.tables t ht).decision
    have hfit : ∀ t ∈ pol, ∀ s ∈ t.2.dims, w s < n.count s := by
      intro t ht s hst
      have key : ∀ k, k ≠ NodeType.utility → n.isKind k s = true → w s < n.count s := by
        intro k hk h
        obtain ⟨v, hv, rfl, e2⟩ := isKind_mem.1 h
        rw [count_eq hn hv]
        exact hw' v (mem_stateVars.2 ⟨hv, by rw [e2]; exact hk⟩)
      have hpt := hp.tables t ht
      rcases List.mem_append.1 hst with h | h
      · rcases hpt.parents s h with h | h
        · exact key _ (by decide) h
        · exact key _ (by decide) h
      · exact key .decision (by decide) (by rw [List.mem_singleton.1 h, hpt.forVar]; exact hpt.decision)
    have k4 : ((pol.map Prod.snd).map (fun f => n.prob f w)).prod = (n'.policies.map (fun p => p.2.val (n.ids w))).prod := by
      have hperm : (pol.map Prod.fst).Perm (n'.policies.map Prod.fst) := by
        refine List.Perm.trans ?_ hkeys.symm
        rw [List.perm_ext_iff_of_nodup hp.nodup (decisions_nodup hn)]
        intro s
        rw [hp.keys, mem_decisions]
      have e1 : (pol.map Prod.snd).map (fun f => n.prob f w) = (pol.map Prod.fst).map (fun d => n.byTables pol d w) := by
        rw [List.map_map, List.map_map]
        apply List.map_congr_left
        intro t ht
        simp only [Function.comp]
        rw [byTables_eq hp.nodup ht]
        unfold Net.prob
        rw [(hp.tables t ht).one w (hfit t ht), if_neg one_ne_zero, div_one]
      have e2 : n'.policies.map (fun p => p.2.val (n.ids w)) = (n'.policies.map Prod.fst).map (fun d => n.byTables pol d w) := by
        rw [List.map_map]
        exact List.map_congr_left (fun p hp => hval p hp w hw')
      rw [e1, e2]
      exact (hperm.map _).prod_eq
    have k5 : n'.joint n'.policies w = (n.chanceTables.map (fun f => n.prob f w)).prod *
        (n'.policies.map (fun p => p.2.val (n.ids w))).prod := by
      rw [hn']; rfl
    have k6 : m.joint [] w = (m.chanceTables.map (fun f => m.prob f w)).prod := by
      unfold Net.joint; simp
    rw [k6, k1, k3, List.map_append, List.prod_append, k4, k5, k2]
  · intro s hs
    rw [hkind] at hs
    rw [hfac]
    have key : ∀ L : List (NFactor α), (L.filter (fun f => decide (f.forVar = s))).map NFactor.core =
        (L.map NFactor.core).filter (fun f => decide (f.forVar = s)) := by
      intro L
      rw [List.filter_map]
      rfl
    rw [key, key, hm.tables, hb.tables, ← key, ← key]
    congr 1
    unfold settledTables
    rw [List.filter_append, List.filter_filter]
    have e2 : (pol.map Prod.snd).filter (fun f => decide (f.forVar = s)) = [] := by
      rw [List.filter_eq_nil_iff]
      intro f hf
      obtain ⟨t, ht, rfl⟩ := List.mem_map.1 hf
      simp only [decide_eq_true_eq]
      intro e
      have := (hp.tables t ht).decision
      rw [← (hp.tables t ht).forVar, e] at this
      exact absurd (huniq hs this) (by decide)
    rw [e2, List.append_nil]
    apply List.filter_congr
    intro f _
    rw [hdecide]
    by_cases e : f.forVar = s
    · rw [e]
      have : n.isKind .decision s = false := by
        rw [Bool.eq_false_iff]
        intro d
        exact absurd (huniq hs d) (by decide)
      simp [this]
    · simp [e]

/-- **C97.** After `SolvePolicies` a decision acts like a chance variable with the returned table. Take the arguments
given to `New`, turn decisions into chance variables, and use the returned tables (in any order) as theirs: `New` accepts
these, and the network answers every query and every utility query as the solved network does, also if decisions are
observed or asked for. -/
theorem C97_settled [Field α] [LinearOrder α] [IsStrictOrderedRing α] (sch sch' sch'' : NSched α)
    (name name' info info' : String) {vars : List NVar} {tables : List (NFactor α)} (hptr : ∀ v ∈ vars, v.factor = none)
    (h : WellFormed vars tables) {n : Net α} (hnew : newNet name info vars tables = .ok n) (hs : n.Feasible)
    (stepwise : Bool) :
    ∃ policies n', n.solvePolicies sch stepwise = (.ok policies, n') ∧
      ∀ listed, listed.Perm policies →
      ∃ m, newNet name' info' (vars.map NVar.settled) (settledTables vars tables listed) = .ok m ∧
      (∀ evidence query ign, n'.EvidenceOK evidence →
        (∀ q ∈ query, (∃ v ∈ n'.stateVars, v.name = q) ∧ ∀ e ∈ evidence, e.1 ≠ q) →
        n'.mass n'.policies (n'.Agrees evidence) ≠ 0 →
        ∃ r f n1 r' f' m1, n'.solveQuery sch' evidence query false = (.ok (r, f), n1) ∧
          m.solveQuery sch'' evidence query ign = (.ok (r', f'), m1) ∧ (∀ s, s ∈ r.map Prod.fst ↔ s ∈ query) ∧
          ∀ q d, (q, d) ∈ r' ↔ (q, d) ∈ r) ∧
      ∀ evidence query u ign, n'.EvidenceOK evidence → (∀ q ∈ query, ∃ v ∈ n'.stateVars, v.name = q) →
        ((u = "" ∧ n'.utilityVars ≠ []) ∨ ∃ v ∈ n'.utilityVars, v.name = u) →
        ∃ g n1 g' m1, n'.solveUtility sch' evidence query u false = (.ok g, n1) ∧
          m.solveUtility sch'' evidence query u ign = (.ok g', m1) ∧
          ∀ w, (∀ v ∈ n'.variables, w v.name < v.outcomes.length) →
            ∃ x, g.get (ints (tupleOf g.vars (n'.ids w))) = .ok x ∧ g'.get (ints (tupleOf g'.vars (m.ids w))) = .ok x := by
  obtain ⟨n0, h1, hn, _⟩ := C35_new_valid name info hptr h
  obtain rfl : n = n0 := by rw [hnew] at h1; exact Except.ok.inj h1
  have hb := C35_new_result name info vars tables hptr hnew
  obtain ⟨pol, n', k1, k2, k3, k4, k5, k6, ⟨vs, names, pols, k7⟩, _⟩ := solvePolicies_net sch hn (fun _ => hs) stepwise
  obtain ⟨hkeys, hval⟩ := stored_tables sch hn (fun _ => hs) k1
  refine ⟨pol, n', k1, fun listed hperm => ?_⟩
  have hp : n.TablesFor listed := ⟨(hperm.map _).nodup_iff.2 k2, fun s => by rw [(hperm.map Prod.fst).mem_iff]; exact k3 s,
    fun t ht => k4 t (hperm.subset ht)⟩
  have hval' : ∀ p ∈ n'.policies, ∀ w, n.Allowed w → p.2.val (n.ids w) = n.byTables listed p.1 w := by
    intro p hpm w hw
    rw [hval p hpm w hw]
    obtain ⟨t, ht, e⟩ := List.mem_map.1 ((k3 p.1).2 (mem_decisions.1 (hkeys.subset (List.mem_map_of_mem hpm))))
    rw [← e, byTables_eq k2 ht, byTables_eq hp.nodup (hperm.symm.subset ht)]
  have hptr' : ∀ v ∈ vars.map NVar.settled, v.factor = none := by
    intro v' hv'
    obtain ⟨v, hv, rfl⟩ := List.mem_map.1 hv'
    exact hptr v hv
  obtain ⟨m, hm1, hm2, _⟩ := C35_new_valid name' info' hptr' (settled_wellFormed h hb hp)
  have hset := settled_net h hn hb hp (C35_new_result name' info' _ _ hptr' hm1) k7 hkeys hval'
  refine ⟨m, hm1, fun evidence query ign hev hq hpos => settled_query sch' sch'' k5 k6.toPoliciesOK hm2 hset hev hq ign hpos,
    fun evidence query u ign hev hq hu => settled_solveUtility sch' sch'' k5 k6.toPoliciesOK hm2 hset hev hq ?_ ign⟩
  exact hu

/-- **C97**, probabilities: if chance tables and returned policies follow some order of the variables, the probabilities
of all worlds sum to one after `SolvePolicies`: no evidence is always possible evidence. -/
theorem C97_total [Field α] [LinearOrder α] [IsStrictOrderedRing α] (sch : NSched α) (name info : String)
    {vars : List NVar} {tables : List (NFactor α)} (hptr : ∀ v ∈ vars, v.factor = none)
    (h : WellFormed vars tables) {n : Net α} (hnew : newNet name info vars tables = .ok n) (hs : n.Feasible)
    (hr : n.Regular) (stepwise : Bool) {policies : List (String × NFactor α)} {n' : Net α}
    (hsol : n.solvePolicies sch stepwise = (.ok policies, n')) {rank : String → Nat}
    (hrank : ∀ f ∈ n.chanceTables, ∀ g ∈ f.given, rank g < rank f.forVar)
    (hrank' : ∀ t ∈ policies, ∀ g ∈ t.2.given, rank g < rank t.1) :
    n'.mass n'.policies (fun _ => True) = 1 := by
  obtain ⟨n0, h1, hn, _⟩ := C35_new_valid name info hptr h
  obtain rfl : n = n0 := by rw [hnew] at h1; exact Except.ok.inj h1
  have hb := C35_new_result name info vars tables hptr hnew
  obtain ⟨pol, n1, k1, k2, k3, k4, k5, k6, ⟨vs, names, pols, k7⟩, _⟩ := solvePolicies_net sch hn (fun _ => hs) stepwise
  rw [hsol] at k1
  obtain ⟨e1, rfl⟩ := Prod.mk.inj k1
  obtain rfl := Except.ok.inj e1
  obtain ⟨hkeys, hval⟩ := stored_tables sch hn (fun _ => hs) hsol
  have hp : n.TablesFor policies := ⟨k2, k3, k4⟩
  have hptr' : ∀ v ∈ vars.map NVar.settled, v.factor = none := by
    intro v' hv'
    obtain ⟨v, hv, rfl⟩ := List.mem_map.1 hv'
    exact hptr v hv
  obtain ⟨m, hm1, hm2, _⟩ := C35_new_valid name info hptr' (settled_wellFormed h hb hp)
  have hm := C35_new_result name info _ _ hptr' hm1
  have hset := settled_net h hn hb hp hm k7 hkeys hval
  have hvars : n'.variables = n.variables := by rw [k7]
  have hpart : ∀ f ∈ m.chanceTables, (∃ f0 ∈ n.chanceTables, f.core = f0.core) ∨ ∃ t ∈ policies, f.core = t.2.core := by
    intro f hf
    rw [mem_chanceTables] at hf
    have hc : f.core ∈ m.factors.map NFactor.core := List.mem_map_of_mem hf.1
    rw [hm.tables] at hc
    obtain ⟨f0, hf0, e⟩ := List.mem_map.1 hc
    rcases mem_settledTables.1 hf0 with ⟨a1, a2⟩ | ⟨t, ht, rfl⟩
    · have hc' : f0.core ∈ tables.map NFactor.core := List.mem_map_of_mem a1
      rw [← hb.tables] at hc'
      obtain ⟨f1, hf1, e1⟩ := List.mem_map.1 hc'
      refine .inl ⟨f1, mem_chanceTables.2 ⟨hf1, ?_⟩, by rw [← e, e1]⟩
      obtain ⟨u, hu, b1, b2⟩ := (built_isKind hm _ _).1 hf.2
      obtain ⟨v, hv, rfl⟩ := List.mem_map.1 hu
      have hvn : v.name = f0.forVar := by rw [(core_eq e).1]; exact b1
      rw [(core_eq e1).1, built_isKind hb]
      refine ⟨v, hv, hvn, ?_⟩
      cases ht : v.nodeType with
      | chance => rfl
      | utility => rw [settled_utility.2 ht] at b2; cases b2
      | decision => exact absurd ht (a2 v hv hvn)
    · exact .inr ⟨t, ht, e.symm⟩
  have hrow : ∀ {f f0 : NFactor α}, f.core = f0.core → ∀ w, m.rowSum f w = n.rowSum f0 w := by
    intro f f0 e w
    unfold Net.rowSum
    rw [(core_eq e).1, settled_count hset]
    have hc : n'.count f0.forVar = n.count f0.forVar := by rw [k7]; rfl
    rw [hc]
    apply Finset.sum_congr rfl
    intro k _
    rw [settled_entry hset e, k7]
    rfl
  have hallow : ∀ {w : World}, m.Allowed w → n.Allowed w := by
    intro w hw v hv
    obtain ⟨hv1, hv2⟩ := mem_stateVars.1 hv
    obtain ⟨u, hu, e1, e2, e3⟩ := settled_var hset (v := v) (by rw [hvars]; exact hv1)
    rw [← e1, ← e3]
    exact hw u (mem_stateVars.2 ⟨hu, by rw [e2, ne_eq, settled_utility]; exact hv2⟩)
  have htot := C86_total hm2 ⟨rank, fun f hf g hg => by
      rcases hpart f hf with ⟨f0, hf0, e⟩ | ⟨t, ht, e⟩
      · rw [(core_eq e).1]
        exact hrank f0 hf0 g (by rw [← (core_eq e).2.1]; exact hg)
      · rw [(core_eq e).1, (k4 t ht).forVar]
        exact hrank' t ht g (by rw [← (core_eq e).2.1]; exact hg)⟩ (fun f hf w hw => by
      rcases hpart f hf with ⟨f0, hf0, e⟩ | ⟨t, ht, e⟩
      · rw [hrow e]; exact hr f0 hf0 w (hallow hw)
      · rw [hrow e, (k4 t ht).one w]
        · exact one_ne_zero
        · intro s hst
          have key : ∀ k, k ≠ NodeType.utility → n.isKind k s = true → w s < n.count s := by
            intro k hk h
            obtain ⟨v, hv, rfl, e2⟩ := isKind_mem.1 h
            rw [count_eq hn hv]
            exact hallow hw v (mem_stateVars.2 ⟨hv, by rw [e2]; exact hk⟩)
          rcases List.mem_append.1 hst with h | h
          · rcases (k4 t ht).parents s h with h | h
            · exact key _ (by decide) h
            · exact key _ (by decide) h
          · exact key .decision (by decide) (by rw [List.mem_singleton.1 h, (k4 t ht).forVar]; exact (k4 t ht).decision))
  have hnone : m.variables.filter (fun v => v.nodeType = .decision) = [] := by
    rw [List.filter_eq_nil_iff]
    intro u hu
    simp only [decide_eq_true_eq]
    intro e
    obtain ⟨v, _, _, k, _⟩ := settled_var' hset hu
    exact settled_decision (k.symm.trans e)
  rw [hnone, List.map_nil, List.prod_nil] at htot
  rw [← htot]
  unfold Net.mass
  rw [settled_total hset k5]

/-- A rank for the umbrella network and any policy in it: the umbrella is last. -/
def Ex.umbRank : String → Nat := fun s => if s = "Weather" then 0 else if s = "Forecast" then 1 else 2

theorem Ex.umb_regular : Ex.umb.Regular := by
  intro f hf w hw
  have hc : Ex.umb.chanceTables.map NFactor.core = [⟨"Weather", [], some [70, 30], [], 0⟩,
    ⟨"Forecast", ["Weather"], some [8, 2, 1, 9], [], 0⟩] := by decide
  have hf' : f.core ∈ Ex.umb.chanceTables.map NFactor.core := List.mem_map_of_mem hf
  have hww : w "Weather" < 2 := hw (Ex.umb.variables.getD 0 ⟨"", .chance, [], (0, 0), "", none⟩) (by decide)
  have h1 : Ex.umb.count "Weather" = 2 := by decide
  have h2 : Ex.umb.count "Forecast" = 2 := by decide
  have hrow : Ex.umb.rowSum f w = Ex.umb.rowSum f.core w := rfl
  rw [hc] at hf'
  rw [hrow]
  simp only [List.mem_cons, List.not_mem_nil, or_false] at hf'
  rcases hf' with e | e <;> rw [e]
  · simp [Net.rowSum, Net.entry, h1, NFactor.dims, rowMajor, NFactor.tab, World.set, Finset.sum_range_succ]
    norm_num
  · rcases (by omega : w "Weather" = 0 ∨ w "Weather" = 1) with e | e <;>
      simp [Net.rowSum, Net.entry, h1, h2, NFactor.dims, rowMajor, NFactor.tab, World.set, Finset.sum_range_succ, e] <;>
      norm_num

/-- After `SolvePolicies` the worlds of the umbrella network have probability one. -/
theorem Ex.umb_mass (sch : NSched ℚ) (stepwise : Bool) {policies : List (String × NFactor ℚ)} {n' : Net ℚ}
    (h : Ex.umb.solvePolicies sch stepwise = (.ok policies, n')) : n'.mass n'.policies (fun _ => True) = 1 := by
  refine C97_total sch "umbrella" "" (by decide) Ex.umb_wellFormed Ex.umb_new Ex.umb_solvable.toFeasible Ex.umb_regular stepwise h
    (rank := Ex.umbRank) (by decide) ?_
  obtain ⟨pol, n1, k1, k2, k3, k4, _⟩ := solvePolicies_net sch Ex.umb_valid (fun _ => Ex.umb_solvable.toFeasible) stepwise
  rw [h] at k1
  obtain rfl := Except.ok.inj (Prod.mk.inj k1).1
  intro t ht g hg
  have hd : ∀ s, Ex.umb.isKind .decision s = true → s = "Umbrella" := by
    intro s hs
    have := mem_decisions.2 hs
    rwa [show Ex.umb.decisions = ["Umbrella"] by decide, List.mem_singleton] at this
  have ht1 := hd _ (k4 t ht).decision
  rw [ht1]
  have hg2 : g ≠ "Umbrella" := by
    intro e
    have := (k4 t ht).dims
    rw [NFactor.dims, List.nodup_append] at this
    exact this.2.2 g hg t.2.forVar (List.mem_singleton_self _) (by rw [e, (k4 t ht).forVar, ht1])
  have hg1 : Ex.umb.isKind .chance g = true := ((k4 t ht).parents g hg).resolve_right (fun e => hg2 (hd g e))
  obtain ⟨v, hv, rfl, hc⟩ := isKind_mem.1 hg1
  clear hg hg1 hg2
  revert v
  decide

/-- The hypotheses of **C97** hold for the umbrella network: what is to be expected of weather and umbrella, and the
utility, are the same as in the network in which taking the umbrella is a chance variable. -/
example (sch sch' sch'' : NSched ℚ) : ∃ policies n' m, Ex.umb.solvePolicies sch true = (.ok policies, n') ∧
    newNet "settled" "" (Ex.umbVars.map NVar.settled) (settledTables Ex.umbVars Ex.umbTables policies) = .ok m ∧
    (∃ r f n1 r' f' m1, n'.solveQuery sch' [] ["Umbrella", "Weather"] false = (.ok (r, f), n1) ∧
      m.solveQuery sch'' [] ["Umbrella", "Weather"] true = (.ok (r', f'), m1) ∧ ∀ q d, (q, d) ∈ r' ↔ (q, d) ∈ r) ∧
    ∃ g n1 g' m1, n'.solveUtility sch' [("Umbrella", "yes")] [] "" false = (.ok g, n1) ∧
      m.solveUtility sch'' [("Umbrella", "yes")] [] "" true = (.ok g', m1) := by
  obtain ⟨policies, n', h1, h2⟩ := C97_settled sch sch' sch'' "umbrella" "settled" "" "" (by decide) Ex.umb_wellFormed
    Ex.umb_new Ex.umb_solvable.toFeasible true
  obtain ⟨m, h3, h4, h5⟩ := h2 policies (List.Perm.refl _)
  obtain ⟨_, _, k1, _, _, _, _, _, ⟨vs, names, pols, k7⟩, _⟩ :=
    solvePolicies_net sch Ex.umb_valid (fun _ => Ex.umb_solvable.toFeasible) true
  have hv : n'.variables = Ex.umb.variables := by
    rw [h1] at k1
    rw [(Prod.mk.inj k1).2, k7]
  have hst : n'.stateVars = Ex.umb.stateVars := by unfold Net.stateVars; rw [hv]
  refine ⟨policies, n', m, h1, h3, ?_, ?_⟩
  · obtain ⟨r, f, n1, r', f', m1, a1, a2, _, a4⟩ := h4 [] ["Umbrella", "Weather"] true ⟨by decide, by simp⟩
      (by rw [hst]; decide) (by
        have := Ex.umb_mass sch true h1
        unfold Net.mass at this ⊢
        simp only [if_true] at this
        have hag : ∀ w, n'.Agrees [] w := fun w e he => absurd he (List.not_mem_nil)
        simp only [hag, if_true]
        rw [this]
        exact one_ne_zero)
    exact ⟨r, f, n1, r', f', m1, a1, a2, a4⟩
  · obtain ⟨g, n1, g', m1, a1, a2, _⟩ := h5 [("Umbrella", "yes")] [] "" true ⟨by decide, by rw [hv]; decide⟩ (by simp)
      (.inl ⟨rfl, by
        rw [(Prod.mk.inj (h1.symm.trans k1)).2, k7]
        exact Ex.umb_solvable.utility⟩)
    exact ⟨g, n1, g', m1, a1, a2⟩

end Bbn
