import Verif.Props.NetBarren
import Verif.Props.NetNew

/-!
# The order in which variables and tables are listed does not matter
-/

set_option autoImplicit false

namespace Bbn

open Finset

variable {α : Type}

/-- What a variable is, without position, colour and the pointer to its table. -/
def NVar.kindOf (v : NVar) : String × NodeType × List String := (v.name, v.nodeType, v.outcomes)

/-- The two networks have the same variables and tables, in any order. -/
structure Net.Relisted (n n' : Net α) : Prop where
  vars : (n.variables.map NVar.kindOf).Perm (n'.variables.map NVar.kindOf)
  tables : (n.factors.map NFactor.core).Perm (n'.factors.map NFactor.core)
  total : n'.totalName = n.totalName
  some : n'.totalUtility = none ↔ n.totalUtility = none

theorem Net.Relisted.symm {n n' : Net α} (h : n.Relisted n') : n'.Relisted n :=
  ⟨h.vars.symm, h.tables.symm, h.total.symm, h.some.symm⟩

theorem core_eq {f f' : NFactor α} (h : f'.core = f.core) :
    f'.forVar = f.forVar ∧ f'.given = f.given ∧ f'.table = f.table :=
  ⟨(congrArg NFactor.forVar h : f'.core.forVar = f.core.forVar), (congrArg NFactor.given h : f'.core.given = f.core.given),
    (congrArg NFactor.table h : f'.core.table = f.core.table)⟩

section relisted

variable {n n' : Net α} (h : n.Relisted n')

include h in
theorem relisted_var {v : NVar} (hv : v ∈ n.variables) :
    ∃ v' ∈ n'.variables, v'.name = v.name ∧ v'.nodeType = v.nodeType ∧ v'.outcomes = v.outcomes := by
  obtain ⟨v', hv', e⟩ := List.mem_map.1 (h.vars.subset (List.mem_map_of_mem hv))
  simp only [NVar.kindOf, Prod.mk.injEq] at e
  exact ⟨v', hv', e.1, e.2.1, e.2.2⟩

include h in
theorem relisted_table {f : NFactor α} (hf : f ∈ n.factors) : ∃ f' ∈ n'.factors, f'.core = f.core := by
  obtain ⟨f', hf', e⟩ := List.mem_map.1 (h.tables.subset (List.mem_map_of_mem hf))
  exact ⟨f', hf', e⟩

include h in
theorem relisted_isKind (t : NodeType) (s : String) : n'.isKind t s = n.isKind t s := by
  have key : ∀ {a b : Net α}, a.Relisted b → a.isKind t s = true → b.isKind t s = true := by
    intro a b hab hk
    obtain ⟨v, hv, e1, e2⟩ := isKind_mem.1 hk
    obtain ⟨u, hu, k1, k2, _⟩ := relisted_var hab hv
    exact isKind_mem.2 ⟨u, hu, by rw [k1, e1], by rw [k2, e2]⟩
  rw [Bool.eq_iff_iff]
  exact ⟨key h.symm, key h⟩

variable (hn : n.Valid) (hn' : n'.Valid)

include h hn hn' in
theorem relisted_count (s : String) : n'.count s = n.count s := by
  by_cases hs : ∃ v ∈ n.variables, v.name = s
  · obtain ⟨v, hv, rfl⟩ := hs
    obtain ⟨u, hu, k1, _, k3⟩ := relisted_var h hv
    rw [count_eq hn hv, ← k1, count_eq hn' hu, k3]
  · have key : ∀ {m : Net α}, (¬ ∃ v ∈ m.variables, v.name = s) → m.count s = 0 := by
      intro m hm
      unfold Net.count outcomeCount
      rw [List.find?_eq_none.2 (fun v hv => by
        simp only [decide_eq_true_eq]; exact fun e => hm ⟨v, hv, e⟩)]
      rfl
    rw [key hs, key]
    rintro ⟨v, hv, e⟩
    obtain ⟨u, hu, k1, _, _⟩ := relisted_var h.symm hv
    exact hs ⟨u, hu, by rw [k1, e]⟩

include h hn hn' in
theorem relisted_entry [Zero α] {f f' : NFactor α} (e : f'.core = f.core) (w : World) : n'.entry f' w = n.entry f w := by
  obtain ⟨e1, e2, e3⟩ := core_eq e
  unfold Net.entry NFactor.tab NFactor.dims
  rw [e1, e2, e3]
  simp only [relisted_count h hn hn']

include h hn hn' in
theorem relisted_prob [Field α] [DecidableEq α] {f f' : NFactor α} (e : f'.core = f.core) : n'.prob f' = n.prob f := by
  funext w
  unfold Net.prob Net.rowSum
  simp only [relisted_entry h hn hn' e, (core_eq e).1, relisted_count h hn hn']

/-- Lists of tables with the same content in any order: sums and products over them agree. -/
theorem relisted_fold {β : Type} {L L' : List (NFactor α)} (hL : (L.map NFactor.core).Perm (L'.map NFactor.core))
    {F F' : NFactor α → β} (hF : ∀ f f', f'.core = f.core → F' f' = F f) (p : String → Bool) :
    ((L.filter (fun f => p f.forVar)).map F).Perm ((L'.filter (fun f => p f.forVar)).map F') := by
  have e1 : ∀ (M : List (NFactor α)), M.filter (fun f => p f.forVar) = M.filter ((fun f => p f.forVar) ∘ NFactor.core) :=
    fun M => rfl
  have e3 : ∀ f, F f.core = F f := fun f => by rw [← hF f f rfl, ← hF f.core f rfl]
  have e4 : ∀ f, F' f.core = F f := fun f => hF f f.core rfl
  have k1 : ∀ M : List (NFactor α), (M.filter (fun f => p f.forVar)).map F =
      ((M.map NFactor.core).filter (fun f => p f.forVar)).map F := by
    intro M
    rw [List.filter_map, List.map_map, e1]
    apply List.map_congr_left
    intro f _
    exact (e3 f).symm
  have k2 : ∀ M : List (NFactor α), (M.filter (fun f => p f.forVar)).map F' =
      ((M.map NFactor.core).filter (fun f => p f.forVar)).map F := by
    intro M
    rw [List.filter_map, List.map_map, e1]
    apply List.map_congr_left
    intro f _
    rw [Function.comp, e3, hF f f rfl]
  rw [k1, k2]
  exact (hL.filter _).map _

include h hn hn' in
theorem relisted_joint [Field α] [DecidableEq α] : n'.joint [] = n.joint [] := by
  funext w
  unfold Net.joint Net.chanceTables
  congr 1
  simp only [relisted_isKind h]
  exact (relisted_fold h.tables (F := fun f => n.prob f w) (F' := fun f => n'.prob f w)
    (fun f f' e => by rw [relisted_prob h hn hn' e]) (fun s => n.isKind .chance s)).prod_eq.symm

/-- Lists of variables with the same content in any order. -/
theorem relisted_bare {L L' : List NVar} (hL : (L.map NVar.kindOf).Perm (L'.map NVar.kindOf))
    (p : String → NodeType → Bool) : ((L.filter (fun v => p v.name v.nodeType)).map NVar.bare).Perm
      ((L'.filter (fun v => p v.name v.nodeType)).map NVar.bare) := by
  have k : ∀ M : List NVar, (M.filter (fun v => p v.name v.nodeType)).map NVar.bare =
      ((M.map NVar.kindOf).filter (fun k => p k.1 k.2.1)).map
        (fun k => (⟨k.1, .chance, k.2.2, (0, 0), "", none⟩ : NVar)) := by
    intro M
    rw [List.filter_map, List.map_map]
    rfl
  rw [k, k]
  exact (hL.filter _).map _

include h hn hn' in
theorem relisted_total [Field α] [DecidableEq α] (F : World → α) : n'.total [] F = n.total [] F := by
  unfold Net.total
  rw [relisted_joint h hn hn']
  symm
  refine sumWorlds_relisted _ ?_ _ (stateVars_names hn)
  exact relisted_bare h.vars (fun _ t => decide (t ≠ .utility))

include h in
theorem relisted_agrees (evidence : List (String × String)) (w : World) :
    n'.Agrees evidence w ↔ n.Agrees evidence w := by
  have key : ∀ {a b : Net α}, a.Relisted b → b.Agrees evidence w → a.Agrees evidence w := by
    intro a b hab hb e he v hv hve
    obtain ⟨u, hu, k1, _, k3⟩ := relisted_var hab hv
    rw [hb e he u hu (by rw [k1, hve]), k3]
  exact ⟨key h, key h.symm⟩

include h in
theorem relisted_evidence {evidence : List (String × String)} (he : n.EvidenceOK evidence) : n'.EvidenceOK evidence := by
  refine ⟨he.keys, fun e hm => ?_⟩
  obtain ⟨v, hv, e1, e2, e3⟩ := he.known e hm
  obtain ⟨u, hu, k1, k2, k3⟩ := relisted_var h hv
  exact ⟨u, hu, by rw [k1, e1], by rw [k2]; exact e2, by rw [k3]; exact e3⟩

include h in
theorem relisted_state {q : String} (hq : ∃ v ∈ n.stateVars, v.name = q) : ∃ v ∈ n'.stateVars, v.name = q := by
  obtain ⟨v, hv, e⟩ := hq
  obtain ⟨u, hu, k1, k2, _⟩ := relisted_var h (mem_stateVars.1 hv).1
  exact ⟨u, mem_stateVars.2 ⟨hu, by rw [k2]; exact (mem_stateVars.1 hv).2⟩, by rw [k1, e]⟩

include h in
theorem relisted_occurs {q : String} (hq : n.Occurs [] q) : n'.Occurs [] q := by
  rcases hq with ⟨f, hf, hd⟩ | ⟨p, hp, _⟩
  · rw [mem_chanceTables] at hf
    obtain ⟨f', hf', e⟩ := relisted_table h hf.1
    obtain ⟨e1, e2, _⟩ := core_eq e
    refine .inl ⟨f', mem_chanceTables.2 ⟨hf', by rw [relisted_isKind h, e1]; exact hf.2⟩, ?_⟩
    unfold NFactor.dims at hd ⊢
    rw [e1, e2]; exact hd
  · simp at hp

include h hn hn' in
theorem relisted_utilityIn [Field α] (s : String) (w : World) : n'.utilityIn s w = n.utilityIn s w := by
  unfold Net.utilityIn
  exact (relisted_fold h.tables (F := fun f => n.entry f (w.set s 0)) (F' := fun f => n'.entry f (w.set s 0))
    (fun f f' e => relisted_entry h hn hn' e _) (fun t => decide (t = s))).sum_eq.symm

include h hn hn' in
theorem relisted_weight [Field α] (s : String) : n'.weight s = n.weight s := by
  have key : ∀ {f f' : NFactor α}, f'.core = f.core → f'.tab.getD (f'.given.idxOf s) 0 = f.tab.getD (f.given.idxOf s) 0 := by
    intro f f' e
    obtain ⟨_, e2, e3⟩ := core_eq e
    unfold NFactor.tab
    rw [e2, e3]
  have hfind : ∀ {a b : Net α}, a.Relisted b → a.Valid → b.Valid → ∀ f,
      a.factors.find? (fun f => f.forVar = n.totalName) = some f →
      ∃ f', b.factors.find? (fun f => f.forVar = n.totalName) = some f' ∧ f'.core = f.core := by
    intro a b hab ha hb f hf
    have h1 := List.mem_of_find?_eq_some hf
    have h2 := List.find?_some hf
    simp only [decide_eq_true_eq] at h2
    obtain ⟨f', hf', e⟩ := relisted_table hab h1
    have h3 : f'.forVar = n.totalName := by rw [(core_eq e).1, h2]
    refine ⟨f', ?_, e⟩
    cases hg : b.factors.find? (fun f => f.forVar = n.totalName) with
    | none => exact absurd h3 (by simpa using List.find?_eq_none.1 hg f' hf')
    | some g =>
      have g1 := List.mem_of_find?_eq_some hg
      have g2 := List.find?_some hg
      simp only [decide_eq_true_eq] at g2
      rw [List.inj_on_of_nodup_map hb.tables g1 hf' (by rw [g2, h3])]
  unfold Net.weight
  rw [h.total]
  cases hu : n.totalUtility with
  | none => rw [h.some.2 hu]
  | some i =>
    cases hu' : n'.totalUtility with
    | none => rw [h.some.1 hu'] at hu; cases hu
    | some j =>
      dsimp only
      cases hf : n.factors.find? (fun f => f.forVar = n.totalName) with
      | some f =>
        obtain ⟨f', hf', e⟩ := hfind h hn hn' f hf
        rw [hf']
        simp only [Option.map_some, Option.getD_some, key e]
      | none =>
        cases hf' : n'.factors.find? (fun f => f.forVar = n.totalName) with
        | none => rfl
        | some f' =>
          obtain ⟨f, hf2, _⟩ := hfind h.symm hn' hn f' hf'
          rw [hf] at hf2; cases hf2

include h hn hn' in
theorem relisted_asked [Field α] (u : String) (w : World) : n'.asked u w = n.asked u w := by
  unfold Net.asked
  split_ifs
  · unfold Net.totalIn Net.utilityVars
    rw [h.total]
    have hp := relisted_bare h.vars (fun s t => decide (t = .utility ∧ s ≠ n.totalName))
    have k : ∀ (m : Net α) (M : List NVar), M.map (fun u => m.weight u.name * m.utilityIn u.name w) =
        (M.map NVar.bare).map (fun u => m.weight u.name * m.utilityIn u.name w) := by
      intro m M; rw [List.map_map]; rfl
    rw [k, k n]
    simp only [relisted_weight h hn hn', relisted_utilityIn h hn hn']
    exact ((hp.map _).sum_eq).symm
  · exact relisted_utilityIn h hn hn' u w

include h hn hn' in
theorem relisted_observe (evidence : List (String × String)) (w : World) :
    n'.observe evidence w = n.observe evidence w := by
  funext s
  unfold Net.observe
  cases evidence.find? (fun e => e.1 = s) with
  | none => rfl
  | some e =>
    dsimp only
    by_cases hs : ∃ v ∈ n.variables, v.name = s
    · obtain ⟨v, hv, rfl⟩ := hs
      obtain ⟨u, hu, k1, _, k3⟩ := relisted_var h hv
      have h1 := find_name hn' hu
      rw [k1] at h1
      rw [find_name hn hv, h1]
      simp [k3]
    · have key : ∀ {m : Net α}, (¬ ∃ v ∈ m.variables, v.name = s) → m.variables.find? (fun v => v.name = s) = none := by
        intro m hm
        rw [List.find?_eq_none]
        intro v hv
        simp only [decide_eq_true_eq]; exact fun e => hm ⟨v, hv, e⟩
      rw [key hs, key]
      rintro ⟨v, hv, e⟩
      obtain ⟨u, hu, k1, _, _⟩ := relisted_var h.symm hv
      exact hs ⟨u, hu, by rw [k1, e]⟩

include h in
theorem relisted_hidden (hpol : n.policies = []) (hpol' : n'.policies = []) (evidence : List (String × String))
    (query : List String) :
    ((n.hiddenVars evidence query).map NVar.bare).Perm ((n'.hiddenVars evidence query).map NVar.bare) := by
  have hno : ∀ s, n.hasPolicy s = false := fun s => by simp [Net.hasPolicy, hpol, mapGet]
  have hno' : ∀ s, n'.hasPolicy s = false := fun s => by simp [Net.hasPolicy, hpol', mapGet]
  have key : ∀ {a b : Net α}, a.Relisted b → ∀ s : String,
      (∀ f ∈ a.factors, a.isKind .decision f.forVar = true → s ∉ f.given) →
      ∀ f ∈ b.factors, b.isKind .decision f.forVar = true → s ∉ f.given := by
    intro a b hab s hs f hf hk
    obtain ⟨f', hf', e⟩ := relisted_table hab.symm hf
    obtain ⟨e1, e2, _⟩ := core_eq e
    rw [← e2]
    exact hs f' hf' (by rw [← relisted_isKind hab, e1]; exact hk)
  have hiff : ∀ s : String, (∀ f ∈ n'.factors, n'.isKind .decision f.forVar = true → s ∉ f.given) ↔
      ∀ f ∈ n.factors, n.isKind .decision f.forVar = true → s ∉ f.given :=
    fun s => ⟨key h.symm s, key h s⟩
  have hp := relisted_bare h.vars (fun s t => decide (t ≠ .utility) && decide (t = .chance ∧ (∀ e ∈ evidence, e.1 ≠ s) ∧
    s ∉ query ∧ ∀ f ∈ n.factors, n.isKind .decision f.forVar = true → s ∉ f.given))
  have e1 : ∀ {m : Net α}, (∀ s, m.hasPolicy s = false) →
      (∀ s : String, (∀ f ∈ m.factors, m.isKind .decision f.forVar = true → s ∉ f.given) ↔
        ∀ f ∈ n.factors, n.isKind .decision f.forVar = true → s ∉ f.given) →
      m.hiddenVars evidence query = m.variables.filter (fun v => decide (v.nodeType ≠ .utility) &&
        decide (v.nodeType = .chance ∧ (∀ e ∈ evidence, e.1 ≠ v.name) ∧
          v.name ∉ query ∧ ∀ f ∈ n.factors, n.isKind .decision f.forVar = true → v.name ∉ f.given)) := by
    intro m hm hi
    unfold Net.hiddenVars Net.stateVars
    rw [List.filter_filter]
    apply List.filter_congr
    intro v _
    rw [Bool.and_comm]
    congr 1
    rw [decide_eq_decide, hm v.name, ← hi v.name]
    simp only [hm, Bool.false_eq_true, or_false, true_implies]
  rw [e1 hno (fun _ => Iff.rfl), e1 hno' hiff]
  exact hp

end relisted

/-- Relisted networks give the same answers to queries. -/
theorem relisted_query [Field α] [CharZero α] [DecidableEq α] (sch sch' : NSched α) {n n' : Net α} (hn : n.Valid)
    (hn' : n'.Valid) (h : n.Relisted n') (hpol : n.policies = []) (hpol' : n'.policies = [])
    {evidence : List (String × String)} (hev : n.EvidenceOK evidence) {query : List String} (ign : Bool)
    (hq : n.QueryOK evidence ign query) (possible : n.mass [] (n.Agrees evidence) ≠ 0) :
    ∃ r f m r' f' m', n.solveQuery sch evidence query ign = (.ok (r, f), m) ∧
      n'.solveQuery sch' evidence query ign = (.ok (r', f'), m') ∧ (∀ s, s ∈ r.map Prod.fst ↔ s ∈ query) ∧
      ∀ q d, (q, d) ∈ r' ↔ (q, d) ∈ r := by
  have hact : n.active evidence ign = [] := by simp [Net.active, hpol]
  have hact' : n'.active evidence ign = [] := by simp [Net.active, hpol']
  have hmass : ∀ (P : World → Prop) [DecidablePred P], n'.mass [] P = n.mass [] P := by
    intro P _
    unfold Net.mass
    exact relisted_total h hn hn' _
  have hm0 : n'.mass [] (n'.Agrees evidence) = n.mass [] (n.Agrees evidence) := by
    rw [hmass]
    unfold Net.mass
    simp only [relisted_agrees h]
  have hm1 : ∀ q k, n'.mass [] (fun w => n'.Agrees evidence w ∧ w q = k) =
      n.mass [] (fun w => n.Agrees evidence w ∧ w q = k) := by
    intro q k
    rw [hmass]
    unfold Net.mass
    simp only [relisted_agrees h]
  obtain ⟨r, f, m, a1, a2, a3, a4⟩ := C31_solveQuery_posterior sch hn (by constructor <;> simp [hpol]) hev ign
    hq (by rw [hact]; exact possible)
  obtain ⟨r', f', m', b1, b2, b3, b4⟩ := C31_solveQuery_posterior sch' hn' (by constructor <;> simp [hpol'])
    (relisted_evidence h hev) ign (query := query) ⟨fun q hm => relisted_state h (hq.state q hm), hq.free, fun q hm => by
      rw [hact']
      have := hq.occurs q hm
      rw [hact] at this
      exact relisted_occurs h this⟩ (by rw [hact', hm0]; exact possible)
  refine ⟨r, f, m, r', f', m', a1, b1, a3, ?_⟩
  have hsame : ∀ q ∈ query, ∃ d, (q, d) ∈ r ∧ (q, d) ∈ r' := by
    intro q hqm
    obtain ⟨d, u1, u2, u3⟩ := a4 q hqm
    obtain ⟨d', v1, v2, v3⟩ := b4 q hqm
    have hcq := relisted_count h hn hn' q
    have : d' = d := by
      apply List.ext_getElem?
      intro k
      by_cases hk : k < n.count q
      · rw [u3 k hk, v3 k (by rw [hcq]; exact hk), hact, hact', hm0, hm1]
      · rw [List.getElem?_eq_none (l := d) (by omega), List.getElem?_eq_none (l := d') (by rw [v2, hcq]; omega)]
    exact ⟨d, u1, this ▸ v1⟩
  have huni : ∀ {L : List (String × List α)}, (L.map Prod.fst).Nodup → ∀ {q d d'}, (q, d) ∈ L → (q, d') ∈ L → d = d' := by
    intro L hL q d d' h1 h2
    have := List.inj_on_of_nodup_map hL h1 h2 rfl
    simpa using this
  intro q d
  constructor
  · intro hm
    obtain ⟨e, h1, h2⟩ := hsame q ((b3 q).1 (List.mem_map_of_mem hm))
    rw [huni b2 hm h2]; exact h1
  · intro hm
    obtain ⟨e, h1, h2⟩ := hsame q ((a3 q).1 (List.mem_map_of_mem hm))
    rw [huni a2 hm h1]; exact h2

/-- Relisted networks give the same utilities. -/
theorem relisted_utility [Field α] [DecidableEq α] (sch sch' : NSched α) {n n' : Net α} (hn : n.Valid)
    (hn' : n'.Valid) (h : n.Relisted n') (hpol : n.policies = []) (hpol' : n'.policies = [])
    {evidence : List (String × String)} (hev : n.EvidenceOK evidence) {query : List String}
    (hq : ∀ q ∈ query, ∃ v ∈ n.stateVars, v.name = q) {u : String}
    (hu : u = "" ∧ n.utilityVars ≠ [] ∨ ∃ v ∈ n.utilityVars, v.name = u) (ign : Bool) :
    ∃ g m g' m', n.solveUtility sch evidence query u ign = (.ok g, m) ∧
      n'.solveUtility sch' evidence query u ign = (.ok g', m') ∧
      ∀ w, (∀ v ∈ n.variables, w v.name < v.outcomes.length) →
        ∃ x, g.get (ints (tupleOf g.vars (n.ids w))) = .ok x ∧ g'.get (ints (tupleOf g'.vars (n'.ids w))) = .ok x := by
  have hact : n.active evidence ign = [] := by simp [Net.active, hpol]
  have hact' : n'.active evidence ign = [] := by simp [Net.active, hpol']
  have huv : ∀ v ∈ n.utilityVars, ∃ v' ∈ n'.utilityVars, v'.name = v.name := by
    intro v hv
    simp only [Net.utilityVars, List.mem_filter, decide_eq_true_eq] at hv ⊢
    obtain ⟨x, hx, k1, k2, _⟩ := relisted_var h hv.1
    exact ⟨x, ⟨hx, by rw [k2]; exact hv.2.1, by rw [k1, h.total]; exact hv.2.2⟩, k1⟩
  have hu' : u = "" ∧ n'.utilityVars ≠ [] ∨ ∃ v ∈ n'.utilityVars, v.name = u := by
    rcases hu with ⟨e, hne⟩ | ⟨v, hv, e⟩
    · refine .inl ⟨e, fun h0 => ?_⟩
      obtain ⟨v, hv⟩ := List.exists_mem_of_ne_nil _ hne
      obtain ⟨v', hv', _⟩ := huv v hv
      rw [h0] at hv'
      simp at hv'
    · obtain ⟨v', hv', e'⟩ := huv v hv
      exact .inr ⟨v', hv', by rw [e', e]⟩
  obtain ⟨g, m, a1, _, a3⟩ := C75_solveUtility_exact sch hn (by constructor <;> simp [hpol]) hev hq hu ign
  obtain ⟨g', m', b1, _, b3⟩ := C75_solveUtility_exact sch' hn' (by constructor <;> simp [hpol']) (relisted_evidence h hev)
    (fun q hm => relisted_state h (hq q hm)) hu' ign
  refine ⟨g, m, g', m', a1, b1, fun w hw => ⟨_, a3 w hw, ?_⟩⟩
  rw [b3 w (fun v hv => ?_), hact, hact']
  · congr 1
    rw [← sumWorlds_relisted _ (relisted_hidden h hpol hpol' evidence query) w
      ((stateVars_names hn).sublist (List.filter_sublist.map NVar.name))]
    simp only [relisted_joint h hn hn', relisted_observe h hn hn', relisted_asked h hn hn']
  · obtain ⟨x, hx, k1, _, k3⟩ := relisted_var h.symm hv
    rw [← k1, ← k3]
    exact hw x hx

/-! ### In terms of `New` -/

section perm

variable {vars vars' : List NVar} {tables tables' : List (NFactor α)} (hv : vars.Perm vars') (ht : tables.Perm tables')

include hv in
theorem isUtility_perm (g : String) : IsUtility vars' g ↔ IsUtility vars g := by
  unfold IsUtility
  constructor <;> rintro ⟨u, hu, e⟩
  · exact ⟨u, hv.mem_iff.2 hu, e⟩
  · exact ⟨u, hv.mem_iff.1 hu, e⟩

include ht in
theorem tableFor_perm (hnd : (tables.map NFactor.forVar).Nodup) (v : NVar) : tableFor tables' v = tableFor tables v := by
  have hsome : ∀ {L : List (NFactor α)}, (L.map NFactor.forVar).Nodup → ∀ f, tableFor L v = some f ↔
      f ∈ L ∧ f.forVar = v.name := by
    intro L hL f
    unfold tableFor
    constructor
    · intro h
      exact ⟨List.mem_of_find?_eq_some h, by simpa using List.find?_some h⟩
    · rintro ⟨h1, h2⟩
      cases hg : L.find? (fun f => f.forVar = v.name) with
      | none => exact absurd h2 (by simpa using List.find?_eq_none.1 hg f h1)
      | some g =>
        have g2 := List.find?_some hg
        simp only [decide_eq_true_eq] at g2
        rw [List.inj_on_of_nodup_map hL (List.mem_of_find?_eq_some hg) h1 (by rw [g2, h2])]
  have hnd' : (tables'.map NFactor.forVar).Nodup := (ht.map _).nodup_iff.1 hnd
  apply Option.ext
  intro f
  have h1 := hsome hnd f
  have h2 := hsome hnd' f
  simp only [h1, h2, ht.mem_iff]

include hv ht in
theorem isTotal_perm (hnd : (tables.map NFactor.forVar).Nodup) (v : NVar) :
    IsTotal vars' tables' v ↔ IsTotal vars tables v := by
  unfold IsTotal
  simp only [tableFor_perm ht hnd, isUtility_perm hv]

include hv in
theorem outcomeCount_perm (hnd : (vars.map NVar.name).Nodup) (g : String) :
    outcomeCount vars' g = outcomeCount vars g := by
  have hnd' : (vars'.map NVar.name).Nodup := (hv.map _).nodup_iff.1 hnd
  unfold outcomeCount
  have hsome : ∀ {L : List NVar}, (L.map NVar.name).Nodup → ∀ v, L.find? (fun v => v.name = g) = some v ↔
      v ∈ L ∧ v.name = g := by
    intro L hL v
    constructor
    · intro h
      exact ⟨List.mem_of_find?_eq_some h, by simpa using List.find?_some h⟩
    · rintro ⟨h1, h2⟩
      cases hg : L.find? (fun v => v.name = g) with
      | none => exact absurd h2 (by simpa using List.find?_eq_none.1 hg v h1)
      | some x =>
        have g2 := List.find?_some hg
        simp only [decide_eq_true_eq] at g2
        rw [List.inj_on_of_nodup_map hL (List.mem_of_find?_eq_some hg) h1 (by rw [g2, h2])]
  have : vars'.find? (fun v => v.name = g) = vars.find? (fun v => v.name = g) := by
    apply Option.ext
    intro f
    have h1 := hsome hnd f
    have h2 := hsome hnd' f
    simp only [h1, h2, hv.mem_iff]
  rw [this]

include hv ht in
theorem wellFormed_perm (h : WellFormed vars tables) : WellFormed vars' tables' := by
  have hT := isTotal_perm hv ht h.tables
  have hF := tableFor_perm ht h.tables
  have hU := isUtility_perm hv
  have mv : ∀ v, v ∈ vars' ↔ v ∈ vars := fun v => hv.mem_iff.symm
  have mt : ∀ f, f ∈ tables' ↔ f ∈ tables := fun f => ht.mem_iff.symm
  constructor
  · constructor
    · exact (hv.map _).nodup_iff.1 h.accepted.names
    · simpa only [mv, hF] using h.accepted.parents
    · simpa only [mv, hF, hU] using h.accepted.utility
    · simpa only [mv, hT] using h.accepted.oneTotal
    · simpa only [mv, hT, hF] using h.accepted.weights
  · simpa only [mv] using h.named
  · rw [← hv.length_eq]; exact h.few
  · simpa only [mv] using h.outcomes
  · exact (ht.map _).nodup_iff.1 h.tables
  · simpa only [mv, mt] using h.hasTable
  · simpa only [mv, mt] using h.known
  · simpa only [mt] using h.dims
  · simpa only [mv, mt, hU] using h.parents
  · simpa only [mv, mt, hT, outcomeCount_perm hv h.accepted.names] using h.size
  · simpa only [mv, hT] using h.single
  · simpa only [mv, mt, hT] using h.weights

include hv ht in
theorem built_relisted (h : WellFormed vars tables) {name name' info info' : String} {n n' : Net α}
    (hb : Built name info vars tables n) (hb' : Built name' info' vars' tables' n') : n.Relisted n' := by
  have hT := isTotal_perm hv ht h.tables
  have hk : ∀ (L : List NVar) (M : List (NFactor α)), (L.map (linked M)).map NVar.kindOf = L.map NVar.kindOf := by
    intro L M
    rw [List.map_map]
    apply List.map_congr_left
    intro v _
    simp [NVar.kindOf]
  have hname : ∀ {name info : String} {vs : List NVar} {ts : List (NFactor α)} {m : Net α}, Built name info vs ts m →
      ∀ v ∈ vs, IsTotal vs ts v → m.totalName = v.name ∧ m.totalUtility ≠ none := by
    intro name info vs ts m hm v hvm hTv
    obtain ⟨i, hi⟩ := List.getElem?_of_mem hvm
    have h1 := hm.total i v hi hTv
    refine ⟨?_, by rw [h1]; simp⟩
    unfold Net.totalName
    rw [h1, hm.links]
    simp [hi]
  refine ⟨?_, ?_, ?_, ?_⟩
  · rw [hb.links, hb'.links, hk, hk]
    exact hv.map _
  · rw [hb.tables, hb'.tables]
    exact ht.map _
  · by_cases hex : ∃ v ∈ vars, IsTotal vars tables v
    · obtain ⟨v, hvm, hTv⟩ := hex
      rw [(hname hb v hvm hTv).1, (hname hb' v (hv.mem_iff.1 hvm) ((hT v).2 hTv)).1]
    · have h1 := hb.noTotal (fun v hvm hTv => hex ⟨v, hvm, hTv⟩)
      have h2 := hb'.noTotal (fun v hvm hTv => hex ⟨v, hv.mem_iff.2 hvm, (hT v).1 hTv⟩)
      unfold Net.totalName
      rw [h1, h2]
  · by_cases hex : ∃ v ∈ vars, IsTotal vars tables v
    · obtain ⟨v, hvm, hTv⟩ := hex
      have h1 := (hname hb v hvm hTv).2
      have h2 := (hname hb' v (hv.mem_iff.1 hvm) ((hT v).2 hTv)).2
      exact ⟨fun h => absurd h h2, fun h => absurd h h1⟩
    · have h1 := hb.noTotal (fun v hvm hTv => hex ⟨v, hvm, hTv⟩)
      have h2 := hb'.noTotal (fun v hvm hTv => hex ⟨v, hv.mem_iff.2 hvm, (hT v).1 hTv⟩)
      exact ⟨fun _ => h1, fun _ => h2⟩

end perm

/-- **C89.** The order in which variables and tables are passed to `New` does not matter: the networks are both
accepted and give the same answers to queries and the same utilities. (In the returned utility table the dimensions may
be in another order, therefore utilities are compared in every world.) -/
theorem C89_listing_order [Field α] [CharZero α] [DecidableEq α] (sch sch' : NSched α) (name name' info info' : String)
    {vars vars' : List NVar} {tables tables' : List (NFactor α)} (hptr : ∀ v ∈ vars, v.factor = none)
    (h : WellFormed vars tables) (hv : vars.Perm vars') (ht : tables.Perm tables') :
    ∃ n n', newNet name info vars tables = .ok n ∧ newNet name' info' vars' tables' = .ok n' ∧
      (∀ evidence query ign, n.EvidenceOK evidence → n.QueryOK evidence ign query →
        n.mass [] (n.Agrees evidence) ≠ 0 → ∃ r f m r' f' m', n.solveQuery sch evidence query ign = (.ok (r, f), m) ∧
          n'.solveQuery sch' evidence query ign = (.ok (r', f'), m') ∧ (∀ s, s ∈ r.map Prod.fst ↔ s ∈ query) ∧
          ∀ q d, (q, d) ∈ r' ↔ (q, d) ∈ r) ∧
      ∀ evidence query u ign, n.EvidenceOK evidence → (∀ q ∈ query, ∃ v ∈ n.stateVars, v.name = q) →
        (u = "" ∧ n.utilityVars ≠ [] ∨ ∃ v ∈ n.utilityVars, v.name = u) →
        ∃ g m g' m', n.solveUtility sch evidence query u ign = (.ok g, m) ∧
          n'.solveUtility sch' evidence query u ign = (.ok g', m') ∧
          ∀ w, (∀ v ∈ n.variables, w v.name < v.outcomes.length) →
            ∃ x, g.get (ints (tupleOf g.vars (n.ids w))) = .ok x ∧ g'.get (ints (tupleOf g'.vars (n'.ids w))) = .ok x := by
  obtain ⟨n, h1, hn, _⟩ := C35_new_valid name info hptr h
  have hptr' : ∀ v ∈ vars', v.factor = none := fun v hm => hptr v (hv.mem_iff.2 hm)
  obtain ⟨n', h1', hn', _⟩ := C35_new_valid name' info' hptr' (wellFormed_perm hv ht h)
  have hb := C35_new_result name info vars tables hptr h1
  have hb' := C35_new_result name' info' vars' tables' hptr' h1'
  have hr := built_relisted hv ht h hb hb'
  exact ⟨n, n', h1, h1', fun evidence query ign he hq hp =>
    relisted_query sch sch' hn hn' hr hb.policies hb'.policies he ign hq hp,
    fun evidence query u ign he hq hu => relisted_utility sch sch' hn hn' hr hb.policies hb'.policies he hq hu ign⟩

/-- The hypotheses of **C89** are met by the umbrella network with variables and tables in reverse order. -/
example : ∃ n n', newNet "a" "" Ex.umbVars Ex.umbTables = .ok n ∧
    newNet "b" "" Ex.umbVars.reverse Ex.umbTables.reverse = .ok n' ∧ n.variables ≠ n'.variables ∧
    ∃ r f m r' f' m', n.solveQuery Ex.back [("Forecast", "good"), ("Umbrella", "no")] ["Weather"] false = (.ok (r, f), m) ∧
      n'.solveQuery Ex.back [("Forecast", "good"), ("Umbrella", "no")] ["Weather"] false = (.ok (r', f'), m') ∧
      ∀ q d, (q, d) ∈ r' ↔ (q, d) ∈ r := by
  obtain ⟨n, n', h1, h2, h3, _⟩ := C89_listing_order Ex.back Ex.back "a" "b" "" "" (by decide) Ex.umb_wellFormed
    (List.reverse_perm _).symm (List.reverse_perm _).symm
  have e1 : n = { Ex.umb with name := "a" } := by
    have : newNet "a" "" Ex.umbVars Ex.umbTables = .ok { Ex.umb with name := "a" } := rfl
    rw [this] at h1
    simpa using h1.symm
  have e2 : n'.variables.map NVar.name = Ex.umbVars.reverse.map NVar.name := by
    have := (C35_new_result "b" "" _ _ (by decide) h2).links
    rw [this, linked_names]
  subst e1
  refine ⟨_, n', h1, h2, fun e => ?_, ?_⟩
  · rw [← e] at e2
    revert e2
    decide
  · obtain ⟨r, f, m, r', f', m', k1, k2, _, k4⟩ := h3 [("Forecast", "good"), ("Umbrella", "no")] ["Weather"] false
      ⟨by decide, by decide⟩ ⟨by decide, by decide, fun q hq => by
        rw [List.mem_singleton] at hq
        subst hq
        exact .inl ⟨⟨"Weather", [], some [70, 30], [], 2⟩, by decide, by decide⟩⟩ (by decide +kernel)
    exact ⟨r, f, m, r', f', m', k1, k2, k4⟩

end Bbn
