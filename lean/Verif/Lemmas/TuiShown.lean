import Verif.Lemmas.TuiStart
import Verif.Props.NetUtility

/-!
# The numbers the app shows
-/

set_option autoImplicit false

namespace Bbn

open Finset

variable {α : Type}

/-- Every decision has a stored policy. -/
def Net.AllSolved (n : Net α) : Prop := ∀ v ∈ n.variables, v.nodeType = .decision → n.hasPolicy v.name = true

/-- The posterior distribution of a variable, by enumeration of all worlds. -/
def Net.posterior [Field α] [DecidableEq α] (n : Net α) (evidence : List (String × String)) (ign : Bool) (q : String) :
    List α :=
  (List.range (n.count q)).map (fun k => n.mass (n.active evidence ign) (fun w => n.Agrees evidence w ∧ w q = k) /
    n.mass (n.active evidence ign) (n.Agrees evidence))

/-- The expected utility given the evidence, by enumeration of all worlds: of one utility variable, or (empty name) the
weighted sum of all. -/
def Net.expected [Field α] [DecidableEq α] (n : Net α) (evidence : List (String × String)) (ign : Bool) (u : String) : α :=
  n.total (n.active evidence ign) (fun w => if n.Agrees evidence w then n.asked u w else 0) /
    n.mass (n.active evidence ign) (n.Agrees evidence)

theorem Net.AllSolved.hidden {n : Net α} (hs : n.AllSolved) (hn : n.Valid) (evidence : List (String × String)) :
    ∀ v ∈ n.stateVars, (∀ e ∈ evidence, e.1 ≠ v.name) → v ∈ n.hiddenVars evidence [] := by
  intro v hv hfree
  obtain ⟨h1, h2⟩ := mem_stateVars.1 hv
  simp only [Net.hiddenVars, List.mem_filter, decide_eq_true_eq]
  refine ⟨hv, ?_, hfree, by simp, ?_⟩
  · cases ht : v.nodeType with
    | chance => exact .inl rfl
    | decision => exact .inr (hs v h1 ht)
    | utility => exact absurd ht h2
  · intro f hf hk hpol
    obtain ⟨x, hx, e⟩ := hn.known f hf
    have := hs x hx ((isKind_iff hn hx _).1 (by rw [e]; exact hk))
    rw [e, hpol] at this
    cases this

theorem Net.AllSolved.occurs {n : Net α} (hs : n.AllSolved) (hn : n.Valid) (hp : n.PoliciesOK)
    {evidence : List (String × String)} (ign : Bool) {v : NVar} (hv : v ∈ n.stateVars)
    (hfree : ∀ e ∈ evidence, e.1 ≠ v.name) : n.Occurs (n.active evidence ign) v.name := by
  obtain ⟨h1, h2⟩ := mem_stateVars.1 hv
  cases ht : v.nodeType with
  | chance => exact chance_occurs hn _ h1 ht
  | utility => exact absurd ht h2
  | decision =>
    have := hs v h1 ht
    unfold Net.hasPolicy at this
    obtain ⟨p, hp1⟩ := Option.isSome_iff_exists.1 this
    have hm := mapGet_some hp1
    obtain ⟨i, x, k1, k2, _, w, k3, k4⟩ := hp.decision _ hm
    refine .inr ⟨(v.name, p), ?_, w, k3, by rw [k4, k1]; simpa using k2⟩
    unfold Net.active
    split_ifs
    · exact List.mem_filter.2 ⟨hm, by simpa using hfree⟩
    · exact hm

/-- A query for nothing returns the probability of the evidence, as a single number. -/
theorem query_mass_hidden [Field α] [DecidableEq α] (sch : NSched α) {n : Net α} (hn : n.Valid) (hp : n.PoliciesOK)
    {evidence : List (String × String)} (hev : n.EvidenceOK evidence) (ign : Bool)
    (hs : ∀ v ∈ n.stateVars, (∀ e ∈ evidence, e.1 ≠ v.name) → v ∈ n.hiddenVars evidence []) :
    ∃ g vs', n.solve sch evidence [] false "" ign = (.ok g, { n with vs := some vs', names := n.nameTable }) ∧
      g.data = [n.mass (n.active evidence ign) (n.Agrees evidence)] := by
  obtain ⟨vs, fs, ps, deps, g, vs1, h1, hS, hg, hgv, hgval⟩ := solve_query sch hn hp hev (query := []) (by simp) ign
  refine ⟨g, vs1, h1, ?_⟩
  have hl := sch.ev_perm evidence
  have hperm := active_perm sch 0 n evidence ign
  have hsub : ∀ p ∈ sch.active 0 n evidence ign, p ∈ n.policies := fun p h => active_sub p (hperm.subset h)
  have hHp := hidden_vars hn hS hev hl (query := []) (by simp)
  have hnil : g.vars = [] := by
    rw [List.eq_nil_iff_forall_not_mem]
    intro x hx
    obtain ⟨⟨f, hf, hxf⟩, k2, k3⟩ := (hgv x).1 hx
    have hst := probTables_state hn hS hf hxf
    obtain ⟨v, hv, rfl⟩ := List.mem_map.1 hst
    refine k3 (hHp.symm.subset (List.mem_map_of_mem (f := fun v : NVar => n.varOf v.name) (hs v hv ?_)))
    intro e he h
    exact k2 (n.solverEv e) (List.mem_map_of_mem (hl.symm.subset he)) (by simp [Net.solverEv, h])
  have hlen : g.data.length = 1 := by rw [hg.len, hnil]; rfl
  obtain ⟨x, hx⟩ := List.length_eq_one_iff.1 hlen
  have hval := hgval (n.ids (fun _ => 0)) (by rw [hnil]; intro u hu; simp at hu)
  have hx2 : g.val (n.ids (fun _ => 0)) = x := by
    unfold Factor.val
    rw [hnil, hx]; rfl
  rw [hx, ← hx2, hval]
  congr 1
  have hHn : ((hidden vs.variables deps ((sch.ev evidence).map n.solverEv) (([] : List String).map n.varOf)).map Var.id).Nodup :=
    hS.problem.ids.sublist (List.filter_sublist.map _)
  rw [sumOver_perm hHp hHn]
  unfold Net.mass
  rw [total_observe sch hn hp hev ign (F := fun _ => 1) (G := fun _ => 1) (fun _ _ => rfl)]
  have hh : n.hiddenVars evidence [] = n.stateVars.filter (fun v => ∀ e ∈ evidence, e.1 ≠ v.name) := by
    unfold Net.hiddenVars
    apply List.filter_congr
    intro v hv
    rw [Bool.eq_iff_iff]
    simp only [decide_eq_true_eq]
    constructor
    · rintro ⟨_, h, _⟩; exact h
    · intro h
      have := hs v hv h
      simp only [Net.hiddenVars, List.mem_filter, decide_eq_true_eq] at this
      exact this.2
  rw [← hh]
  symm
  apply sumWorlds_eq hn
  · intro v hv; exact mem_stateVars.1 (List.mem_filter.1 hv).1
  · exact (stateVars_names hn).sublist (List.filter_sublist.map _)
  · intro w' hw1 hw2
    have hw' : n.FitsAll w' := by
      intro v hv
      by_cases hm : v.name ∈ (n.hiddenVars evidence []).map NVar.name
      · obtain ⟨x, hx, hxn⟩ := List.mem_map.1 hm
        have := name_unique hn (mem_stateVars.1 (List.mem_filter.1 hx).1).1 hv hxn
        exact this ▸ hw1 x hx
      · rw [hw2 _ hm]; exact (hn.outcomes v hv).1
    have hob := observe_fits hn hev hw'
    rw [plug_observe hn hev hl, joint_world hn hp hsub hS hob.state, joint_pols hperm, mul_one]

theorem query_mass [Field α] [DecidableEq α] (sch : NSched α) {n : Net α} (hn : n.Valid) (hp : n.PoliciesOK)
    (hs : n.AllSolved) {evidence : List (String × String)} (hev : n.EvidenceOK evidence) (ign : Bool) :
    ∃ g vs', n.solve sch evidence [] false "" ign = (.ok g, { n with vs := some vs', names := n.nameTable }) ∧
      g.data = [n.mass (n.active evidence ign) (n.Agrees evidence)] :=
  query_mass_hidden sch hn hp hev ign (hs.hidden hn evidence)

/-- Without utility variables, asking for the total utility is asking for the probability. -/
theorem solveUtility_none [Field α] [DecidableEq α] (sch : NSched α) {n : Net α} (hn : n.Valid) (hp : n.PoliciesOK)
    {evidence : List (String × String)} (hev : n.EvidenceOK evidence) {query : List String}
    (hq : ∀ q ∈ query, ∃ v ∈ n.stateVars, v.name = q) (hnone : n.utilityVars = []) (ign : Bool) :
    n.solveUtility sch evidence query "" ign = n.solve sch evidence query false "" ign := by
  obtain ⟨vs, fs, ps, deps, h1, hS⟩ := toVE_spec sch 0 hn hp (if ign then evidence else [])
  have hl := sch.ev_perm evidence
  have hno : utilities vs.variables = [] := by
    rw [utilities_vars hn hS, List.map_eq_nil_iff]
    have := (utilityNames_perm (n := n) hn)
    rw [hnone] at this
    exact this.eq_nil
  unfold Net.solveUtility Net.solve Net.enter
  rw [h1]
  dsimp only
  unfold solveNamed
  rw [mapM_evidence hn (ev_known hev hl), ok_bind, mapM_query hn hq, ok_bind]
  simp only [if_true, Bool.false_eq_true, if_false]
  rw [show utilityOf n.nameTable "" = .ok none from rfl, ok_bind]
  simp only [ok_bind]
  have key : (VE.new vs (fs ++ ps) deps n.solverWeights).solveUtility (sch.ve 0) ((sch.ev evidence).map n.solverEv)
      (query.map n.varOf) none = (VE.new vs (fs ++ ps) deps n.solverWeights).solveQuery (sch.ve 0)
      ((sch.ev evidence).map n.solverEv) (query.map n.varOf) := by
    obtain ⟨h0, hg, hR⟩ := new_good hS.problem n.solverWeights
    obtain ⟨m, fs1, rs, a1, _⟩ := eliminateEvidence_spec hR.ids (sch.ve 0) ((sch.ev evidence).map n.solverEv)
      (VE.new vs (fs ++ ps) deps n.solverWeights) (fun e he => by
        obtain ⟨b1, b2, b3⟩ := ev_ok hn hev hl hS.vars e he
        rw [h0] at *
        exact ⟨b1, b3⟩) (by rw [h0]; exact hg)
    rw [h0] at a1
    unfold VE.solveUtility VE.solveQuery VE.solve
    rw [h0, a1, ok_bind, ok_bind]
    simp only [if_true, Bool.false_eq_true, if_false]
    congr 1
    have e : vs.variables.filter (fun u => decide (u.nodeType = .utility)) = [] := hno
    have e2 : vs.variables.filter (fun u => decide (u.nodeType = .utility ∧ notExcept none u = true)) = [] := by
      rw [List.filter_eq_nil_iff] at e ⊢
      intro a ha
      have := e a ha
      simp only [decide_eq_true_eq] at this ⊢
      exact fun h => this h.1
    unfold VE.sumUtilities VE.removeUtilities
    dsimp only
    rw [e, e2]
    rfl
  rw [key]

/-- Calls on a network that differs only in the kept solver. -/
theorem solve_from [Zero α] [One α] [Add α] [Mul α] [Div α] [DecidableEq α] {sch : NSched α} {n m n' : Net α}
    (hc : n.SameCore m) {evidence : List (String × String)} {query : List String} {utility : Bool} {u : String} {ign : Bool}
    {f : Factor α} (h : n.solve sch evidence query utility u ign = (.ok f, n')) :
    m.solve sch evidence query utility u ign = (.ok f, n') := by
  obtain ⟨a, b, rfl⟩ := hc
  obtain ⟨_, h2⟩ := solve_reset n a b sch evidence query utility u ign
  rcases h2 with ⟨e, he⟩ | h2
  · rw [h] at he; cases he
  · rw [← h]; exact h2

theorem query_from [Zero α] [One α] [Add α] [Mul α] [Div α] [DecidableEq α] {sch : NSched α} {n m n' : Net α}
    (hc : n.SameCore m) {evidence : List (String × String)} {query : List String} {ign : Bool}
    {r : List (String × List α) × Factor α} (h : n.solveQuery sch evidence query ign = (.ok r, n')) :
    m.solveQuery sch evidence query ign = (.ok r, n') := by
  unfold Net.solveQuery at h ⊢
  rcases hs : n.solve sch evidence query false "" ign with ⟨e | f, k⟩
  · rw [hs] at h; cases h
  · rw [solve_from hc hs]
    rw [hs] at h
    exact h

/-- The names kept from the last call know the outcomes. -/
def Net.NamesFit (n : Net α) : Prop :=
  ∀ v ∈ n.variables, v.name ≠ n.totalName → ∃ x, mapGet n.names v.name = some x ∧ x.1.outcomes = v.outcomes

theorem namesFit_table {n : Net α} (hn : n.Valid) (h : n.names = n.nameTable) : n.NamesFit :=
  fun v hv ht => ⟨_, by rw [h]; exact get_state hn hv ht, rfl⟩

theorem toEvidence_one [Field α] {n : Net α} (hn : n.Valid) (hnames : n.NamesFit) {v : NVar}
    (hv : v ∈ n.variables) (ht : v.nodeType ≠ .utility) {o : String} (ho : o ∈ v.outcomes) :
    n.toEvidence v.name o = .ok ((List.range (n.count v.name)).map (fun k => if k = v.outcomes.idxOf o then (1 : α) else 0)) := by
  have hlt : v.outcomes.idxOf o < v.outcomes.length := List.idxOf_lt_length_iff.2 ho
  unfold Net.toEvidence
  obtain ⟨x, hx, hxo⟩ := hnames v hv (state_notTotal hn hv ht)
  rw [hx]
  dsimp only
  rw [hxo, slicesIndex_idxOf ho]
  simp only [goSet, List.length_replicate, hlt, if_true, count_eq hn hv]
  congr 1
  apply List.ext_getElem?
  intro k
  rw [List.getElem?_set]
  by_cases he : v.outcomes.idxOf o = k
  · subst he; simp [hlt]
  · rw [if_neg he]
    by_cases hk : k < v.outcomes.length
    · simp [hk, Ne.symm he]
    · simp [hk]

theorem sumWorlds_zero [AddCommMonoid α] : ∀ (l : List NVar) (w : World), sumWorlds l (fun _ => (0 : α)) w = 0 := by
  intro l
  induction l with
  | nil => intro w; rfl
  | cons v l ih =>
    intro w
    simp only [sumWorlds, ih, Finset.sum_const_zero]

/-- An observed variable has its outcome for certain. -/
theorem posterior_observed [Field α] [DecidableEq α] {n : Net α} {evidence : List (String × String)}
    {ign : Bool} (possible : n.mass (n.active evidence ign) (n.Agrees evidence) ≠ 0) {v : NVar} (hv : v ∈ n.variables)
    {o : String} (he : (v.name, o) ∈ evidence) :
    n.posterior evidence ign v.name =
      (List.range (n.count v.name)).map (fun k => if k = v.outcomes.idxOf o then (1 : α) else 0) := by
  unfold Net.posterior
  apply List.map_congr_left
  intro k _
  have key : ∀ w, (n.Agrees evidence w ∧ w v.name = k) ↔ (n.Agrees evidence w ∧ k = v.outcomes.idxOf o) := by
    intro w
    constructor
    · rintro ⟨h1, h2⟩; exact ⟨h1, by rw [← h2]; exact h1 _ he v hv rfl⟩
    · rintro ⟨h1, h2⟩; exact ⟨h1, by rw [h2]; exact h1 _ he v hv rfl⟩
  split_ifs with h
  · have : n.mass (n.active evidence ign) (fun w => n.Agrees evidence w ∧ w v.name = k) =
        n.mass (n.active evidence ign) (n.Agrees evidence) := by
      unfold Net.mass
      congr 1
      funext w
      have : (n.Agrees evidence w ∧ w v.name = k) ↔ n.Agrees evidence w := by rw [key]; simp [h]
      simp only [this]
    rw [this, div_self possible]
  · have : n.mass (n.active evidence ign) (fun w => n.Agrees evidence w ∧ w v.name = k) = 0 := by
      unfold Net.mass Net.total
      have : (fun w => n.joint (n.active evidence ign) w *
          (if n.Agrees evidence w ∧ w v.name = k then (1 : α) else 0)) = fun _ => 0 := by
        funext w
        have : ¬ (n.Agrees evidence w ∧ w v.name = k) := by rw [key]; simp [h]
        rw [if_neg this, mul_zero]
      rw [this]
      exact sumWorlds_zero _ _
    rw [this, zero_div]

theorem query_shown [Field α] [CharZero α] [DecidableEq α] (sch : NSched α) {n : Net α} (hn : n.Valid) (hp : n.PoliciesOK)
    (hs : n.AllSolved) {evidence : List (String × String)} (hev : n.EvidenceOK evidence) (ign : Bool)
    (possible : n.mass (n.active evidence ign) (n.Agrees evidence) ≠ 0) {v : NVar} (hv : v ∈ n.stateVars)
    (hfree : ∀ e ∈ evidence, e.1 ≠ v.name) :
    ∃ r f vs', n.solveQuery sch evidence [v.name] ign =
        (.ok (r, f), { n with vs := some vs', names := n.nameTable }) ∧ mapGet r v.name = some (n.posterior evidence ign v.name) := by
  have hq : n.QueryOK evidence ign [v.name] := ⟨by simpa using ⟨v, hv, rfl⟩, by simpa using hfree,
    by simpa using hs.occurs hn hp ign hv hfree⟩
  obtain ⟨r, f, vs', h1, h2, h3, _⟩ := solveQuery_data sch hn hp hev ign hq
  obtain ⟨r', f', n', k1, k2, k3, k4⟩ := C31_solveQuery_posterior sch hn hp hev ign hq possible
  rw [h1] at k1
  obtain ⟨⟨rfl, rfl⟩, rfl⟩ : (r = r' ∧ f = f') ∧ _ = n' := by simpa using k1
  obtain ⟨d, d1, d2, d3⟩ := k4 v.name (by simp)
  refine ⟨r, f, vs', h1, ?_⟩
  rw [(mapGet_mem h2).2 d1]
  congr 1
  apply List.ext_getElem?
  intro k
  unfold Net.posterior
  by_cases hk : k < n.count v.name
  · rw [d3 k hk]; simp [hk]
  · rw [List.getElem?_eq_none (by omega), List.getElem?_eq_none (by simpa using hk)]

theorem solveEvidence_spec [Field α] [DecidableEq α] {n : Net α} (hn : n.Valid) (hnames : n.NamesFit)
    {evidence : List (String × String)} {ign : Bool} (hev : n.EvidenceOK evidence)
    (possible : n.mass (n.active evidence ign) (n.Agrees evidence) ≠ 0) :
    ∀ (l : List (String × String)) (r : Shown α), (∀ e ∈ l, e ∈ evidence) →
    ∃ r', solveEvidence n l r = .ok r' ∧ ∀ s, mapGet r' s =
      if s ∈ l.map Prod.fst then some ((n.posterior evidence ign s).map some) else mapGet r s := by
  intro l
  induction l with
  | nil => intro r _; exact ⟨r, rfl, by simp⟩
  | cons e l ih =>
    intro r hl
    have he := hl e List.mem_cons_self
    obtain ⟨v, hv, e1, e2, e3⟩ := hev.known e he
    have e4 : n.toEvidence (α := α) e.1 e.2 = .ok (n.posterior evidence ign e.1) := by
      rw [← e1, posterior_observed possible hv (o := e.2) (by rw [e1]; exact he)]
      exact toEvidence_one hn hnames hv e2 e3
    obtain ⟨r', k1, k2⟩ := ih (mapSet r e.1 ((n.posterior evidence ign e.1).map some)) (fun x hx => hl x (List.mem_cons_of_mem _ hx))
    refine ⟨r', ?_, ?_⟩
    · unfold solveEvidence at k1 ⊢
      rw [List.foldlM_cons]
      rw [e4, ok_bind]
      exact k1
    · intro s
      rw [k2, mapGet_mapSet]
      by_cases hs : s ∈ l.map Prod.fst
      · rw [if_pos hs, if_pos (by rw [List.map_cons]; exact List.mem_cons_of_mem _ hs)]
      · rw [if_neg hs]
        by_cases h : s = e.1
        · subst h; simp
        · rw [if_neg h, if_neg (by rw [List.map_cons, List.mem_cons, not_or]; exact ⟨h, hs⟩)]

theorem solveQueryLoop_spec [Field α] [CharZero α] [DecidableEq α] (sch : Nat → NSched α) {n : Net α} (hn : n.Valid)
    (hp : n.PoliciesOK) (hs : n.AllSolved) {evidence : List (String × String)} (hev : n.EvidenceOK evidence) (ign : Bool)
    (possible : n.mass (n.active evidence ign) (n.Agrees evidence) ≠ 0) :
    ∀ (l : List String) (k : Nat) (m : Net α) (r : Shown α), n.SameCore m → m.names = n.nameTable →
    (∀ q ∈ l, ∃ v ∈ n.stateVars, v.name = q ∧ ∀ e ∈ evidence, e.1 ≠ v.name) →
    ∃ r' m', solveQueryLoop sch evidence ign k l m r = (.ok (r', k + l.length), m') ∧ n.SameCore m' ∧ m'.names = n.nameTable ∧
      ∀ s, mapGet r' s = if s ∈ l then some ((n.posterior evidence ign s).map some) else mapGet r s := by
  intro l
  induction l with
  | nil => intro k m r hc hm _; exact ⟨r, m, rfl, hc, hm, by simp⟩
  | cons q l ih =>
    intro k m r hc hm hl
    obtain ⟨v, hv, rfl, hfree⟩ := hl q List.mem_cons_self
    obtain ⟨r1, f, vs', h1, h2⟩ := query_shown (sch k) hn hp hs hev ign possible hv hfree
    obtain ⟨r', m', k1, k2, k3, k4⟩ := ih (k + 1) { n with vs := some vs', names := n.nameTable }
      (mapSet r v.name ((n.posterior evidence ign v.name).map some)) ⟨_, _, rfl⟩ rfl (fun x hx => hl x (List.mem_cons_of_mem _ hx))
    refine ⟨r', m', ?_, k2, k3, ?_⟩
    · rw [solveQueryLoop, query_from hc h1]
      dsimp only
      rw [h2]
      dsimp only
      rw [k1, List.length_cons]
      congr 3
      omega
    · intro s
      rw [k4, mapGet_mapSet]
      by_cases hs : s ∈ l
      · rw [if_pos hs, if_pos (List.mem_cons_of_mem _ hs)]
      · rw [if_neg hs]
        by_cases h : s = v.name
        · subst h; simp
        · rw [if_neg h, if_neg (by rw [List.mem_cons, not_or]; exact ⟨h, hs⟩)]

/-- The total weight of utility and agreeing worlds. -/
theorem utility_shown [Field α] [DecidableEq α] (sch : NSched α) {n : Net α} (hn : n.Valid) (hp : n.PoliciesOK)
    (hs : n.AllSolved) {evidence : List (String × String)} (hev : n.EvidenceOK evidence) (ign : Bool)
    {u : String} (hu : u = "" ∧ n.utilityVars ≠ [] ∨ ∃ v ∈ n.utilityVars, v.name = u) :
    ∃ g vs', n.solveUtility sch evidence [] u ign = (.ok g, { n with vs := some vs', names := n.nameTable }) ∧
      onlyEntry g = some (n.total (n.active evidence ign) (fun w => if n.Agrees evidence w then n.asked u w else 0)) := by
  obtain ⟨g, n', h1, h2⟩ := C75_expected_utility sch hn hp hev hu ign (hs.hidden hn evidence)
  obtain ⟨g', vs', k1, _⟩ := solve_utility sch hn hp hev (query := []) (by simp) hu ign
  rw [h1] at k1
  obtain ⟨rfl, rfl⟩ : g = g' ∧ n' = _ := by simpa using k1
  exact ⟨g, vs', h1, by simp [onlyEntry, h2]⟩

theorem solveUtilityLoop_spec [Field α] [DecidableEq α] (sch : Nat → NSched α) {n : Net α} (hn : n.Valid)
    (hp : n.PoliciesOK) (hs : n.AllSolved) {evidence : List (String × String)} (hev : n.EvidenceOK evidence) (ign : Bool)
    (possible : n.mass (n.active evidence ign) (n.Agrees evidence) ≠ 0) (t : Option α) :
    ∀ (l : List String) (k : Nat) (m : Net α) (r : Shown α), n.SameCore m → m.names = n.nameTable →
    (∀ u ∈ l, ∃ v ∈ n.utilityVars, v.name = u) →
    ∃ r' m', solveUtilityLoop sch evidence ign (some (n.mass (n.active evidence ign) (n.Agrees evidence))) t k l m r =
        (.ok r', m') ∧ n.SameCore m' ∧ m'.names = n.nameTable ∧
      ∀ s, mapGet r' s = if s ∈ l then some [some (n.expected evidence ign s), t] else mapGet r s := by
  intro l
  induction l with
  | nil => intro k m r hc hm _; exact ⟨r, m, rfl, hc, hm, by simp⟩
  | cons u l ih =>
    intro k m r hc hm hl
    obtain ⟨g, vs', h1, h2⟩ := utility_shown (sch k) hn hp hs hev ign (.inr (hl u List.mem_cons_self))
    have e : nanDiv (onlyEntry g) (some (n.mass (n.active evidence ign) (n.Agrees evidence))) =
        some (n.expected evidence ign u) := by
      rw [h2]
      simp [nanDiv, possible, Net.expected]
    obtain ⟨r', m', k1, k2, k3, k4⟩ := ih (k + 1) { n with vs := some vs', names := n.nameTable }
      (mapSet r u [some (n.expected evidence ign u), t]) ⟨_, _, rfl⟩ rfl (fun x hx => hl x (List.mem_cons_of_mem _ hx))
    refine ⟨r', m', ?_, k2, k3, ?_⟩
    · rw [solveUtilityLoop]
      have : m.solveUtility (sch k) evidence [] u ign = _ := solve_from hc h1
      rw [this]
      dsimp only
      rw [e]
      exact k1
    · intro s
      rw [k4, mapGet_mapSet]
      by_cases hs : s ∈ l
      · rw [if_pos hs, if_pos (List.mem_cons_of_mem _ hs)]
      · rw [if_neg hs]
        by_cases h : s = u
        · subst h; simp
        · rw [if_neg h, if_neg (by rw [List.mem_cons, not_or]; exact ⟨h, hs⟩)]

/-- The app's nodes are those of the network: names and kinds in order, and the table of the total-utility node. -/
structure NodesOf (n : Net α) (nodes : List (TNode α)) : Prop where
  vars : nodes.map (fun m => (m.var.name, m.var.nodeType)) = n.variables.map (fun v => (v.name, v.nodeType))
  total : ∀ i, n.totalUtility = some i → ∀ m, nodes[i]? = some m → ∃ f ∈ n.factors, f.forVar = n.totalName ∧ m.factor = some f

theorem NodesOf.get {n : Net α} {nodes : List (TNode α)} (h : NodesOf n nodes) (i : Nat) :
    (nodes[i]?).map (fun m => (m.var.name, m.var.nodeType)) = (n.variables[i]?).map (fun v => (v.name, v.nodeType)) := by
  rw [← List.getElem?_map, ← List.getElem?_map, h.vars]

theorem NodesOf.node {n : Net α} {nodes : List (TNode α)} (h : NodesOf n nodes) {i : Nat} {v : NVar}
    (hv : n.variables[i]? = some v) : ∃ m, nodes[i]? = some m ∧ m.var.name = v.name ∧ m.var.nodeType = v.nodeType := by
  have := h.get i
  rw [hv] at this
  simpa using this

theorem NodesOf.var {n : Net α} {nodes : List (TNode α)} (h : NodesOf n nodes) {i : Nat} {m : TNode α}
    (hm : nodes[i]? = some m) : ∃ v, n.variables[i]? = some v ∧ v.name = m.var.name ∧ v.nodeType = m.var.nodeType := by
  have := h.get i
  rw [hm] at this
  simpa using this.symm

theorem NodesOf.queries {n : Net α} {nodes : List (TNode α)} (h : NodesOf n nodes) (evidence : List (String × String))
    (s : String) : s ∈ tuiQueries nodes evidence ↔ (∃ v ∈ n.stateVars, v.name = s) ∧ ∀ e ∈ evidence, e.1 ≠ s := by
  have hk : mapGet evidence s = none ↔ ∀ e ∈ evidence, e.1 ≠ s := by
    rw [mapGet_none, List.mem_map]
    exact ⟨fun h e he e1 => h ⟨e, he, e1⟩, fun h ⟨e, he, e1⟩ => h e he e1⟩
  simp only [tuiQueries, List.mem_map, List.mem_filter, decide_eq_true_eq]
  constructor
  · rintro ⟨m, ⟨hm, h1, h2⟩, rfl⟩
    obtain ⟨i, hi⟩ := List.getElem?_of_mem hm
    obtain ⟨v, k1, k2, k3⟩ := h.var hi
    exact ⟨⟨v, mem_stateVars.2 ⟨List.mem_of_getElem? k1, by rw [k3]; exact h1⟩, k2⟩, hk.1 h2⟩
  · rintro ⟨⟨v, hv, rfl⟩, h2⟩
    obtain ⟨hv1, hv2⟩ := mem_stateVars.1 hv
    obtain ⟨i, hi⟩ := List.getElem?_of_mem hv1
    obtain ⟨m, k1, k2, k3⟩ := h.node hi
    exact ⟨m, ⟨List.mem_of_getElem? k1, by rw [k3]; exact hv2, by rw [k2]; exact hk.2 h2⟩, k2⟩

theorem NodesOf.utilities {n : Net α} (hn : n.Valid) {nodes : List (TNode α)} (h : NodesOf n nodes)
    (s : String) : s ∈ (splitUtilities n.totalUtility nodes).1 ↔ ∃ v ∈ n.utilityVars, v.name = s := by
  simp only [splitUtilities, List.mem_map, List.mem_filter, decide_eq_true_eq, Net.utilityVars]
  constructor
  · rintro ⟨⟨m, i⟩, ⟨hm, h1, h2⟩, rfl⟩
    have hi : nodes[i]? = some m := by
      rw [List.mem_zipIdx_iff_getElem?] at hm; exact hm
    obtain ⟨v, k1, k2, k3⟩ := h.var hi
    exact ⟨v, ⟨List.mem_of_getElem? k1, by rw [k3]; exact h2, fun e => h1 ((totalName_iff hn k1).1 e).symm⟩, k2⟩
  · rintro ⟨v, ⟨hv1, hv2, hv3⟩, rfl⟩
    obtain ⟨i, hi⟩ := List.getElem?_of_mem hv1
    obtain ⟨m, k1, k2, k3⟩ := h.node hi
    refine ⟨(m, i), ⟨?_, fun e => hv3 ((totalName_iff hn hi).2 e.symm), by rw [k3]; exact hv2⟩, k2⟩
    rw [List.mem_zipIdx_iff_getElem?]; exact k1

theorem weight_total [Zero α] [One α] {n : Net α} (hn : n.Valid) {i : Nat} (hi : n.totalUtility = some i) {f : NFactor α}
    (hf : f ∈ n.factors) (hft : f.forVar = n.totalName) (s : String) : n.weight s = f.tab.getD (f.given.idxOf s) 0 := by
  unfold Net.weight
  rw [hi]
  have : n.factors.find? (fun g => g.forVar = n.totalName) = some f := by
    cases hfd : n.factors.find? (fun g => g.forVar = n.totalName) with
    | none =>
      rw [List.find?_eq_none] at hfd
      have := hfd f hf
      simp [hft] at this
    | some x =>
      have e : x.forVar = n.totalName := by simpa using List.find?_some hfd
      rw [List.inj_on_of_nodup_map hn.tables (List.mem_of_find?_eq_some hfd) hf (by rw [e, hft])]
  rw [this]; rfl

/-- The total-utility node, if there is one, has parents, and these are utility variables, as many as the node has
outcomes. (`New` checks this: `new_totalOK`.) -/
def Net.TotalOK (n : Net α) : Prop := ∀ i, n.totalUtility = some i → ∀ f ∈ n.factors, f.forVar = n.totalName →
  f.given ≠ [] ∧ f.given.length = n.count n.totalName ∧ ∀ g ∈ f.given, ∃ u ∈ n.utilityVars, u.name = g

theorem totalNumbers_spec [Field α] [DecidableEq α] {n : Net α} (hn : n.Valid) (htot : n.TotalOK)
    {i : Nat} (hi : n.totalUtility = some i) {f : NFactor α}
    (hf : f ∈ n.factors) (hft : f.forVar = n.totalName) {m : TNode α} (hm : m.factor = some f) (E : String → α) (t : Option α)
    {r : Shown α} (hr : ∀ u ∈ n.utilityVars, ∃ rest, mapGet r u.name = some (some (E u.name) :: rest)) :
    totalNumbers m t r = .ok (mapSet r m.var.name (f.given.map (fun g => some (n.weight g * E g)) ++ [t])) := by
  have hnd : f.given.Nodup := (List.nodup_append.1 (hn.dims f hf)).1
  obtain ⟨v, j, f', w1, w2, w3, w4, w5, w6, w7⟩ := hn.weights i hi
  have hff : f' = f := List.inj_on_of_nodup_map hn.tables (List.mem_of_getElem? w4) hf (by
    rw [w5, hft, Net.totalName_eq hi w1])
  subst hff
  have key : ∀ p ∈ f'.given.zipIdx, (do
      let x ← goGet ((mapGet r p.1).getD []) 0
      let w ← goGet f'.tab p.2
      return nanMul x w : Except Fault (Option α)) = .ok (some (n.weight p.1 * E p.1)) := by
    rintro ⟨g, k⟩ hp
    have hg : f'.given[k]? = some g := by rw [List.mem_zipIdx_iff_getElem?] at hp; exact hp
    obtain ⟨u, hu, rfl⟩ := (htot i hi f' hf hft).2.2 g (List.mem_of_getElem? hg)
    obtain ⟨rest, hrest⟩ := hr u hu
    have hk := (List.getElem?_eq_some_iff.1 hg)
    have hidx : f'.given.idxOf u.name = k := by
      rw [← hk.2]; exact hnd.idxOf_getElem k hk.1
    have hkt : k < f'.tab.length := by have := hk.1; omega
    dsimp only
    rw [hrest, weight_total hn hi hf hft, hidx]
    have : goGet f'.tab k = .ok (f'.tab.getD k 0) := by
      rw [goGet_eq, List.getD_eq_getElem?_getD, List.getElem?_eq_getElem hkt]; rfl
    rw [show goGet ((some (some (E u.name) :: rest)).getD []) 0 = .ok (some (E u.name)) from rfl, ok_bind, this, ok_bind]
    simp [nanMul, mul_comm]
    rfl
  unfold totalNumbers TNode.deref
  rw [hm]
  dsimp only
  rw [ok_bind, mapM_ok key, ok_bind]
  congr 3
  have : f'.given.map (fun g => some (n.weight g * E g)) =
      (f'.given.zipIdx.map Prod.fst).map (fun g => some (n.weight g * E g)) := by
    rw [List.zipIdx_map_fst]
  rw [this, List.map_map]
  rfl

/-- What `Solve` returns. -/
theorem tuiSolve_spec [Field α] [CharZero α] [DecidableEq α] (sch : Nat → NSched α) {n : Net α} (hn : n.Valid)
    (hp : n.PoliciesOK) (hs : n.AllSolved) (hnames : n.NamesFit) (htot : n.TotalOK)
    {evidence : List (String × String)} (hev : n.EvidenceOK evidence) (ign : Bool)
    (possible : n.mass (n.active evidence ign) (n.Agrees evidence) ≠ 0) {nodes : List (TNode α)} (hnodes : NodesOf n nodes) :
    ∃ r n', tuiSolve sch n evidence nodes ign = (.ok r, n') ∧ n.SameCore n' ∧ n'.names = n.nameTable ∧
      (∀ v ∈ n.stateVars, mapGet r v.name = some ((n.posterior evidence ign v.name).map some)) ∧
      (∀ u ∈ n.utilityVars, mapGet r u.name = some [some (n.expected evidence ign u.name), some (n.expected evidence ign "")]) ∧
      (∀ i, n.totalUtility = some i → ∀ f ∈ n.factors, f.forVar = n.totalName → mapGet r n.totalName =
        some (f.given.map (fun g => some (n.weight g * n.expected evidence ign g)) ++ [some (n.expected evidence ign "")])) ∧
      ∀ s, mapGet r s ≠ none → ∃ v ∈ n.variables, v.name = s := by
  have hl := (sch 0).ev_perm evidence
  obtain ⟨r1, a1, a2⟩ := solveEvidence_spec hn hnames hev possible ((sch 0).ev evidence) [] (fun e he => hl.subset he)
  obtain ⟨g, vs1, b1, b2⟩ := query_mass (sch 0) hn hp hs hev ign
  have b1' : n.solveQuery (sch 0) evidence [] ign = (.ok ([], g), { n with vs := some vs1, names := n.nameTable }) := by
    unfold Net.solveQuery
    rw [b1]
    rfl
  have hq : ∀ q ∈ tuiQueries nodes evidence, ∃ v ∈ n.stateVars, v.name = q ∧ ∀ e ∈ evidence, e.1 ≠ v.name := by
    intro q hq
    obtain ⟨⟨v, hv, rfl⟩, h⟩ := (hnodes.queries evidence q).1 hq
    exact ⟨v, hv, rfl, h⟩
  obtain ⟨r2, m2, c1, c2, c3, c4⟩ := solveQueryLoop_spec sch hn hp hs hev ign possible (tuiQueries nodes evidence) 1
    { n with vs := some vs1, names := n.nameTable } r1 ⟨_, _, rfl⟩ rfl hq
  have hstate : ∀ v ∈ n.stateVars, mapGet r2 v.name = some ((n.posterior evidence ign v.name).map some) := by
    intro v hv
    rw [c4]
    split_ifs with h
    · rfl
    · rw [a2, if_pos]
      by_contra hno
      refine h ((hnodes.queries evidence v.name).2 ⟨⟨v, hv, rfl⟩, fun e he h => hno ?_⟩)
      rw [← h]
      exact List.mem_map_of_mem (hl.symm.subset he)
  have hkeys2 : ∀ s, mapGet r2 s ≠ none → ∃ v ∈ n.stateVars, v.name = s := by
    intro s h
    rw [c4] at h
    split_ifs at h with h1
    · obtain ⟨v, hv, h, _⟩ := hq s h1
      exact ⟨v, hv, h⟩
    · rw [a2] at h
      split_ifs at h with h2
      · obtain ⟨e, he, rfl⟩ := List.mem_map.1 h2
        obtain ⟨v, hv, k1, k2, _⟩ := hev.known e (hl.subset he)
        exact ⟨v, mem_stateVars.2 ⟨hv, k2⟩, k1⟩
      · exact absurd rfl h
  have hm2t : m2.totalUtility = n.totalUtility := by obtain ⟨_, _, rfl⟩ := c2; rfl
  set U := (splitUtilities n.totalUtility nodes).1 with hU
  have hUmem : ∀ s, s ∈ U ↔ ∃ v ∈ n.utilityVars, v.name = s := hnodes.utilities hn
  -- the call for the total utility
  obtain ⟨f, vs3, d1, d2⟩ : ∃ f vs3, m2.solveUtility (sch (1 + (tuiQueries nodes evidence).length)) evidence [] "" ign =
      (.ok f, { n with vs := some vs3, names := n.nameTable }) ∧
      (n.utilityVars ≠ [] → onlyEntry f =
        some (n.total (n.active evidence ign) (fun w => if n.Agrees evidence w then n.asked "" w else 0))) := by
    by_cases hne : n.utilityVars = []
    · obtain ⟨g', vs', k1, _⟩ := query_mass (sch (1 + (tuiQueries nodes evidence).length)) hn hp hs hev ign
      rw [← solveUtility_none _ hn hp hev (by simp) hne] at k1
      exact ⟨g', vs', solve_from c2 k1, fun h => absurd hne h⟩
    · obtain ⟨g', vs', k1, k2⟩ := utility_shown (sch (1 + (tuiQueries nodes evidence).length)) hn hp hs hev ign
        (.inl ⟨rfl, hne⟩)
      exact ⟨g', vs', solve_from c2 k1, fun _ => k2⟩
  set T := nanDiv (onlyEntry f) (some (n.mass (n.active evidence ign) (n.Agrees evidence))) with hT
  have hT' : n.utilityVars ≠ [] → T = some (n.expected evidence ign "") := by
    intro hne
    rw [hT, d2 hne]
    simp [nanDiv, possible, Net.expected]
  obtain ⟨r3, m3, e1, e2, e3, e4⟩ := solveUtilityLoop_spec sch hn hp hs hev ign possible T U
    (1 + (tuiQueries nodes evidence).length + 1) { n with vs := some vs3, names := n.nameTable } r2 ⟨_, _, rfl⟩ rfl
    (fun u hu => (hUmem u).1 hu)
  have hstate3 : ∀ v ∈ n.stateVars, mapGet r3 v.name = some ((n.posterior evidence ign v.name).map some) := by
    intro v hv
    rw [e4, if_neg, hstate v hv]
    intro h
    obtain ⟨u, hu, e⟩ := (hUmem _).1 h
    obtain ⟨hv1, hv2⟩ := mem_stateVars.1 hv
    simp only [Net.utilityVars, List.mem_filter, decide_eq_true_eq] at hu
    exact hv2 (name_unique hn hu.1 hv1 e ▸ hu.2.1)
  have hutil3 : ∀ u ∈ n.utilityVars, mapGet r3 u.name =
      some [some (n.expected evidence ign u.name), some (n.expected evidence ign "")] := by
    intro u hu
    rw [e4, if_pos ((hUmem _).2 ⟨u, hu, rfl⟩), hT' (List.ne_nil_of_mem hu)]
  have hkeys3 : ∀ s, mapGet r3 s ≠ none → ∃ v ∈ n.variables, v.name = s := by
    intro s h
    rw [e4] at h
    split_ifs at h with h1
    · obtain ⟨u, hu, e⟩ := (hUmem _).1 h1
      exact ⟨u, (List.mem_filter.1 hu).1, e⟩
    · obtain ⟨v, hv, e⟩ := hkeys2 s h
      exact ⟨v, (mem_stateVars.1 hv).1, e⟩
  have hrun : tuiSolve sch n evidence nodes ign =
      match n.totalUtility.bind (fun i => nodes[i]?) with
      | none => (.ok r3, m3)
      | some node => (totalNumbers node T r3, m3) := by
    unfold tuiSolve
    rw [a1]
    dsimp only
    rw [b1']
    dsimp only
    rw [c1]
    dsimp only
    rw [d1]
    dsimp only
    rw [show onlyEntry g = some (n.mass (n.active evidence ign) (n.Agrees evidence)) by simp [onlyEntry, b2], ← hT, hm2t,
      ← hU, e1]
    rfl
  cases ht : n.totalUtility with
  | none =>
    rw [ht] at hrun
    exact ⟨r3, m3, hrun, e2, e3, hstate3, hutil3, (fun i hi => by cases hi), hkeys3⟩
  | some i =>
    obtain ⟨v, j, f', w1, w2, w3, w4, w5, w6, w7⟩ := hn.weights i ht
    obtain ⟨m, k1, k2, k3⟩ := hnodes.node w1
    obtain ⟨f0, hf0, hft0, hmf⟩ := hnodes.total i ht m k1
    have hne : n.utilityVars ≠ [] := by
      obtain ⟨h1, _, h2⟩ := htot i ht f0 hf0 hft0
      obtain ⟨x, hx⟩ := List.exists_mem_of_ne_nil _ h1
      obtain ⟨u, hu, _⟩ := h2 x hx
      exact List.ne_nil_of_mem hu
    rw [ht] at hrun
    dsimp only [Option.bind] at hrun
    rw [k1] at hrun
    dsimp only at hrun
    rw [totalNumbers_spec hn htot ht hf0 hft0 hmf (n.expected evidence ign) T (fun u hu => ⟨_, hutil3 u hu⟩), hT' hne] at hrun
    have hname : m.var.name = n.totalName := by rw [k2, Net.totalName_eq ht w1]
    rw [hname] at hrun
    refine ⟨_, m3, hrun, e2, e3, ?_, ?_, ?_, ?_⟩
    · intro x hx
      obtain ⟨hx1, hx2⟩ := mem_stateVars.1 hx
      rw [mapGet_mapSet, if_neg (state_notTotal hn hx1 hx2), hstate3 x hx]
    · intro u hu
      have hu' := hu
      simp only [Net.utilityVars, List.mem_filter, decide_eq_true_eq] at hu'
      rw [mapGet_mapSet, if_neg hu'.2.2, hutil3 u hu]
    · intro i' _ f2 hf2 hft2
      rw [mapGet_mapSet, if_pos rfl, List.inj_on_of_nodup_map hn.tables hf2 hf0 (by rw [hft2, hft0])]
    · intro s h
      rw [mapGet_mapSet] at h
      split_ifs at h with h1
      · exact ⟨v, List.mem_of_getElem? w1, by rw [h1, Net.totalName_eq ht w1]⟩
      · exact hkeys3 s h

end Bbn
