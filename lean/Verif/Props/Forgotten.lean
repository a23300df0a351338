import Verif.Lemmas.Forgotten
import Verif.Props.NetTotal
import Verif.Props.Again

/-!
# C146: chance variables without a table
-/

set_option autoImplicit false

namespace Bbn

open Finset

variable {α : Type}

theorem policies_even [Field α] {n : Net α} (hp : n.PoliciesOK) : n.evened.PoliciesOK :=
  ⟨hp.keys, hp.wf, hp.decision, hp.vars⟩

theorem evidence_even [Field α] {n : Net α} {evidence : List (String × String)} (h : n.EvidenceOK evidence) :
    n.evened.EvidenceOK evidence := ⟨h.keys, h.known⟩

theorem occurs_even [Field α] {n : Net α} {pols : List (String × Factor α)} {s : String} (h : n.Occurs pols s) :
    n.evened.Occurs pols s := by
  rcases h with ⟨f, hf, h⟩ | h
  · obtain ⟨h1, h2⟩ := List.mem_filter.1 hf
    exact .inl ⟨f, List.mem_filter.2 ⟨List.mem_append_left _ h1, h2⟩, h⟩
  · exact .inr h

theorem query_even [Field α] {n : Net α} {evidence : List (String × String)} {ign : Bool} {query : List String}
    (h : n.QueryOK evidence ign query) : n.evened.QueryOK evidence ign query :=
  ⟨h.state, h.free, fun q hq => occurs_even (h.occurs q hq)⟩

/-- The factor with all numbers multiplied. -/
def Factor.times [Mul α] (c : α) (g : Factor α) : Factor α := { g with data := g.data.map (c * ·) }

theorem times_val [CommSemiring α] (c : α) (g : Factor α) (σ : Assignment) : (g.times c).val σ = c * g.val σ := by
  unfold Factor.val Factor.times
  dsimp only
  rw [List.getD_eq_getElem?_getD, List.getD_eq_getElem?_getD, List.getElem?_map]
  cases g.data[flatIndex g.vars (tupleOf g.vars σ)]? <;> simp

theorem times_wf [Mul α] {c : α} {g : Factor α} (hg : g.WF) : (g.times c).WF :=
  ⟨by simpa [Factor.times] using hg.len, hg.nodup⟩

theorem times_marg [CommSemiring α] (c : α) (g : Factor α) (v : Var) (k : Nat) :
    margOf (g.times c) v k = c * margOf g v k := by
  unfold margOf
  rw [← sumOver_mul_left]
  congr 1
  funext σ
  exact times_val c g σ

theorem solveQuery_even [Field α] [CharZero α] [DecidableEq α] (sch : NSched α) {n : Net α} (hn : n.evened.Valid)
    (hp : n.evened.PoliciesOK) {evidence : List (String × String)} (hev : n.evened.EvidenceOK evidence) {query : List String}
    (ign : Bool) (hq : n.evened.QueryOK evidence ign query)
    (hocc : ∀ v ∈ n.tableless, (∀ e ∈ evidence, e.1 ≠ v.name) → n.Occurs (n.active evidence ign) v.name) :
    ∃ r f n', n.solveQuery sch evidence query ign = (.ok (r, f), n') ∧ (r.map Prod.fst).Nodup ∧
      (∀ s, s ∈ r.map Prod.fst ↔ s ∈ query) ∧
      ∀ q ∈ query, ∃ (d : List α) (N : Nat → α) (C : α), (q, d) ∈ r ∧ C ≠ 0 ∧
        d = (List.range (n.evened.count q)).map (fun k => N k / ∑ j ∈ range (n.evened.count q), N j) ∧
        (∀ k < n.evened.count q, n.evened.mass (n.active evidence ign) (fun w => n.evened.Agrees evidence w ∧ w q = k) = C * N k) ∧
        n.evened.mass (n.active evidence ign) (n.evened.Agrees evidence) = C * ∑ j ∈ range (n.evened.count q), N j := by
  obtain ⟨vs, fs, ps, deps, g, vs1, C, hC, h1, hS, hg, hgv, hgval⟩ := solve_query_even sch hn hp hev hq.state ign hocc
  have hl := sch.ev_perm evidence
  have hperm := active_perm sch 0 n.evened evidence ign
  have key : ∀ q ∈ query, ∃ v ∈ n.evened.stateVars, v.name = q ∧ n.evened.varOf q ∈ g.vars ∧ ∃ C : α, C ≠ 0 ∧
      (∀ k < v.outcomes.length, n.evened.mass (n.active evidence ign) (fun w => n.evened.Agrees evidence w ∧ w q = k) =
        C * margOf g (n.evened.varOf q) k) ∧
      n.evened.mass (n.active evidence ign) (n.evened.Agrees evidence) =
        C * ∑ k ∈ range v.outcomes.length, margOf g (n.evened.varOf q) k := by
    intro q hqm
    obtain ⟨v, hv, rfl⟩ := hq.state q hqm
    have ho : n.evened.Occurs (sch.active 0 n.evened evidence ign) v.name := by
      rcases hq.occurs v.name hqm with h | ⟨p, hp1, h⟩
      · exact .inl h
      · exact .inr ⟨p, hperm.symm.subset hp1, h⟩
    obtain ⟨a, D, b1, b2, b3⟩ := posterior hn hp hev hl hperm hS (g := g.times C) (times_wf hg) hgv
      (fun σ hσ => by rw [times_val]; exact hgval σ hσ) hv (List.mem_map_of_mem hqm) (hq.free v.name hqm) ho
    refine ⟨v, hv, rfl, a, D * C, mul_ne_zero b1 hC, fun k hk => ?_, ?_⟩
    · have := b2 k hk
      rw [times_marg, ← mul_assoc] at this
      exact this
    · simp only [times_marg] at b3
      rw [← Finset.mul_sum, ← mul_assoc] at b3
      exact b3
  obtain ⟨r, vs', r1, r2, r3⟩ := queryLoop_spec hn hg query [] { n with vs := some vs1, names := n.evened.nameTable } vs1 rfl rfl
    (fun q hqm => ⟨hq.state q hqm, by obtain ⟨_, _, _, h, _⟩ := key q hqm; exact h⟩)
  refine ⟨r, g, _, by
    unfold Net.solveQuery
    rw [h1]
    dsimp only
    rw [r1], r2 (by simp), ?_, ?_⟩
  · intro s
    rw [← mapGet_isSome, r3]
    by_cases hs : s ∈ query
    · simp [hs]
    · simp [hs, mapGet]
  · intro q hqm
    obtain ⟨v, hv, rfl, hvg, C, b1, b2, b3⟩ := key q hqm
    have hv1 := mem_stateVars.1 hv
    have hcount := count_eq hn hv1.1
    have hout : (n.evened.varOf v.name).outcomes = n.evened.count v.name := (isVar_state hn hv1.1 hv1.2).outcomes hn
    refine ⟨postData g (n.evened.varOf v.name), margOf g (n.evened.varOf v.name), C, mapGet_some (by rw [r3, if_pos hqm]), b1, ?_,
      by rw [hcount]; exact b2, by rw [hcount]; exact b3⟩
    unfold postData
    rw [hout]

/-- **C146, a variable that others depend on.** If each chance variable without a table is observed or is a parent in
some table (or in a policy in force), `SolveQuery` answers exactly as if the variable's outcomes were equally likely, for
all iteration orders in both networks. -/
theorem C146_even [Field α] [CharZero α] [DecidableEq α] (sch sch' : NSched α) {n : Net α} (hn : n.evened.Valid)
    (hp : n.PoliciesOK) {evidence : List (String × String)} (hev : n.EvidenceOK evidence) {query : List String} (ign : Bool)
    (hq : n.QueryOK evidence ign query)
    (hocc : ∀ v ∈ n.tableless, (∀ e ∈ evidence, e.1 ≠ v.name) → n.Occurs (n.active evidence ign) v.name) :
    ∃ r f n1 r' f' n2, n.solveQuery sch evidence query ign = (.ok (r, f), n1) ∧
      n.evened.solveQuery sch' evidence query ign = (.ok (r', f'), n2) ∧
      (r.map Prod.fst).Nodup ∧ (r'.map Prod.fst).Nodup ∧ (∀ s, s ∈ r.map Prod.fst ↔ s ∈ query) ∧
      (∀ s, s ∈ r'.map Prod.fst ↔ s ∈ query) ∧ ∀ q ∈ query, ∃ d : List α, (q, d) ∈ r ∧ (q, d) ∈ r' := by
  obtain ⟨r, f, n1, a1, a2, a3, a4⟩ := solveQuery_even sch hn (policies_even hp) (evidence_even hev) ign (query_even hq) hocc
  obtain ⟨r', f', vs', b1, b2, b3, b4⟩ := solveQuery_data sch' hn (policies_even hp) (evidence_even hev) ign (query_even hq)
  refine ⟨r, f, n1, r', f', _, a1, b1, a2, b2, a3, b3, fun q hqm => ?_⟩
  obtain ⟨d, N, C, c1, c2, c3, c4, c5⟩ := a4 q hqm
  obtain ⟨d', N', C', e1, e2, e3, e4, e5⟩ := b4 q hqm
  refine ⟨d, c1, ?_⟩
  have : d = d' := by
    rw [c3, e3]
    apply List.map_congr_left
    intro k hk
    have hk' := List.mem_range.1 hk
    have x1 := (c4 k hk').symm.trans (e4 k hk')
    have x2 := c5.symm.trans e5
    rw [← mul_div_mul_left (N k) _ c2, x1, x2, mul_div_mul_left _ _ e2]
  rw [this]; exact e1

/-- **C146, a variable that nothing depends on.** If a chance variable has no table, is not observed, and is in no table
and in no policy in force, then every query panics, unless the variable is a parent of an unsolved decision and not asked
for. -/
theorem C146_panics [Field α] [DecidableEq α] (sch : NSched α) {n : Net α} (hn : n.evened.Valid)
    (hp : n.PoliciesOK) {evidence : List (String × String)} (hev : n.EvidenceOK evidence) {query : List String} (ign : Bool)
    (hq : ∀ q ∈ query, ∃ v ∈ n.stateVars, v.name = q) {v : NVar} (hv : v ∈ n.tableless)
    (hfree : ∀ e ∈ evidence, e.1 ≠ v.name) (hocc : ¬ n.Occurs (n.active evidence ign) v.name)
    (hopen : v.name ∈ query ∨
      ∀ f ∈ n.factors, n.isKind .decision f.forVar = true → n.hasPolicy f.forVar = false → v.name ∉ f.given) :
    Panics (n.solveQuery sch evidence query ign).1 := by
  have hp' := policies_even hp
  have hev' := evidence_even hev
  obtain ⟨vs, vs', fs, ex, ps, ps', deps, h1, hP, hvs, hfs, hex, hps, hS⟩ :=
    toVE_even sch 0 hn hp' (if ign then evidence else [])
  have hl := sch.ev_perm evidence
  have hperm := active_perm sch 0 n.evened evidence ign
  have hsub : ∀ p ∈ sch.active 0 n.evened evidence ign, p ∈ n.evened.policies := fun p h => active_sub p (hperm.subset h)
  obtain ⟨v1, v2, v3⟩ := even_kind hv
  have hvu : v.nodeType ≠ .utility := by rw [v2]; decide
  have hvar : n.evened.IsVar v.name := isVar_state hn (v := v) v1 hvu
  -- the variable is in no table
  have hno : ∀ f ∈ fs ++ ps, f.isUtility = false → n.evened.varOf v.name ∉ f.vars := by
    intro f hf hfu hvf
    apply hocc
    rcases List.mem_append.1 hf with hf | hf
    · obtain ⟨t, ht, htf⟩ := forall₂_mem_right hfs hf
      obtain ⟨t1, t2⟩ := List.mem_filter.1 ht
      have hk := table_kind hn (f := t) (List.mem_filter.2 ⟨List.mem_append_left _ t1, t2⟩) htf
      rw [hfu] at hk
      rw [htf.vars] at hvf
      obtain ⟨s, hs, e⟩ := List.mem_map.1 hvf
      simp only [Net.isTable, decide_eq_true_eq] at t2
      have hs' : n.evened.IsVar s := dims_isVar hn (List.mem_append_left _ t1) t2.1 s hs
      have : s = v.name := Net.IsVar.inj hn hs' hvar (congrArg Var.id e)
      exact .inl ⟨t, List.mem_filter.2 ⟨t1, hk⟩, this ▸ hs⟩
    · obtain ⟨p, hp1, hvp⟩ := (policies_vars hps).1 ⟨f, hf, hvf⟩
      obtain ⟨w, hw, e⟩ := List.mem_map.1 hvp
      refine .inr ⟨p, hperm.subset hp1, w, hw, ?_⟩
      obtain ⟨u, u1, u2, _⟩ := hp'.vars p (hsub p hp1) w hw
      have hnt : n.evened.totalUtility ≠ some w.id := fun e =>
        u2 (total_utility hn (List.mem_of_getElem? u1) ((totalName_iff hn u1).2 e))
      rw [varAt_eq u1, ← varOf_eq hn u1 hnt] at e
      have := Net.IsVar.inj hn (s := u.name) ⟨w.id, u, u1, rfl, hnt⟩ hvar (congrArg Var.id e)
      have u1' : n.variables[w.id]? = some u := u1
      rw [u1', Option.map_some, this]
  have hsolve : ∀ r, (VE.new vs (fs ++ ps) deps n.evened.solverWeights).solveQuery (sch.ve 0)
      ((sch.ev evidence).map n.evened.solverEv) (query.map n.evened.varOf) = r →
      n.solve sch evidence query false "" ign = match r with
        | .ok (g, st) => (.ok g, { n with vs := some st.vs, names := n.evened.nameTable })
        | .error e => (.error e, { n with vs := some vs, names := n.evened.nameTable }) := by
    intro r hr
    unfold Net.solve Net.enter
    rw [h1]
    dsimp only
    unfold solveNamed
    rw [mapM_evidence hn (ev_known hev' hl), ok_bind, mapM_query hn hq, ok_bind]
    simp only [Bool.false_eq_true, if_false]
    rw [hr]
    cases r <;> rfl
  have hc := C117_answers_iff (sch.ve 0) hP n.evened.solverWeights
    (ev_ok hn hev' hl (by rw [hvs]; exact hS.vars)) (query.map n.evened.varOf)
  by_cases hall : ∀ u ∈ hidden vs.variables deps ((sch.ev evidence).map n.evened.solverEv) (query.map n.evened.varOf),
      ∃ f ∈ fs ++ ps, f.isUtility = false ∧ u ∈ f.vars
  · have hvq : v.name ∈ query := by
      by_contra hvq
      have hopen := hopen.resolve_left hvq
      have hmem : n.evened.varOf v.name ∈ hidden vs.variables deps ((sch.ev evidence).map n.evened.solverEv)
          (query.map n.evened.varOf) := by
        simp only [hidden, List.mem_filter, decide_eq_true_eq]
        refine ⟨by rw [hvs]; exact hvar.varOf_mem hS.vars hn, ?_, ?_, ?_, ?_⟩
        · obtain ⟨i, hi⟩ := List.getElem?_of_mem v1
          have hi' : n.evened.variables[i]? = some v := hi
          rw [varOf_eq hn hi' (fun e => state_notTotal hn (v := v) v1 hvu ((totalName_iff hn hi').2 e))]
          simp [Net.solverVar, Net.solverType, v2]
        · intro e he h
          obtain ⟨x, hx, rfl⟩ := List.mem_map.1 he
          obtain ⟨u, hu, u1, u2, _⟩ := hev'.known x (hl.subset hx)
          have : x.1 = v.name := Net.IsVar.inj hn (by rw [← u1]; exact isVar_state hn hu u2) hvar h
          exact hfree x (hl.subset hx) this
        · intro q hqm h
          obtain ⟨s, hs, rfl⟩ := List.mem_map.1 hqm
          obtain ⟨u, hu, rfl⟩ := hq s hs
          obtain ⟨u1, u2⟩ := mem_stateVars.1 hu
          exact hvq (Net.IsVar.inj hn (isVar_state hn (v := u) u1 u2) hvar h ▸ hs)
        · intro e he _ p hpm h
          rw [hS.deps_eq] at he
          obtain ⟨f, hf, rfl⟩ := List.mem_map.1 he
          obtain ⟨f1, f2⟩ := List.mem_filter.1 hf
          obtain ⟨s, hs, rfl⟩ := List.mem_map.1 hpm
          have hs' := isOpen_dims hn f1 f2 s (by simp [NFactor.dims, hs])
          have : s = v.name := Net.IsVar.inj hn hs' hvar h
          subst this
          simp only [Net.isOpen, decide_eq_true_eq] at f2
          rcases List.mem_append.1 f1 with f1 | f1
          · exact hopen f f1 f2.1 f2.2 hs
          · obtain ⟨x, _, rfl⟩ := List.mem_map.1 f1
            simp [evenTable] at hs
      obtain ⟨f, hf, hfu, hvf⟩ := hall _ hmem
      exact hno f hf hfu hvf
    obtain ⟨g, st', g1, g2, g3, _, _⟩ := solve_remove_spec (sch.ve 0) hP n.evened.solverWeights
      (ev_ok hn hev' hl (by rw [hvs]; exact hS.vars)) (query.map n.evened.varOf) none (keep_none hP.facVars).symm
      (fun u hu => by
        obtain ⟨f, hf, hfu, huf⟩ := hall u hu
        exact ⟨f, List.mem_filter.2 ⟨hf, by rw [hfu]; rfl⟩, huf⟩)
    have hvars : ∀ u ∈ g.vars, u ∈ vs.variables := by
      intro u hu
      obtain ⟨⟨f, hf, huf⟩, _⟩ := (g3 u).1 hu
      exact hP.facVars f (List.mem_of_mem_filter hf) u huf
    have hask : ∀ q ∈ query, n.evened.Askable q := by
      intro q hqm
      obtain ⟨u, hu, rfl⟩ := hq q hqm
      obtain ⟨u1, u2⟩ := mem_stateVars.1 hu
      exact ⟨u, u1, rfl, state_notTotal hn (v := u) u1 u2⟩
    have hin : ∀ q ∈ query, (n.evened.varOf q).id ∈ g.vars.map Var.id → n.evened.varOf q ∈ g.vars := by
      intro q hqm hid
      obtain ⟨w, hw, hwi⟩ := List.mem_map.1 hid
      exact (coherent_of_nodup hP.ids w (hvars w hw) (n.evened.varOf q)
        (by rw [hvs]; exact (askable_isVar hn (hask q hqm)).varOf_mem hS.vars hn) hwi) ▸ hw
    obtain ⟨m, hm⟩ := queryLoop_lost hn g2 query [] { n with vs := some st'.vs, names := n.evened.nameTable } st'.vs rfl rfl
      (fun q hqm => ⟨hask q hqm, by
        by_cases h : (n.evened.varOf q).id ∈ g.vars.map Var.id
        · exact .inl (hin q hqm h)
        · exact .inr h⟩) ⟨v.name, hvq, fun h => by
          obtain ⟨⟨f, hf, hvf⟩, _⟩ := (g3 _).1 (hin v.name hvq h)
          obtain ⟨f1, f2⟩ := List.mem_filter.1 hf
          exact hno f f1 (by simpa using f2) hvf⟩
    refine ⟨m, ?_⟩
    have g1' : (VE.new vs (fs ++ ps) deps n.evened.solverWeights).solveQuery (sch.ve 0)
      ((sch.ev evidence).map n.evened.solverEv) (query.map n.evened.varOf) = .ok (g, st') := g1
    unfold Net.solveQuery
    rw [hsolve _ g1']
    dsimp only
    generalize Net.queryLoop g query [] { n with vs := some st'.vs, names := n.evened.nameTable } = r at hm ⊢
    obtain ⟨r1, r2⟩ := r
    dsimp only at hm
    subst hm
    rfl
  · obtain ⟨m, hm⟩ := hc.2 hall
    refine ⟨m, ?_⟩
    unfold Net.solveQuery
    rw [hsolve _ hm]

/-- The sprinkler network without the table for rain. -/
def Ex.noRain : Net ℚ where
  name := "sprinkler"
  info := ""
  «variables» := [⟨"Rain", .chance, ["yes", "no"], (0, 0), "", none⟩,
    ⟨"Sprinkler", .chance, ["on", "off"], (0, 0), "", some 0⟩, ⟨"Grass", .chance, ["wet", "dry"], (0, 0), "", some 1⟩]
  factors := [⟨"Sprinkler", ["Rain"], some [1, 99, 4, 6], [2], 2⟩,
    ⟨"Grass", ["Rain", "Sprinkler"], some [99, 1, 8, 2, 9, 1, 0, 10], [2, 2], 2⟩]
  policies := []
  vs := none
  names := []
  totalUtility := none

/-- The sprinkler network without the table for the grass. -/
def Ex.noGrass : Net ℚ where
  name := "sprinkler"
  info := ""
  «variables» := [⟨"Rain", .chance, ["yes", "no"], (0, 0), "", some 0⟩,
    ⟨"Sprinkler", .chance, ["on", "off"], (0, 0), "", some 1⟩, ⟨"Grass", .chance, ["wet", "dry"], (0, 0), "", none⟩]
  factors := [⟨"Rain", [], some [20, 80], [], 2⟩, ⟨"Sprinkler", ["Rain"], some [1, 99, 4, 6], [2], 2⟩]
  policies := []
  vs := none
  names := []
  totalUtility := none

theorem Ex.noRain_valid : Ex.noRain.evened.Valid where
  names := by decide
  named := by decide
  few := by decide
  outcomes := by decide
  tables := by decide
  hasTable := by decide
  known := by decide
  dims := by decide
  parents := by decide
  size := by
    intro f hf _ _
    simp only [Net.evened, Net.tableless, Ex.noRain] at hf
    have : f ∈ ([⟨"Sprinkler", ["Rain"], some [1, 99, 4, 6], [2], 2⟩,
      ⟨"Grass", ["Rain", "Sprinkler"], some [99, 1, 8, 2, 9, 1, 0, 10], [2, 2], 2⟩,
      ⟨"Rain", [], some [1 / 2, 1 / 2], [], 2⟩] : List (NFactor ℚ)) := hf
    simp only [List.mem_cons, List.not_mem_nil, or_false] at this
    rcases this with rfl | rfl | rfl <;> exact ⟨_, rfl, by decide⟩
  single := by decide
  weights := by intro i h; simp [Net.evened, Ex.noRain] at h

theorem Ex.noGrass_valid : Ex.noGrass.evened.Valid where
  names := by decide
  named := by decide
  few := by decide
  outcomes := by decide
  tables := by decide
  hasTable := by decide
  known := by decide
  dims := by decide
  parents := by decide
  size := by
    intro f hf _ _
    have : f ∈ ([⟨"Rain", [], some [20, 80], [], 2⟩, ⟨"Sprinkler", ["Rain"], some [1, 99, 4, 6], [2], 2⟩,
      ⟨"Grass", [], some [1 / 2, 1 / 2], [], 2⟩] : List (NFactor ℚ)) := hf
    simp only [List.mem_cons, List.not_mem_nil, or_false] at this
    rcases this with rfl | rfl | rfl <;> exact ⟨_, rfl, by decide⟩
  single := by decide
  weights := by intro i h; simp [Net.evened, Ex.noGrass] at h

/-- `New` accepts both networks. Without the table for rain, the answer for rain given wet grass is that for equally
likely rain. Without the table for the grass, asking for rain panics, and so does asking for the grass. -/
example : newNet "sprinkler" "" Ex.sprVars (Ex.sprTables.drop 1) = .ok Ex.noRain ∧
    newNet "sprinkler" "" Ex.sprVars (Ex.sprTables.take 2) = .ok Ex.noGrass ∧
    (∃ r f n1 r' f' n2, Ex.noRain.solveQuery Ex.back Ex.wet ["Rain"] false = (.ok (r, f), n1) ∧
      Ex.noRain.evened.solveQuery (Ex.norder true) Ex.wet ["Rain"] false = (.ok (r', f'), n2) ∧
      ∃ d : List ℚ, ("Rain", d) ∈ r ∧ ("Rain", d) ∈ r') ∧
    Panics (Ex.noGrass.solveQuery Ex.back [] ["Rain"] false).1 ∧
    Panics (Ex.noGrass.solveQuery Ex.back [] ["Rain", "Grass"] false).1 := by
  have hocc : ¬ Ex.noGrass.Occurs (Ex.noGrass.active [] false) "Grass" := by
    rintro (⟨f, hf, h⟩ | ⟨p, hp, _⟩)
    · revert f; decide
    · simp [Net.active, Ex.noGrass] at hp
  have key : ∀ query, (∀ q ∈ query, ∃ v ∈ Ex.noGrass.stateVars, v.name = q) →
      Panics (Ex.noGrass.solveQuery Ex.back [] query false).1 := fun query hq =>
    C146_panics Ex.back Ex.noGrass_valid (Ex.noPolicies rfl) ⟨by decide, by decide⟩ false hq
      (v := ⟨"Grass", .chance, ["wet", "dry"], (0, 0), "", none⟩) (by decide) (by simp) hocc (.inr (by decide))
  refine ⟨rfl, rfl, ?_, key _ (by decide), key _ (by decide)⟩
  have hrain : Ex.noRain.Occurs (Ex.noRain.active Ex.wet false) "Rain" :=
    .inl ⟨⟨"Sprinkler", ["Rain"], some [1, 99, 4, 6], [2], 2⟩, by decide, by decide⟩
  obtain ⟨r, f, n1, r', f', n2, h1, h2, _, _, _, _, h3⟩ := C146_even Ex.back (Ex.norder true) Ex.noRain_valid (Ex.noPolicies rfl)
    (evidence := Ex.wet) ⟨by decide, by decide⟩ (query := ["Rain"]) false ⟨by decide, by decide, by
      intro q hq
      obtain rfl := List.mem_singleton.1 hq
      exact hrain⟩ (by
      intro v hv _
      have : v ∈ [(⟨"Rain", .chance, ["yes", "no"], (0, 0), "", none⟩ : NVar)] := hv
      obtain rfl := List.mem_singleton.1 this
      exact hrain)
  exact ⟨r, f, n1, r', f', n2, h1, h2, h3 "Rain" (by simp)⟩

end Bbn
