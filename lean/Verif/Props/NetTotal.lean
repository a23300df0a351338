import Verif.Props.NetCalls
import Verif.Props.NetQuery
import Verif.Props.NetUtility
import Verif.Props.Reproduce
import Verif.Lemmas.Stuck
import Verif.Lemmas.Graded

/-!
# C131: what `SolveQuery` does with every input
-/

set_option autoImplicit false

namespace Bbn

open Finset

variable {α : Type}

/-- The name of a variable that can be asked for: it is in the network and not the total-utility node. -/
def Net.Askable (n : Net α) (s : String) : Prop := ∃ v ∈ n.variables, v.name = s ∧ s ≠ n.totalName

theorem askable_iff {n : Net α} {s : String} : n.Askable s ↔ ¬ n.Missing s := by
  unfold Net.Askable Net.Missing
  push Not
  constructor
  · rintro ⟨v, hv, h1, h2⟩; exact ⟨⟨v, hv, h1⟩, h2⟩
  · rintro ⟨⟨v, hv, h1⟩, h2⟩; exact ⟨v, hv, h1, h2⟩

theorem askable_isVar {n : Net α} (hn : n.Valid) {s : String} (h : n.Askable s) : n.IsVar s := by
  obtain ⟨v, hv, rfl, h2⟩ := h
  exact isVar_of hn hv h2

theorem mapM_query_known {n : Net α} (hn : n.Valid) {l : List String} (h : ∀ q ∈ l, n.Askable q) :
    l.mapM (queryOf n.nameTable) = .ok (l.map n.varOf) := by
  induction l with
  | nil => rfl
  | cons q l ih =>
    rw [List.mapM_cons, ih (fun x hx => h x (List.mem_cons_of_mem _ hx))]
    obtain ⟨v, hv, rfl, h2⟩ := h q List.mem_cons_self
    have : queryOf n.nameTable v.name = .ok (n.varOf v.name) := by
      unfold queryOf
      rw [get_state hn hv h2]
    rw [this]; rfl

/-- What `solve` returns for a query for any variables of the network. -/
theorem solve_query_known [Field α] [DecidableEq α] (sch : NSched α) {n : Net α} (hn : n.Valid) (hp : n.PoliciesOK)
    {evidence : List (String × String)} (hev : n.EvidenceOK evidence) {query : List String}
    (hq : ∀ q ∈ query, n.Askable q) (ign : Bool) :
    ∃ vs fs ps deps g vs', n.solve sch evidence query false "" ign =
        (.ok g, { n with vs := some vs', names := n.nameTable }) ∧
      Solver n (sch.active 0 n evidence ign) vs fs ps deps ∧ g.WF ∧
      (∀ v, v ∈ g.vars ↔ (∃ f ∈ probTables (fs ++ ps), v ∈ f.vars) ∧
        (∀ e ∈ (sch.ev evidence).map n.solverEv, e.var.id ≠ v.id) ∧
        v ∉ hidden vs.variables deps ((sch.ev evidence).map n.solverEv) (query.map n.varOf)) := by
  obtain ⟨vs, fs, ps, deps, h1, hS⟩ := toVE_spec sch 0 hn hp (if ign then evidence else [])
  have hl := sch.ev_perm evidence
  have hperm := active_perm sch 0 n evidence ign
  obtain ⟨g, st', g1, g2, g3, _, _⟩ := solve_remove_spec (sch.ve 0) hS.problem n.solverWeights
    (ev_ok hn hev hl hS.vars) (query.map n.varOf) none (keep_none hS.problem.facVars).symm
    (fun v hv => hidden_occurs hn hp hl hperm hS _ hv)
  refine ⟨vs, fs, ps, deps, g, st'.vs, ?_, hS, g2, g3⟩
  unfold Net.solve Net.enter
  rw [h1]
  dsimp only
  unfold solveNamed
  rw [mapM_evidence hn (ev_known hev hl), ok_bind, mapM_query_known hn hq, ok_bind]
  simp only [Bool.false_eq_true, if_false]
  have : (VE.new vs (fs ++ ps) deps n.solverWeights).solveQuery (sch.ve 0) ((sch.ev evidence).map n.solverEv)
      (query.map n.varOf) = .ok (g, st') := g1
  rw [this]

theorem queryLoop_lost [Field α] {n : Net α} (hn : n.Valid) {g : Factor α} (hg : g.WF) : ∀ (qs : List String)
    (result : List (String × List α)) (m : Net α) (vs : Vs), m.names = n.nameTable → m.vs = some vs →
    (∀ q ∈ qs, n.Askable q ∧ (n.varOf q ∈ g.vars ∨ (n.varOf q).id ∉ g.vars.map Var.id)) →
    (∃ q ∈ qs, (n.varOf q).id ∉ g.vars.map Var.id) → Panics (Net.queryLoop g qs result m).1 := by
  intro qs
  induction qs with
  | nil => intro _ _ _ _ _ _ h; simp at h
  | cons q qs ih =>
    intro result m vs h1 h2 h3 h4
    obtain ⟨⟨v, hv1, rfl, hv2⟩, hqg⟩ := h3 q List.mem_cons_self
    unfold Net.queryLoop
    rcases hqg with hqg | hqg
    · obtain ⟨mm, vs1, a1, a2⟩ := marginal_data vs hg hqg
      obtain ⟨m', vs2, a2, a3⟩ := a2 vs1
      have e1 : m.marginal g v.name = (.ok mm, { m with vs := some vs1 }) := by
        unfold Net.marginal Net.withVs
        rw [h1, get_state hn hv1 hv2]
        dsimp only
        rw [h2]
        dsimp only
        rw [a1]
      have e2 : ({ m with vs := some vs1 } : Net α).normalize mm = (.ok m', { m with vs := some vs2 }) := by
        unfold Net.normalize Net.withVs
        dsimp only
        rw [a2]
      rw [e1]
      dsimp only
      rw [e2]
      dsimp only
      refine ih _ _ vs2 h1 rfl (fun q hq => h3 q (List.mem_cons_of_mem _ hq)) ?_
      obtain ⟨q, hq, hq2⟩ := h4
      rcases List.mem_cons.1 hq with rfl | hq
      · exact absurd (List.mem_map_of_mem hqg) hq2
      · exact ⟨q, hq, hq2⟩
    · have e1 : m.marginal g v.name = (.error (.panic "variable not in this factor"), m) := by
        unfold Net.marginal Net.withVs
        rw [h1, get_state hn hv1 hv2]
        dsimp only
        rw [h2]
        dsimp only
        unfold Vs.marginal
        rw [firstIdx_none.2 hqg]
      rw [e1]
      exact ⟨_, rfl⟩

/-- Known variables and outcomes, but a query that is not as it should be: a panic. -/
theorem solveQuery_lost_net [Field α] [DecidableEq α] (sch : NSched α) {n : Net α} (hn : n.Valid)
    (hp : n.PoliciesOK) {evidence : List (String × String)} (hev : n.EvidenceOK evidence) {query : List String}
    (hq : ∀ q ∈ query, n.Askable q) (ign : Bool) (hbad : ¬ n.QueryOK evidence ign query) :
    Panics (n.solveQuery sch evidence query ign).1 := by
  obtain ⟨vs, fs, ps, deps, g, vs1, h1, hS, hg, hgv⟩ := solve_query_known sch hn hp hev hq ign
  have hperm := active_perm sch 0 n evidence ign
  have hvars : ∀ v ∈ g.vars, v ∈ vs.variables := by
    intro v hv
    obtain ⟨⟨f, hf, hvf⟩, _⟩ := (hgv v).1 hv
    exact hS.problem.facVars f (List.mem_of_mem_filter hf) v hvf
  have hin : ∀ q ∈ query, (n.varOf q).id ∈ g.vars.map Var.id → n.varOf q ∈ g.vars := by
    intro q hqm hid
    obtain ⟨w, hw, hwi⟩ := List.mem_map.1 hid
    exact (coherent_of_nodup hS.problem.ids w (hvars w hw) (n.varOf q)
      ((askable_isVar hn (hq q hqm)).varOf_mem hS.vars hn) hwi) ▸ hw
  have key : ∃ q ∈ query, (n.varOf q).id ∉ g.vars.map Var.id := by
    by_contra hno
    push Not at hno
    have hg' : ∀ q ∈ query, n.varOf q ∈ g.vars := fun q hqm => hin q hqm (hno q hqm)
    refine hbad ⟨?_, ?_, ?_⟩
    · intro q hqm
      obtain ⟨v, hv, rfl, hv2⟩ := hq q hqm
      refine ⟨v, mem_stateVars.2 ⟨hv, fun hu => ?_⟩, rfl⟩
      obtain ⟨⟨f, hf, hvf⟩, _⟩ := (hgv _).1 (hg' v.name hqm)
      obtain ⟨u, hu1, hu2⟩ := List.mem_map.1 (probTables_state hn hS hf hvf)
      obtain ⟨hu3, hu4⟩ := mem_stateVars.1 hu1
      have := Net.IsVar.inj hn (isVar_state hn hu3 hu4) (isVar_of hn hv hv2) (congrArg Var.id hu2)
      exact hu4 ((name_unique hn hu3 hv this) ▸ hu)
    · rintro q hqm e he rfl
      exact ((hgv _).1 (hg' e.1 hqm)).2.1 (n.solverEv e) (List.mem_map_of_mem ((sch.ev_perm evidence).symm.subset he)) rfl
    · intro q hqm
      have := (occurs_iff hn hp (fun p h => active_sub p (hperm.subset h)) hS (askable_isVar hn (hq q hqm))).1
        ((hgv _).1 (hg' q hqm)).1
      rcases this with h | ⟨p, hp1, h⟩
      · exact .inl h
      · exact .inr ⟨p, hperm.subset hp1, h⟩
  have := queryLoop_lost hn hg query [] { n with vs := some vs1, names := n.nameTable } vs1 rfl rfl
    (fun q hqm => ⟨hq q hqm, by
      by_cases h : (n.varOf q).id ∈ g.vars.map Var.id
      · exact .inl (hin q hqm h)
      · exact .inr h⟩) key
  obtain ⟨m, hm⟩ := this
  refine ⟨m, ?_⟩
  unfold Net.solveQuery
  rw [h1]
  dsimp only
  generalize Net.queryLoop g query [] { n with vs := some vs1, names := n.nameTable } = r at hm ⊢
  obtain ⟨r1, r2⟩ := r
  dsimp only at hm
  subst hm
  rfl

/-- **C131, what holds.** Let no evidence be about a utility variable. Then `SolveQuery` returns an error exactly if some
name or outcome is unknown; otherwise it answers exactly if every variable asked for is a chance or decision variable that
is not observed and occurs in some probability table (or policy in force); and it panics in all other cases. -/
theorem C131_query_partial [Field α] [CharZero α] [DecidableEq α] (sch : NSched α) {n : Net α} (hn : n.Valid)
    (hp : n.PoliciesOK) {evidence : List (String × String)} (keys : (evidence.map Prod.fst).Nodup)
    (noUtility : ∀ e ∈ evidence, ∀ v ∈ n.variables, v.name = e.1 → v.nodeType ≠ .utility) (query : List String)
    (ign : Bool) :
    (Errors (n.solveQuery sch evidence query ign).1 ↔
      (∃ e ∈ evidence, n.BadEvidence e) ∨ ∃ q ∈ query, n.Missing q) ∧
    ((∃ a, (n.solveQuery sch evidence query ign).1 = .ok a) ↔
      (∀ e ∈ evidence, ¬ n.BadEvidence e) ∧ n.QueryOK evidence ign query) ∧
    (Panics (n.solveQuery sch evidence query ign).1 ↔
      (∀ e ∈ evidence, ¬ n.BadEvidence e) ∧ (∀ q ∈ query, ¬ n.Missing q) ∧ ¬ n.QueryOK evidence ign query) := by
  have hok : (∀ e ∈ evidence, ¬ n.BadEvidence e) → n.EvidenceOK evidence := by
    intro h
    refine ⟨keys, fun e he => ?_⟩
    have := h e he
    unfold Net.BadEvidence at this
    push Not at this
    obtain ⟨v, hv, h1, _⟩ := askable_iff.2 this.1
    exact ⟨v, hv, h1, noUtility e he v hv h1, this.2 v hv h1⟩
  have hmiss : n.QueryOK evidence ign query → ∀ q ∈ query, ¬ n.Missing q := by
    intro h q hq
    obtain ⟨v, hv, rfl⟩ := h.state q hq
    obtain ⟨h1, h2⟩ := mem_stateVars.1 hv
    exact askable_iff.1 ⟨v, h1, rfl, state_notTotal hn h1 h2⟩
  have h1 := (C36_unknown_names sch hn hp evidence query "" ign).1
  have h2 : (∀ e ∈ evidence, ¬ n.BadEvidence e) → n.QueryOK evidence ign query →
      ∃ a, (n.solveQuery sch evidence query ign).1 = .ok a := by
    intro a b
    obtain ⟨r, f, n', h, _⟩ := C37_disjoint_partial sch hn hp (hok a) ign b
    exact ⟨(r, f), by rw [h]⟩
  have h3 : (∀ e ∈ evidence, ¬ n.BadEvidence e) → (∀ q ∈ query, ¬ n.Missing q) → ¬ n.QueryOK evidence ign query →
      Panics (n.solveQuery sch evidence query ign).1 :=
    fun a b c => solveQuery_lost_net sch hn hp (hok a) (fun q hq => askable_iff.2 (b q hq)) ign c
  generalize (n.solveQuery sch evidence query ign).1 = r at h1 h2 h3 ⊢
  by_cases hb : (∃ e ∈ evidence, n.BadEvidence e) ∨ ∃ q ∈ query, n.Missing q
  · obtain ⟨m, rfl⟩ := h1 hb
    refine ⟨⟨fun _ => hb, fun _ => ⟨m, rfl⟩⟩, ⟨?_, ?_⟩, ?_, ?_⟩
    · rintro ⟨a, h⟩; cases h
    · rintro ⟨a, b⟩
      rcases hb with ⟨e, he, h⟩ | ⟨q, hq, h⟩
      · exact absurd h (a e he)
      · exact absurd h (hmiss b q hq)
    · rintro ⟨a, h⟩; cases h
    · rintro ⟨a, b, _⟩
      rcases hb with ⟨e, he, h⟩ | ⟨q, hq, h⟩
      · exact absurd h (a e he)
      · exact absurd h (b q hq)
  · have ha : ∀ e ∈ evidence, ¬ n.BadEvidence e := fun e he h => hb (.inl ⟨e, he, h⟩)
    have hm : ∀ q ∈ query, ¬ n.Missing q := fun q hq h => hb (.inr ⟨q, hq, h⟩)
    by_cases hq : n.QueryOK evidence ign query
    · obtain ⟨a, rfl⟩ := h2 ha hq
      refine ⟨⟨?_, fun h => absurd h hb⟩, ⟨fun _ => ⟨ha, hq⟩, fun _ => ⟨a, rfl⟩⟩, ?_, fun h => absurd hq h.2.2⟩
      · rintro ⟨m, h⟩; cases h
      · rintro ⟨m, h⟩; cases h
    · obtain ⟨m, rfl⟩ := h3 ha hm hq
      refine ⟨⟨?_, fun h => absurd h hb⟩, ⟨?_, fun h => absurd h.2 hq⟩, fun _ => ⟨ha, hm, hq⟩, fun _ => ⟨m, rfl⟩⟩
      · rintro ⟨m, h⟩; cases h
      · rintro ⟨m, h⟩; cases h

/-- All three happen: an unknown outcome, a posterior, an observed variable in the query, a utility variable in the query,
and a decision that is in no probability table. -/
example : Errors (Ex.umb.solveQuery Ex.back [("Forecast", "great")] ["Weather"] false).1 ∧
    (∃ a, (Ex.umb.solveQuery Ex.back [("Forecast", "bad")] ["Weather"] false).1 = .ok a) ∧
    Panics (Ex.umb.solveQuery Ex.back [("Forecast", "bad")] ["Forecast"] false).1 ∧
    Panics (Ex.umb.solveQuery Ex.back [] ["Comfort"] false).1 ∧
    Panics (Ex.umb.solveQuery Ex.back [] ["Weather", "Umbrella"] false).1 := by
  have key := fun evidence keys noUtility query => C131_query_partial (sch := Ex.back) (evidence := evidence) Ex.umb_valid
    (Ex.noPolicies rfl) keys noUtility query false
  have good : ∀ e ∈ [("Forecast", "bad")], ¬ Ex.umb.BadEvidence e := by
    intro e he
    obtain rfl := List.mem_singleton.1 he
    unfold Net.BadEvidence Net.Missing
    decide
  have known : ∀ s ∈ ["Weather", "Forecast", "Comfort", "Umbrella"], ¬ Ex.umb.Missing s := by
    unfold Net.Missing
    decide
  refine ⟨(key _ (by decide) (by decide) _).1.2 (.inl ⟨_, List.mem_singleton_self _, .inr ⟨_, List.mem_of_getElem?
      (i := 1) rfl, rfl, by decide⟩⟩), (key _ (by decide) (by decide) _).2.1.2 ⟨good, by decide, by decide, ?_⟩,
    (key _ (by decide) (by decide) _).2.2.2 ⟨good, fun q hq => known q (by simp at hq ⊢; simp [hq]), fun h =>
      h.free "Forecast" (by simp) _ (List.mem_singleton_self _) rfl⟩,
    (key _ (by decide) (by decide) _).2.2.2 ⟨by simp, fun q hq => known q (by simp at hq ⊢; simp [hq]), fun h =>
      absurd (h.state "Comfort" (by simp)) (by decide)⟩,
    (key _ (by decide) (by decide) _).2.2.2 ⟨by simp, fun q hq => known q (by simp at hq ⊢; rcases hq with h | h <;> simp [h]),
      fun h => ?_⟩⟩
  · intro q hq
    obtain rfl := List.mem_singleton.1 hq
    exact chance_occurs Ex.umb_valid _ (v := ⟨"Weather", .chance, ["sun", "rain"], (0, 0), "", some 0⟩) (by decide) rfl
  · rcases h.occurs "Umbrella" (by simp) with ⟨f, hf, h⟩ | ⟨p, hp, _⟩
    · revert f; decide
    · cases hp

/-- **C131, refuted.** Evidence about a utility variable is not refused, although it is nothing that can be observed: the
table of the variable is taken for the probability of the evidence. The weather gets the probability 4/5 instead of
7/10 of being good. And `SolveUtility` panics. -/
theorem C131_utility_evidence_refuted :
    (Ex.umb.solveQuery (Ex.norder false) [] ["Weather"] false).1.toOption.map Prod.fst = some [("Weather", [7/10, 3/10])] ∧
    (Ex.umb.solveQuery (Ex.norder false) [("Comfort", "comfort")] ["Weather"] false).1.toOption.map Prod.fst =
      some [("Weather", [4/5, 1/5])] ∧
    Panics (Ex.umb.solveUtility (Ex.norder false) [("Comfort", "comfort")] [] "" false).1 := by
  refine ⟨by decide +kernel, by decide +kernel, ?_⟩
  have : (match (Ex.umb.solveUtility (Ex.norder false) [("Comfort", "comfort")] [] "" false).1 with
    | .error (.panic _) => true
    | _ => false) = true := by decide +kernel
  generalize (Ex.umb.solveUtility (Ex.norder false) [("Comfort", "comfort")] [] "" false).1 = r at this ⊢
  match r, this with
  | .error (.panic m), _ => exact ⟨m, rfl⟩

/-! ## `SolveUtility` -/

section
variable [Zero α]

theorem restrict_keep {s s' : Vs} {f g : Factor α} {v : Var} {k : Int} (h : s.restrict f v k = .ok (g, s')) :
    s'.variables = s.variables := by
  unfold Vs.restrict at h
  split_ifs at h
  split at h
  · cases h
  · dsimp only at h
    obtain ⟨⟨g, s1⟩, h1, h⟩ := bind_inv h
    obtain ⟨x, _, h⟩ := bind_inv h
    cases h
    exact (createFactor_inv h1).2

theorem restrictIds_keep {e : Evid} : ∀ (l : List Nat) (st st' : VE α), restrictIds e l st = .ok st' →
    st'.vs.variables = st.vs.variables := by
  intro l
  induction l with
  | nil => intro st st' h; cases h; rfl
  | cons i l ih =>
    intro st st' h
    unfold restrictIds at h
    obtain ⟨f, _, h⟩ := bind_inv h
    obtain ⟨⟨g, s1⟩, h1, h⟩ := bind_inv h
    exact (ih _ _ h).trans (restrict_keep h1)

theorem eliminateEvidence_keep {sch : Sched α} : ∀ (ev : List Evid) (st st' : VE α),
    st.eliminateEvidence sch ev = .ok st' → st'.vs.variables = st.vs.variables := by
  intro ev
  unfold VE.eliminateEvidence
  induction ev with
  | nil => intro st st' h; cases h; rfl
  | cons e ev ih =>
    intro st st' h
    rw [List.foldlM_cons] at h
    obtain ⟨st1, h1, h⟩ := bind_inv h
    have k : st1.vs.variables = ({ st with tick := st.tick + 1 } : VE α).vs.variables := restrictIds_keep _ _ _ h1
    exact (ih _ _ h).trans k

end

theorem removeUtilities_keep (sch : Sched α) (st : VE α) (u : Option Var) :
    (st.removeUtilities sch u).vs.variables = st.vs.variables := by
  unfold VE.removeUtilities
  dsimp only
  split_ifs <;> rfl

/-- Of the query, only the chance variables matter. -/
theorem hiddenVars_query {vars : List Var} {el par : List Bool} {ev : List Evid} {q q' : List Var}
    (h : ∀ v ∈ vars, v.nodeType = .chance → ((∀ x ∈ q, x.id ≠ v.id) ↔ ∀ x ∈ q', x.id ≠ v.id)) :
    hiddenVars vars el par ev q = hiddenVars vars el par ev q' := by
  have step : ∀ q, hiddenVars vars el par ev q =
      hiddenVars vars el par ev [] >>= fun l => .ok (l.filter (fun v => q.all (fun x => x.id ≠ v.id))) := by
    intro q
    unfold hiddenVars
    rw [bind_assoc]
    congr 1
    funext l
    simp
    rfl
  rw [step q, step q']
  cases hr : hiddenVars vars el par ev [] with
  | error e => rfl
  | ok l =>
    rw [ok_bind, ok_bind]
    congr 1
    apply List.filter_congr
    intro v hv
    obtain ⟨h1, h2⟩ := (hiddenVars_sub hr).2 v hv
    have := h v h1 h2
    rw [Bool.eq_iff_iff]
    simpa using this

theorem solve_query_same [Zero α] [One α] [Add α] [Mul α] (sch : Sched α) (st : VE α) (ev : List Evid) {q q' : List Var}
    (h : ∀ v ∈ st.vs.variables, v.nodeType = .chance → ((∀ x ∈ q, x.id ≠ v.id) ↔ ∀ x ∈ q', x.id ≠ v.id))
    (utility : Bool) (u : Option Var) : st.solve sch ev q utility u = st.solve sch ev q' utility u := by
  have key : ∀ st1 : VE α, st1.vs.variables = st.vs.variables →
      st1.eliminateHidden sch ev q false = st1.eliminateHidden sch ev q' false := by
    intro st1 h1
    unfold VE.eliminateHidden
    congr 1
    funext r
    obtain ⟨par, t⟩ := r
    dsimp only
    rw [hiddenVars_query (q' := q') (by rw [h1]; exact h)]
  unfold VE.solve
  cases h1 : st.eliminateEvidence sch ev with
  | error e => rfl
  | ok st1 =>
    have k1 := eliminateEvidence_keep _ _ _ h1
    rw [ok_bind, ok_bind]
    cases utility with
    | false =>
      simp only [Bool.false_eq_true, if_false]
      change ((st1.removeUtilities sch none).eliminateHidden sch ev q false >>= _) =
        ((st1.removeUtilities sch none).eliminateHidden sch ev q' false >>= _)
      rw [key _ ((removeUtilities_keep _ _ _).trans k1)]
    | true =>
      simp only [if_true]
      cases u with
      | none =>
        dsimp only
        cases h2 : st1.sumUtilities sch with
        | error e => rfl
        | ok st2 =>
          rw [ok_bind, ok_bind, key _ ((sumUtilities_keep h2).1.trans k1)]
      | some u =>
        change ((st1.removeUtilities sch (some u)).eliminateHidden sch ev q false >>= _) =
          ((st1.removeUtilities sch (some u)).eliminateHidden sch ev q' false >>= _)
        rw [key _ ((removeUtilities_keep _ _ _).trans k1)]

/-- The names of a query without those of utility variables. -/
def Net.stateQuery (n : Net α) (query : List String) : List String := query.filter (fun q => !n.isKind .utility q)

theorem stateQuery_mem {n : Net α} (hn : n.Valid) {query : List String} (hq : ∀ q ∈ query, n.Askable q) :
    ∀ q ∈ n.stateQuery query, ∃ v ∈ n.stateVars, v.name = q := by
  intro q hqm
  obtain ⟨h1, h2⟩ := List.mem_filter.1 hqm
  obtain ⟨v, hv, rfl, _⟩ := hq q h1
  refine ⟨v, mem_stateVars.2 ⟨hv, fun h => ?_⟩, rfl⟩
  rw [(isKind_iff hn hv _).2 h] at h2
  exact absurd h2 (by decide)

/-- Of the query of `SolveUtility`, utility variables are ignored. -/
theorem solve_stateQuery [Field α] [DecidableEq α] (sch : NSched α) {n : Net α} (hn : n.Valid) (hp : n.PoliciesOK)
    {evidence : List (String × String)} (hev : n.EvidenceOK evidence) {query : List String}
    (hq : ∀ q ∈ query, n.Askable q) (utility : Bool) (u : String) (ign : Bool) :
    n.solve sch evidence query utility u ign = n.solve sch evidence (n.stateQuery query) utility u ign := by
  obtain ⟨vs, fs, ps, deps, h1, hS⟩ := toVE_spec sch 0 hn hp (if ign then evidence else [])
  unfold Net.solve Net.enter
  rw [h1]
  dsimp only
  have hq' : ∀ q ∈ n.stateQuery query, n.Askable q := fun q h => hq q (List.mem_filter.1 h).1
  have key : ∀ (utility : Bool) (u : Option Var) es,
      (VE.new vs (fs ++ ps) deps n.solverWeights).solve (sch.ve 0) es (query.map n.varOf) utility u =
      (VE.new vs (fs ++ ps) deps n.solverWeights).solve (sch.ve 0) es ((n.stateQuery query).map n.varOf) utility u := by
    intro utility u es
    apply solve_query_same
    intro v hv hvc
    have hv : v ∈ vs.variables := by rw [(new_good hS.problem n.solverWeights).1] at hv; exact hv
    constructor
    · intro h x hx
      obtain ⟨q, hq1, rfl⟩ := List.mem_map.1 hx
      exact h _ (List.mem_map_of_mem (List.mem_filter.1 hq1).1)
    · intro h x hx
      obtain ⟨q, hq1, rfl⟩ := List.mem_map.1 hx
      by_cases hk : n.isKind .utility q = true
      · intro e
        have := coherent_of_nodup hS.problem.ids (n.varOf q) ((askable_isVar hn (hq q hq1)).varOf_mem hS.vars hn) v hv e
        obtain ⟨y, hy, rfl, hy2⟩ := hq q hq1
        have hu := (varOf_utility hn hy hy2).2 ((isKind_iff hn hy _).1 hk)
        rw [this, hvc] at hu
        exact absurd hu (by decide)
      · exact h _ (List.mem_map_of_mem (List.mem_filter.2 ⟨hq1, by simpa using hk⟩))
  have : solveNamed sch (VE.new vs (fs ++ ps) deps n.solverWeights) n.nameTable evidence query utility u =
      solveNamed sch (VE.new vs (fs ++ ps) deps n.solverWeights) n.nameTable evidence (n.stateQuery query) utility u := by
    unfold solveNamed
    rw [mapM_query_known hn hq, mapM_query_known hn hq', mapM_evidence hn (ev_known hev (sch.ev_perm evidence))]
    simp only [ok_bind]
    split_ifs
    · congr 1
      funext w
      exact key true w _
    · exact key false none _
  rw [this]

theorem removeUtilities_same (sch : Sched α) (st : VE α) (hids : (st.vs.variables.map Var.id).Nodup) {u : Var}
    (hu : u ∈ st.vs.variables) (hk : u.nodeType ≠ .utility) :
    st.removeUtilities sch (some u) = st.removeUtilities sch none := by
  have : st.vs.variables.filter (fun x => x.nodeType = .utility ∧ notExcept (some u) x) =
      st.vs.variables.filter (fun x => x.nodeType = .utility ∧ notExcept none x) := by
    apply List.filter_congr
    intro x hx
    rw [decide_eq_decide]
    refine and_congr_right (fun hxu => ?_)
    simp only [notExcept, decide_eq_true_eq, ne_eq, iff_true]
    intro e
    exact hk ((coherent_of_nodup hids x hx u hu e) ▸ hxu)
  unfold VE.removeUtilities
  rw [this]

/-- **C132, refuted.** `SolveUtility` for a chance or decision variable, or for the total utility of a network without
utility variables, is no error: it returns the factor of probabilities that `SolveQuery` returns. -/
theorem C132_probabilities_refuted [Field α] [DecidableEq α] (sch : NSched α) {n : Net α} (hn : n.Valid)
    (hp : n.PoliciesOK) {evidence : List (String × String)} (hev : n.EvidenceOK evidence) {query : List String}
    (hq : ∀ q ∈ query, n.Askable q) {u : String}
    (hu : (∃ v ∈ n.stateVars, v.name = u) ∨ u = "" ∧ n.utilityVars = []) (ign : Bool) :
    n.solveUtility sch evidence query u ign = n.solve sch evidence query false "" ign := by
  obtain ⟨vs, fs, ps, deps, h1, hS⟩ := toVE_spec sch 0 hn hp (if ign then evidence else [])
  unfold Net.solveUtility Net.solve Net.enter
  rw [h1]
  dsimp only
  have : solveNamed sch (VE.new vs (fs ++ ps) deps n.solverWeights) n.nameTable evidence query true u =
      solveNamed sch (VE.new vs (fs ++ ps) deps n.solverWeights) n.nameTable evidence query false "" := by
    unfold solveNamed
    rw [mapM_query_known hn hq, mapM_evidence hn (ev_known hev (sch.ev_perm evidence))]
    simp only [ok_bind, if_true, Bool.false_eq_true, if_false]
    have hvs : (VE.new vs (fs ++ ps) deps n.solverWeights).vs.variables = vs.variables := by
      rw [(new_good hS.problem n.solverWeights).1]
    rcases hu with ⟨v, hv, rfl⟩ | ⟨rfl, hnone⟩
    · obtain ⟨hv1, hv2⟩ := mem_stateVars.1 hv
      have hnt := state_notTotal hn hv1 hv2
      have : utilityOf n.nameTable v.name = .ok (some (n.varOf v.name)) := by
        unfold utilityOf
        rw [if_neg (hn.named v hv1), get_state hn hv1 hnt]
      rw [this, ok_bind]
      unfold VE.solveUtility VE.solveQuery VE.solve
      cases h2 : (VE.new vs (fs ++ ps) deps n.solverWeights).eliminateEvidence (sch.ve 0)
          ((sch.ev evidence).map n.solverEv) with
      | error e => rfl
      | ok st =>
        have hst := (eliminateEvidence_keep _ _ _ h2).trans hvs
        simp only [ok_bind, if_true, Bool.false_eq_true, if_false]
        rw [removeUtilities_same _ _ (by rw [hst]; exact hS.problem.ids)
          (by rw [hst]; exact (isVar_state hn hv1 hv2).varOf_mem hS.vars hn)
          (fun h => hv2 ((varOf_utility hn hv1 hnt).1 h))]
    · have : utilityOf n.nameTable "" = .ok none := by
        unfold utilityOf
        rw [if_pos rfl]
      rw [this, ok_bind]
      unfold VE.solveUtility VE.solveQuery VE.solve
      cases h2 : (VE.new vs (fs ++ ps) deps n.solverWeights).eliminateEvidence (sch.ve 0)
          ((sch.ev evidence).map n.solverEv) with
      | error e => rfl
      | ok st =>
        have hst := (eliminateEvidence_keep _ _ _ h2).trans hvs
        have hnil : st.vs.variables.filter (fun x => x.nodeType = .utility) = [] := by
          rw [hst, List.filter_eq_nil_iff]
          intro x hx hxu
          obtain ⟨y, b1, b2, b3⟩ := hS.vars.mem.1 hx
          have hy := List.mem_of_getElem? b1
          have hvo : n.varOf y.name = x := by rw [varOf_eq hn b1 (fun e => b2 e.symm)]; exact b3.symm
          have hyt : y.name ≠ n.totalName := fun e => b2 ((totalName_iff hn b1).1 e).symm
          have : y ∈ n.utilityVars := by
            unfold Net.utilityVars
            exact List.mem_filter.2 ⟨hy, by
              simpa using ⟨(varOf_utility hn hy hyt).1 (by rw [hvo]; simpa using hxu), hyt⟩⟩
          rw [hnone] at this
          cases this
        have hsum : st.sumUtilities (sch.ve 0) = .ok st := by
          unfold VE.sumUtilities
          dsimp only
          rw [hnil]
          rfl
        have hrem : st.removeUtilities (sch.ve 0) none = st := by
          unfold VE.removeUtilities
          have : st.vs.variables.filter (fun x => x.nodeType = .utility ∧ notExcept none x) = [] := by
            rw [← hnil]
            apply List.filter_congr
            intro x _
            simp [notExcept]
          dsimp only
          rw [this]
          rfl
        simp only [ok_bind, if_true, Bool.false_eq_true, if_false]
        rw [hsum, hrem]
        rfl
  rw [this]

/-- **C132, what holds.** Let no evidence be about a utility variable. Then `SolveUtility` returns an error exactly if
some name or outcome is unknown, and an answer in all other cases; it never panics. -/
theorem C132_total_partial [Field α] [DecidableEq α] (sch : NSched α) {n : Net α} (hn : n.Valid)
    (hp : n.PoliciesOK) {evidence : List (String × String)} (keys : (evidence.map Prod.fst).Nodup)
    (noUtility : ∀ e ∈ evidence, ∀ v ∈ n.variables, v.name = e.1 → v.nodeType ≠ .utility) (query : List String)
    (u : String) (ign : Bool) :
    (Errors (n.solveUtility sch evidence query u ign).1 ↔
      (∃ e ∈ evidence, n.BadEvidence e) ∨ (∃ q ∈ query, n.Missing q) ∨ (u ≠ "" ∧ n.Missing u)) ∧
    ((∃ f, (n.solveUtility sch evidence query u ign).1 = .ok f) ↔
      (∀ e ∈ evidence, ¬ n.BadEvidence e) ∧ (∀ q ∈ query, ¬ n.Missing q) ∧ (u ≠ "" → ¬ n.Missing u)) := by
  have h1 := (C36_unknown_names sch hn hp evidence query u ign).2
  have h2 : (∀ e ∈ evidence, ¬ n.BadEvidence e) → (∀ q ∈ query, ¬ n.Missing q) → (u ≠ "" → ¬ n.Missing u) →
      ∃ f, (n.solveUtility sch evidence query u ign).1 = .ok f := by
    intro a b c
    have hev : n.EvidenceOK evidence := by
      refine ⟨keys, fun e he => ?_⟩
      have := a e he
      unfold Net.BadEvidence at this
      push Not at this
      obtain ⟨v, hv, h1, _⟩ := askable_iff.2 this.1
      exact ⟨v, hv, h1, noUtility e he v hv h1, this.2 v hv h1⟩
    have hq : ∀ q ∈ query, n.Askable q := fun q hq => askable_iff.2 (b q hq)
    by_cases hu : u = "" ∧ n.utilityVars ≠ [] ∨ ∃ v ∈ n.utilityVars, v.name = u
    · obtain ⟨g, n', h, _⟩ := C75_solveUtility_exact sch hn hp hev (stateQuery_mem hn hq) hu ign
      refine ⟨g, ?_⟩
      have := solve_stateQuery sch hn hp hev hq true u ign
      change n.solveUtility sch evidence query u ign = n.solveUtility sch evidence (n.stateQuery query) u ign at this
      rw [this, h]
    · rw [C132_probabilities_refuted sch hn hp hev hq (u := u) ?_ ign]
      · obtain ⟨vs, fs, ps, deps, g, vs', h, _⟩ := solve_query_known sch hn hp hev hq ign
        exact ⟨g, by rw [h]⟩
      · push Not at hu
        by_cases hu0 : u = ""
        · exact .inr ⟨hu0, hu.1 hu0⟩
        · obtain ⟨v, hv, rfl, hvt⟩ := askable_iff.2 (c hu0)
          refine .inl ⟨v, mem_stateVars.2 ⟨hv, fun h => ?_⟩, rfl⟩
          exact hu.2 v (List.mem_filter.2 ⟨hv, by simpa using ⟨h, hvt⟩⟩) rfl
  generalize (n.solveUtility sch evidence query u ign).1 = r at h1 h2 ⊢
  by_cases hb : (∃ e ∈ evidence, n.BadEvidence e) ∨ (∃ q ∈ query, n.Missing q) ∨ (u ≠ "" ∧ n.Missing u)
  · obtain ⟨m, rfl⟩ := h1 hb
    refine ⟨⟨fun _ => hb, fun _ => ⟨m, rfl⟩⟩, ?_, ?_⟩
    · rintro ⟨a, h⟩; cases h
    · rintro ⟨a, b, c⟩
      rcases hb with ⟨e, he, h⟩ | ⟨q, hq, h⟩ | ⟨h0, h⟩
      · exact absurd h (a e he)
      · exact absurd h (b q hq)
      · exact absurd h (c h0)
  · have ha : ∀ e ∈ evidence, ¬ n.BadEvidence e := fun e he h => hb (.inl ⟨e, he, h⟩)
    have hm : ∀ q ∈ query, ¬ n.Missing q := fun q hq h => hb (.inr (.inl ⟨q, hq, h⟩))
    have hc : u ≠ "" → ¬ n.Missing u := fun h0 h => hb (.inr (.inr ⟨h0, h⟩))
    obtain ⟨f, rfl⟩ := h2 ha hm hc
    refine ⟨⟨?_, fun h => absurd h hb⟩, fun _ => ⟨ha, hm, hc⟩, fun _ => ⟨f, rfl⟩⟩
    rintro ⟨m, h⟩; cases h

/-- The "utility" of the weather is the probability of the forecasts. -/
example : Ex.umb.solveUtility Ex.back [] [] "Weather" false = Ex.umb.solve Ex.back [] [] false "" false ∧
    (Ex.umb.solveUtility (Ex.norder false) [] [] "Weather" false).1.toOption.map Factor.data = some [59/100, 41/100] :=
  ⟨C132_probabilities_refuted Ex.back Ex.umb_valid (Ex.noPolicies rfl) ⟨by simp, by simp⟩ (by simp)
    (.inl ⟨_, mem_stateVars.2 ⟨List.mem_of_getElem? (i := 0) rfl, by decide⟩, rfl⟩) false, by decide +kernel⟩

/-- The expected comfort for an observed forecast; the total-utility node has no utility of its own. -/
example : (∃ f, (Ex.umb.solveUtility Ex.back [("Forecast", "bad")] ["Umbrella", "Effort"] "Comfort" false).1 = .ok f) ∧
    Errors (Ex.umb.solveUtility Ex.back [("Forecast", "bad")] ["Umbrella", "Effort"] "Total" false).1 := by
  have key := fun u => C132_total_partial (sch := Ex.back) (evidence := [("Forecast", "bad")]) Ex.umb_valid
    (Ex.noPolicies rfl) (by decide) (by decide) ["Umbrella", "Effort"] u false
  refine ⟨(key _).2.2 ⟨?_, ?_, fun _ => ?_⟩, (key _).1.2 (.inr (.inr ⟨by decide, .inr rfl⟩))⟩
  · unfold Net.BadEvidence Net.Missing; decide
  · unfold Net.Missing; decide
  · unfold Net.Missing; decide

end Bbn
