import Verif.Lemmas.NetPolicies
import Verif.Lemmas.Listed
import Verif.Spec.NetOptimal

/-!
# Decisions listed after their decision parents are solved from the last listed to the first
-/

set_option autoImplicit false

namespace Bbn

variable {α : Type}

/-- The solver keeps the listed order. -/
theorem solver_listed [Field α] [LinearOrder α] (sch : Sched α) {vs : Vs} {fs : List (Factor α)}
    {deps : List (Var × List Var)} (hp : Problem vs fs deps) (weights : Option (List α))
    (ho : TopoOrdered deps (decisionVars vs.variables)) {single : Bool}
    {ps : List (Var × Factor α × Factor α)} {st' : VE α}
    (h : (VE.new vs fs deps weights).solvePolicies sch single = .ok (some ps, st')) :
    ps.map (fun p => p.1) = if single then (decisionVars vs.variables).reverse.take 1 else (decisionVars vs.variables).reverse := by
  obtain ⟨decs, t, st1, st2, i1, _, _, _, i5⟩ := solvePolicies_inv sch h
  rw [solve_list_order sch single _ st2 i5]
  obtain ⟨t', h'⟩ := sortTopological_listed sch (dec := decisionVars vs.variables) ((List.Nodup.of_map _ hp.ids).filter _) ho (VE.new vs fs deps weights).tick
  unfold VE.getDecisions at i1
  have e : sortTopological sch (decisionVars vs.variables) deps (VE.new vs fs deps weights).tick = .ok (decs, t) := i1
  rw [h'] at e
  rw [(Prod.mk.inj (Except.ok.inj e)).1]

section
variable [Field α] [LinearOrder α] {n : Net α} (hn : n.Valid) {pols : List (String × Factor α)} {vs : Vs}
  {fs ps : List (Factor α)} {deps : List (Var × List Var)} (hS : Solver n pols vs fs ps deps)
include hn hS

/-- The solver's decisions are the network's open decisions, in the listed order. -/
theorem decisionVars_open : decisionVars vs.variables = n.openDecisions.map (fun v => n.varOf v.name) := by
  rw [hS.vars.vars_eq]
  unfold decisionVars Net.openDecisions
  have key : ∀ (l pre : List NVar), n.variables = pre ++ l →
      ((n.solverVars pre.length l).map Prod.snd).filter (fun v => v.nodeType = .decision) =
        (l.filter (fun v => v.nodeType = .decision ∧ n.hasPolicy v.name = false)).map (fun v => n.varOf v.name) := by
    intro l
    induction l with
    | nil => intro pre _; rfl
    | cons v l ih =>
      intro pre hl
      have ih := ih (pre ++ [v]) (by rw [hl]; simp)
      rw [List.length_append, List.length_singleton] at ih
      have hv : n.variables[pre.length]? = some v := by rw [hl]; simp
      have hvm := List.mem_of_getElem? hv
      unfold Net.solverVars
      by_cases ht : some pre.length = n.totalUtility
      · rw [if_pos ht, ih, List.filter_cons_of_neg]
        have := total_utility hn hvm ((totalName_iff hn hv).2 ht.symm)
        simp [this]
      · rw [if_neg ht, List.map_cons]
        have hty : (n.solverVar pre.length v).nodeType = n.solverType v := rfl
        by_cases hd : v.nodeType = .decision ∧ n.hasPolicy v.name = false
        · rw [List.filter_cons_of_pos (by
            rw [hty]; unfold Net.solverType; rw [if_neg (by simp [hd.2])]; simp [hd.1]),
            List.filter_cons_of_pos (by simpa using hd), List.map_cons, ih, varOf_eq hn hv (fun e => ht e.symm)]
        · rw [List.filter_cons_of_neg (a := n.solverVar pre.length v), List.filter_cons_of_neg (by simpa using hd), ih]
          rw [hty]; unfold Net.solverType
          simp only [decide_eq_true_eq]
          intro h
          split_ifs at h with hc
          exact hd ⟨h, by
            cases hh : n.hasPolicy v.name with
            | false => rfl
            | true => exact absurd ⟨h, hh⟩ hc⟩
  exact key n.variables [] rfl

/-- Decisions listed after their decision parents are so for the solver. -/
theorem topo_listed (ho : n.Ordered n.decisions) : TopoOrdered deps (decisionVars vs.variables) := by
  intro l1 x l2 hl p hp
  rw [decisionVars_open hn hS] at hl
  obtain ⟨O1, O', hO, rfl, hO'⟩ := List.map_eq_append_iff.1 hl
  obtain ⟨u, O2, rfl, rfl, rfl⟩ := List.map_eq_cons_iff.1 hO'
  have hum : u ∈ n.openDecisions := by rw [hO]; simp
  simp only [Net.openDecisions, List.mem_filter, decide_eq_true_eq] at hum
  obtain ⟨y, z, k1, k2, k3⟩ := decEdge_parent hn hS hp
  obtain ⟨i, hi⟩ := List.getElem?_of_mem hum.1
  have hit : n.totalUtility ≠ some i := fun e => by
    have := total_utility hn hum.1 ((totalName_iff hn hi).2 e)
    rw [hum.2.1] at this; exact absurd this (by decide)
  rw [varOf_eq hn hi hit] at k2
  obtain rfl : u = z := Option.some.inj (hi.symm.trans k2)
  obtain ⟨e, he, _, hpe, hpd⟩ := hp
  obtain ⟨y', j1, j2, j3⟩ := hS.vars.mem.1 ((hS.problem.depVars e he).2 p hpe)
  obtain rfl : y = y' := Option.some.inj (k1.symm.trans j1)
  have hyo : n.hasPolicy y.name = false ∧ y.nodeType = .decision := by
    rw [j3] at hpd
    have hpd : n.solverType y = .decision := hpd
    unfold Net.solverType at hpd
    split_ifs at hpd with hc
    refine ⟨?_, hpd⟩
    cases hh : n.hasPolicy y.name with
    | false => rfl
    | true => exact absurd ⟨hpd, hh⟩ hc
  have hopen : n.openDecisions = (n.variables.filter (fun v => v.nodeType = .decision)).filter
      (fun v => n.hasPolicy v.name = false) := by
    rw [List.filter_filter]
    unfold Net.openDecisions
    apply List.filter_congr
    intro v _
    rw [Bool.decide_and, Bool.and_comm]
  rw [hopen] at hO
  obtain ⟨A, A', hA, rfl, hA'⟩ := List.filter_eq_append_iff.1 hO
  obtain ⟨B1, B2, rfl, hB1, _, _⟩ := List.filter_eq_cons_iff.1 hA'
  have hdl : n.decisions = (A ++ B1).map NVar.name ++ u.name :: B2.map NVar.name := by
    unfold Net.decisions
    rw [hA]; simp
  have := ho _ _ _ hdl _ k3
  obtain ⟨y', hy', ey⟩ := List.mem_map.1 this
  have hy'm : y' ∈ n.variables.filter (fun v => v.nodeType = .decision) := by
    rw [hA, ← List.append_assoc]; exact List.mem_append.2 (.inl hy')
  obtain rfl := name_unique hn (List.mem_filter.1 hy'm).1 (List.mem_of_getElem? j1) ey
  rcases List.mem_append.1 hy' with h | h
  · refine List.mem_map.2 ⟨y', List.mem_filter.2 ⟨h, by simpa using hyo.1⟩, ?_⟩
    rw [varOf_eq hn j1 (fun e => j2 e.symm)]; exact j3.symm
  · exact absurd hyo.1 (by simpa using hB1 y' h)

end

end Bbn
