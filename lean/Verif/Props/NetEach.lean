import Verif.Lemmas.BestNodes
import Verif.Props.NetOptimal
import Verif.Props.NetStepwise
import Verif.Spec.Each

/-!
# Decisions solved together: each policy answers the later ones in the best way
-/

set_option autoImplicit false

namespace Bbn

open Finset

variable {α : Type} [Field α] [LinearOrder α] [IsStrictOrderedRing α]

section
variable {n : Net α} {vs : Vs} {fs ps : List (Factor α)} {deps : List (Var × List Var)} (hn : n.Valid)
  (hp : n.policies = []) (hS : Solver n [] vs fs ps deps)

include hn hp hS

omit [IsStrictOrderedRing α] in
/-- The solver's variables that are not known to some decisions. -/
theorem unknownTo_vars {ds : List String} (hds : ∀ d ∈ ds, n.isKind .decision d = true) {K : List Var}
    (hK : ∀ v, Known deps K v ↔ Known deps (ds.map n.varOf) v) :
    (vs.variables.filter (fun v => v.nodeType ≠ .utility ∧ ¬ Known deps K v)).Perm
      ((n.unknownTo ds).map (fun v => n.varOf v.name)) := by
  have hp1 : (vs.variables.filter (fun v => v.nodeType ≠ .utility)).Perm n.stateSolver := by
    rw [List.perm_ext_iff_of_nodup]
    · intro x
      rw [mem_stateSolver hn hS.vars]
      simp
    · exact (List.Nodup.of_map _ hS.vars.ids).filter _
    · exact List.Nodup.of_map _ (stateSolver_ids hn)
  have hp2 := hp1.filter (fun v => decide (¬ Known deps K v))
  rw [List.filter_filter] at hp2
  have e1 : vs.variables.filter (fun v => v.nodeType ≠ .utility ∧ ¬ Known deps K v) =
      vs.variables.filter (fun v => decide (¬ Known deps K v) && decide (v.nodeType ≠ .utility)) := by
    refine List.filter_congr (fun v _ => ?_)
    rw [Bool.eq_iff_iff]
    simp only [decide_eq_true_eq, Bool.and_eq_true]
    exact and_comm
  rw [e1]
  refine hp2.trans (List.Perm.of_eq ?_)
  unfold Net.stateSolver Net.unknownTo
  rw [List.filter_map]
  congr 1
  refine List.filter_congr (fun v hv => ?_)
  obtain ⟨h1, h2⟩ := mem_stateVars.1 hv
  simp only [Function.comp_def, decide_eq_decide]
  rw [hK, known_iff hn hp hS hds (isVar_state hn h1 h2)]

omit [IsStrictOrderedRing α] in
/-- The solver's sums over all that is not known to some decisions. -/
theorem each_world {ds : List String} (hds : ∀ d ∈ ds, n.isKind .decision d = true) {K : List Var}
    (hK : ∀ v, Known deps K v ↔ Known deps (ds.map n.varOf) v) (hpo : n.PoliciesOK) {G : Assignment → α} {g : World → α}
    (hG : ∀ w, n.Allowed w → G (n.ids w) = g w) {w : World} (hw : n.FitsAll w) :
    sumOver (vs.variables.filter (fun v => v.nodeType ≠ .utility ∧ ¬ Known deps K v)) (fun τ =>
      joint ((fs ++ ps).filter (fun f => !f.isUtility)) τ * totalUtility vs.variables (fs ++ ps) n.solverWeights τ * G τ)
      (n.ids w) = sumWorlds (n.unknownTo ds) (fun w => (n.chanceTables.map (fun f => n.prob f w)).prod * g w * n.totalIn w) w := by
  rw [sumOver_perm (unknownTo_vars hn hp hS hds hK) (hS.vars.ids.sublist (List.filter_sublist.map _))]
  symm
  have hsub : ∀ v ∈ n.unknownTo ds, v ∈ n.stateVars := fun v hv => (List.mem_filter.1 hv).1
  apply sumWorlds_eq hn
  · exact fun v hv => mem_stateVars.1 (hsub v hv)
  · exact (stateVars_names hn).sublist (List.filter_sublist.map _)
  · intro w' h1 h2
    have hfit : n.FitsAll w' := by
      intro v hv
      by_cases hu : v.name ∈ (n.unknownTo ds).map NVar.name
      · obtain ⟨u, hu1, hu2⟩ := List.mem_map.1 hu
        have := name_unique hn (mem_stateVars.1 (hsub u hu1)).1 hv hu2
        exact this ▸ h1 u hu1
      · rw [h2 _ hu]; exact hw v hv
    have hj := joint_world hn hpo (pols := []) (by simp) hS (w := w') hfit.state
    unfold probTables Net.joint at hj
    rw [hj, totalUtility_world hn hpo (by simp) hS hfit, hG w' hfit.state]
    simp
    ring

end

/-- **C156.** Decisions solved together (or a single one): in some order of the decisions that respects the declared
order, whatever happened before, each decision takes only options that are best against the policies of the later
decisions, as far as can be told from what this and the earlier decisions know. -/
theorem C156_answer (sch : NSched α) {n : Net α} (hn : n.Valid)
    (hs : n.Solvable) (hd : n.decisions ≠ []) (hnn : ∀ f ∈ n.chanceTables, ∀ x ∈ f.tab, 0 ≤ x)
    (hm : ∀ order, order.Perm n.decisions → n.Ordered order → ∀ A d B, order = A ++ d :: B → n.Matters (A ++ [d]) d)
    {stepwise : Bool} (hone : stepwise = true → n.decisions.length = 1) :
    ∃ tables n' order, n.solvePolicies sch stepwise = (.ok tables, n') ∧ order.Perm n.decisions ∧ n.Ordered order ∧
      (n.Ordered n.decisions → order = n.decisions) ∧
      ∀ A d B, order = A ++ d :: B → n.Strategy A d (n.byTables tables d) ∧
        ∀ w : World, (∀ v ∈ n.variables, w v.name < v.outcomes.length) → n.byTables tables d w ≠ 0 → ∀ k < n.count d,
          n.worthAmong (n.byTables tables) A B d (w.set d k) ≤ n.worthAmong (n.byTables tables) A B d w := by
  obtain ⟨tables, n', h1, h2, h3, h4, h5, h6, ⟨vs0, names0, pols0, h7⟩, h8, _, _, _⟩ :=
    solvePolicies_net sch hn (fun _ => hs.toFeasible) stepwise
  obtain ⟨vs, fs, deps, solved, st', hT⟩ := together sch hn hs hd hone h1
  set N : Net α := { n with policies := [] } with hN
  obtain ⟨hNv, hNp, hpo, hS, hu, hdo, hac, hsol, hstore, hback, hperm, htab, hval⟩ := hT
  obtain ⟨o1, o2, o3⟩ := C28_order (sch.ve 0) hS.problem N.solverWeights hac hsol
  have hname : ∀ s, n.isKind .decision s = true → N.nameAt (N.varOf s) = s :=
    fun s h => nameAt_varOf hNv (decision_isVar hNv h)
  have hsplit : ∀ A p B, solved = A ++ p :: B →
      ((solved.map (fun p => p.1)).map N.nameAt).reverse =
        ((B.map (fun p => p.1)).reverse.map N.nameAt) ++ N.nameAt p.1 :: ((A.map (fun p => p.1)).reverse.map N.nameAt) := by
    intro A p B hl
    rw [hl]; simp
  have hunsplit : ∀ A d B, ((solved.map (fun p => p.1)).map N.nameAt).reverse = A ++ d :: B →
      ∃ A' p B', solved = A' ++ p :: B' ∧ A = (B'.map (fun p => p.1)).reverse.map N.nameAt ∧ d = N.nameAt p.1 ∧
        B = (A'.map (fun p => p.1)).reverse.map N.nameAt := by
    intro A d B hl
    have hl2 : (solved.map (fun p => p.1)).map N.nameAt = B.reverse ++ d :: A.reverse := by
      rw [← List.reverse_reverse (List.map _ _), hl]; simp
    rw [List.map_map] at hl2
    obtain ⟨A', r, hA, hA', hr⟩ := List.map_eq_append_iff.1 hl2
    obtain ⟨p, B', hr2, hp2, hB⟩ := List.map_eq_cons_iff.1 hr
    refine ⟨A', p, B', by rw [hA, hr2], ?_, hp2.symm, ?_⟩
    · rw [← List.reverse_reverse A, ← hB, List.map_reverse, List.map_map]
    · rw [← List.reverse_reverse B, ← hA', List.map_reverse, List.map_map]
  -- the declared order
  have hord : n.Ordered ((solved.map (fun p => p.1)).map N.nameAt).reverse := by
    intro A d B hl p hpd
    obtain ⟨A', q, B', hl', rfl, rfl, _⟩ := hunsplit A d B hl
    have hqm : q ∈ solved := by rw [hl']; simp
    have := o3 (B'.map (fun p => p.1)).reverse q.1 (A'.map (fun p => p.1)).reverse (by rw [hl']; simp) (N.varOf p) (by
      obtain ⟨k1, k2, f, hf, k3, k4⟩ := hpd
      have hb := hback q.1 (List.mem_map_of_mem hqm)
      refine ⟨N.depEntry f, ?_, ?_, List.mem_map_of_mem k4, varOf_decision hNv hNp k1⟩
      · rw [hS.deps_eq]
        refine List.mem_map_of_mem (List.mem_filter.2 ⟨hf, ?_⟩)
        rw [no_policies_open hNp, k3]; exact hb.2
      · show (N.varOf f.forVar).id = q.1.id
        rw [k3, hb.1])
    refine List.mem_map.2 ⟨N.varOf p, this, hname p hpd.1⟩
  -- names of a part of the solved decisions
  have hpart : ∀ l : List (Var × Factor α × Factor α), (∀ p ∈ l, p ∈ solved) →
      (∀ e ∈ (l.map (fun p => p.1)).reverse.map N.nameAt, n.isKind .decision e = true) ∧
      ((l.map (fun p => p.1)).reverse.map N.nameAt).map N.varOf = (l.map (fun p => p.1)).reverse := by
    intro l hl
    constructor
    · intro e he
      obtain ⟨x, hx, rfl⟩ := List.mem_map.1 he
      obtain ⟨p, hp, rfl⟩ := List.mem_map.1 (List.mem_reverse.1 hx)
      exact (hback p.1 (List.mem_map_of_mem (hl p hp))).2
    · rw [List.map_map]
      conv_rhs => rw [← List.map_id (l.map (fun p => p.1)).reverse]
      apply List.map_congr_left
      intro x hx
      obtain ⟨p, hp, rfl⟩ := List.mem_map.1 (List.mem_reverse.1 hx)
      exact (hback p.1 (List.mem_map_of_mem (hl p hp))).1
  have hlk : ∀ A p B, solved = A ++ p :: B →
      Linked (fs ++ []) (Unknown vs.variables deps (p.1 :: B.map (fun p => p.1))) p.1.id := by
    intro A p B hl
    have hpm : p ∈ solved := by rw [hl]; simp
    obtain ⟨c1, c2⟩ := hpart (B ++ [p]) (by
      intro q hq
      rw [hl]
      simp only [List.mem_append, List.mem_cons] at hq ⊢
      tauto)
    have hb := hback p.1 (List.mem_map_of_mem hpm)
    have hmat : ∀ ds s, n.Matters ds s → N.Matters ds s := by
      intro ds s h
      induction h with
      | utility hf hu ht hs => exact .utility hf hu ht hs
      | chance hf hu hc hk _ hs ih => exact .chance hf hu hc hk ih hs
    have hl1 := linked_of hNv hNp hS (ds := ((B ++ [p]).map (fun p => p.1)).reverse.map N.nameAt) c1
      (by intro d hd; simp only [List.map_append, List.map_cons, List.map_nil, List.reverse_append, List.reverse_cons,
            List.reverse_nil, List.nil_append, List.cons_append, List.mem_cons, List.mem_append, List.not_mem_nil,
            or_false] at hd ⊢
          exact hd.symm)
      (hmat _ _ (hm _ ((List.reverse_perm _).trans hperm) hord _ _ _ (hsplit A p B hl)))
    rw [c2, hb.1] at hl1
    have : (fun i => Unknown vs.variables deps ((B ++ [p]).map (fun p => p.1)).reverse i) =
        Unknown vs.variables deps (p.1 :: B.map (fun p => p.1)) := by
      funext i
      unfold Unknown
      have : ∀ v, Known deps ((B ++ [p]).map (fun p => p.1)).reverse v ↔ Known deps (p.1 :: B.map (fun p => p.1)) v :=
        fun v => ⟨Known.mono (by intro x hx; simpa using hx), Known.mono (by intro x hx; simpa using hx)⟩
      simp only [this]
    rw [← this]
    exact hl1
  have b1 := solver_known (sch.ve 0) hS.problem (fun _ => hu) hdo hac hsol
  refine ⟨tables, n', ((solved.map (fun p => p.1)).map N.nameAt).reverse, h1, (List.reverse_perm _).trans hperm, ?_, ?_, ?_⟩
  · exact hord
  · -- the listed order
    intro ho
    have hl := solver_listed (sch.ve 0) hS.problem N.solverWeights (topo_listed hNv hS ho) hsol
    have hopen : N.openDecisions = n.variables.filter (fun v => v.nodeType = .decision) := by
      unfold Net.openDecisions
      apply List.filter_congr
      intro v _
      simp [Net.hasPolicy, hNp, mapGet]
    rw [if_neg (by simp), decisionVars_open hNv hS, hopen] at hl
    rw [hl, ← List.map_reverse, List.reverse_reverse, List.map_map]
    unfold Net.decisions
    apply List.map_congr_left
    intro v hv
    refine hname v.name (mem_decisions.1 ?_)
    exact List.mem_map_of_mem hv
  · -- strategies
    intro A d B hl
    obtain ⟨A', p, B', hl', rfl, rfl, rfl⟩ := hunsplit A d B hl
    have hpm : p ∈ solved := by rw [hl']; simp
    obtain ⟨c3, c4⟩ := b1 A' p B' hl'
    have hsub : ∀ q ∈ B', q ∈ solved := fun q hq => by rw [hl']; simp [hq]
    obtain ⟨e1, e2⟩ := hpart B' hsub
    have hb := hback p.1 (List.mem_map_of_mem hpm)
    have hkn : ∀ v ∈ p.2.2.vars, v ∈ vs.variables ∧
        Known deps (((B'.map (fun p => p.1)).reverse.map N.nameAt ++ [N.nameAt p.1]).map N.varOf) v := by
      intro v hv
      obtain ⟨k1, k2⟩ := c3 v hv
      refine ⟨k1, Known.mono ?_ k2⟩
      rw [List.map_append, e2, List.map_singleton, hb.1]
      intro x hx
      simp only [List.mem_cons, List.mem_append, List.mem_reverse, List.not_mem_nil, or_false] at hx ⊢
      exact hx.symm
    refine ⟨?_, ?_⟩
    · have := policy_strategy hNv hNp hS (ds := (B'.map (fun p => p.1)).reverse.map N.nameAt) (d := N.nameAt p.1)
        e1 hb.2 hkn (by rw [e2, hb.1]; exact c4)
      have h' : n.Strategy ((B'.map (fun p => p.1)).reverse.map N.nameAt) (N.nameAt p.1) (fun w => p.2.2.val (N.ids w)) :=
        ⟨this.nonneg, this.one, this.known⟩
      exact h'.congr hn (fun w hw => (hval p hpm w hw).symm)
    · intro w hw hne k hk
      have hvar := decision_isVar hNv hb.2
      have hfits : Fits (N.ids w) vs.variables := fits_solver hS.vars hw (fun _ h => h)
      have hinr : n.Allowed w := fun v hv => hw v (mem_stateVars.1 hv).1
      have := solvePolicies_each (sch.ve 0) hS.problem hu hdo hac (by
        intro f hf hu
        rw [List.append_nil] at hf
        exact tables_nonneg hNv hS hnn hf hu) hsol hlk hl' hfits (utility_zero hu hfits)
        (by rw [hval p hpm w hinr]; exact hne) (k := k) (by rw [← hb.1, hvar.outcomes hNv]; exact hk)
      have hw2 : N.FitsAll (w.set (N.nameAt p.1) k) := by
        intro v hv
        unfold World.set
        split_ifs with e
        · rw [← count_eq hNv hv, e]; exact hk
        · exact hw v hv
      have hids : (N.ids w).upd p.1.id k = N.ids (w.set (N.nameAt p.1) k) := by
        rw [ids_set hNv hvar, hb.1]
      have hds : ∀ e ∈ (B'.map (fun p => p.1)).reverse.map N.nameAt ++ [N.nameAt p.1], N.isKind .decision e = true := by
        intro e he
        rcases List.mem_append.1 he with he | he
        · exact e1 e he
        · rw [List.mem_singleton.1 he]; exact hb.2
      have hK : ∀ v, Known deps (p.1 :: B'.map (fun p => p.1)) v ↔
          Known deps (((B'.map (fun p => p.1)).reverse.map N.nameAt ++ [N.nameAt p.1]).map N.varOf) v := by
        intro v
        rw [List.map_append, e2, List.map_singleton, hb.1]
        constructor <;>
        · refine Known.mono (fun x hx => ?_)
          simp only [List.mem_cons, List.mem_append, List.mem_reverse, List.not_mem_nil, or_false] at hx ⊢
          exact hx.symm
      have hG : ∀ w, n.Allowed w → (A'.map (fun p => p.2.2.val (N.ids w))).prod =
          (((A'.map (fun p => p.1)).reverse.map N.nameAt).map (fun e => n.byTables tables e w)).prod := by
        intro w hw
        rw [List.map_reverse, List.map_reverse, List.prod_reverse, List.map_map, List.map_map]
        congr 1
        refine List.map_congr_left (fun q hq => ?_)
        exact hval q (by rw [hl']; simp [hq]) w hw
      have hsum := fun w (hw : N.FitsAll w) => each_world hNv hNp hS hds hK hpo (G := fun τ => (A'.map (fun p : Var × Factor α × Factor α => p.2.2.val τ)).prod)
        (g := fun w => (((A'.map (fun p : Var × Factor α × Factor α => p.1)).reverse.map N.nameAt).map (fun e => n.byTables tables e w)).prod) hG hw
      rw [hids, hsum _ hw2, hsum _ hw] at this
      exact this

/-- In the letter network, solved together, the second decision never acts on the wrong letter: it uses what only the
first decision knows. -/
example (sch : NSched ℚ) : ∃ tables n', Ex.letter.solvePolicies sch false = (.ok tables, n') ∧
    ∀ f < 2, Ex.letter.byTables tables "Act" (Ex.W 0 f 1) = 0 ∧ Ex.letter.byTables tables "Act" (Ex.W 1 f 0) = 0 := by
  obtain ⟨tables, n', order, h1, h2, h3, _, h4⟩ := C156_answer sch Ex.letter_valid Ex.letter_solvable (by decide) (by decide)
    (matters_order Ex.letter_matters) (stepwise := false) (by simp)
  obtain rfl := Ex.letter_order h2 h3
  refine ⟨tables, n', h1, fun f hf => ?_⟩
  have hbest := (h4 ["File"] "Act" [] rfl).2
  have hok : ∀ l < 2, ∀ f < 2, ∀ a < 2, ∀ v ∈ Ex.letter.variables, Ex.W l f a v.name < v.outcomes.length := by decide
  generalize Ex.letter.byTables tables = δ at hbest
  have hlt : ∀ f < 2, Ex.letter.worthAmong (fun _ _ => 1) ["File"] [] "Act" (Ex.W 0 f 1) <
        Ex.letter.worthAmong (fun _ _ => 1) ["File"] [] "Act" ((Ex.W 0 f 1).set "Act" 0) ∧
      Ex.letter.worthAmong (fun _ _ => 1) ["File"] [] "Act" (Ex.W 1 f 0) <
        Ex.letter.worthAmong (fun _ _ => 1) ["File"] [] "Act" ((Ex.W 1 f 0).set "Act" 1) := by decide +kernel
  constructor
  · by_contra hne
    exact absurd (hlt f hf).1 (not_lt.2 (hbest _ (hok 0 (by decide) f hf 1 (by decide)) hne 0 (by decide)))
  · by_contra hne
    exact absurd (hlt f hf).2 (not_lt.2 (hbest _ (hok 1 (by decide) f hf 0 (by decide)) hne 1 (by decide)))

end Bbn
