import Verif.Props.NetStepwise
import Verif.Lemmas.PolicyDet

/-!
# Policies take exactly the best outcomes, evenly
-/

set_option autoImplicit false

namespace Bbn

open Finset

variable {α : Type} [Field α] [LinearOrder α] [IsStrictOrderedRing α]

/-- **C150.** Decisions solved one after another: in every world that can occur if the later decisions follow their policies,
the policy of a decision takes exactly the outcomes that are worth most to it, all with the same probability. -/
theorem C150_stepwise (sch : NSched α) {n : Net α} (hn : n.Valid)
    (hs : (∃ s, n.isKind .decision s = true) → n.Solvable) (hnn : ∀ f ∈ n.chanceTables, ∀ x ∈ f.tab, 0 ≤ x) :
    ∃ tables n' order, n.solvePolicies sch true = (.ok tables, n') ∧ order.Perm n.decisions ∧ n.Ordered order ∧
      (n.Ordered n.decisions → order = n.decisions) ∧
      ∀ A d B, order = A ++ d :: B → n.Matters [d] d →
        ∀ w : World, (∀ v ∈ n.variables, w v.name < v.outcomes.length) →
          (n.chanceTables.map (fun f => n.prob f w)).prod ≠ 0 → (B.map (fun e => n.byTables tables e w)).prod ≠ 0 →
          ∀ k < n.count d, n.byTables tables d (w.set d k) =
            let best := bestOutcomes (n.count d) (fun c => n.worthTo (n.byTables tables) B d (w.set d c))
            if k ∈ best then 1 / (best.length : α) else 0 := by
  obtain ⟨tables, n', h1, h2, h3, h5, h4⟩ := stepwise_order sch hn hs
  have h4' := fun A p B e => (h4 A p B e).toNextAfter
  obtain ⟨o1, o2⟩ := ordered_of_next hn h2 h4'
  refine ⟨tables, n', (n'.policies.map Prod.fst).reverse, h1, (List.reverse_perm _).trans h2, o1, o2, ?_⟩
  intro A d B e hm w hw hp1 hp2 k hk
  obtain ⟨X, q, Y, e2, rfl, hX, _⟩ := known_of_next h2 h4' e
  have hall : n.Allowed w := fun v hv => hw v (mem_stateVars.1 hv).1
  have hset : ∀ c < n.count q.1, n.Allowed (w.set q.1 c) := by
    intro c hc v hv
    unfold World.set
    split_ifs with e
    · rw [← count_eq hn (mem_stateVars.1 hv).1, e]; exact hc
    · exact hall v hv
  have hq : q ∈ n'.policies := by rw [e2]; simp
  have hvX : ∀ p ∈ X, ∀ w, n.Allowed w → p.2.val (n.ids w) = n.byTables tables p.1 w :=
    fun p hp => h3 p (by rw [e2]; simp [hp])
  have hl : B.Perm (X.map Prod.fst) := by rw [hX]; exact (List.reverse_perm B).symm
  have := (h4 X q Y e2).even hnn hm w hw (by
    unfold Net.joint
    refine mul_ne_zero hp1 ?_
    rw [(hl.map (fun e => n.byTables tables e w)).prod_eq, List.map_map] at hp2
    rwa [List.map_congr_left (fun p hp => hvX p hp w hall)]) k hk
  rw [h3 q hq _ (hset k hk)] at this
  rw [this, bestOutcomes_congr (fun c hc => worthPols_tables hn hvX hl (hset c hc))]

/-- **C150.** If all decisions are solved together, or there is only one: in every world that can occur, the policy of the
decision taken last takes exactly the outcomes that are worth most, all with the same probability. -/
theorem C150_together (sch : NSched α) {n : Net α} (hn : n.Valid)
    (hs : n.Solvable) (hd : n.decisions ≠ []) (hnn : ∀ f ∈ n.chanceTables, ∀ x ∈ f.tab, 0 ≤ x)
    (hm : ∀ d ∈ n.decisions, n.Matters n.decisions d) {stepwise : Bool}
    (hone : stepwise = true → n.decisions.length = 1) :
    ∃ tables n' d t, n.solvePolicies sch stepwise = (.ok tables, n') ∧ d ∈ n.decisions ∧ (d, t) ∈ tables ∧
      (∀ e, ¬ n.DecisionParent d e) ∧
      ∀ w : World, (∀ v ∈ n.variables, w v.name < v.outcomes.length) →
        (n.chanceTables.map (fun f => n.prob f w)).prod ≠ 0 → ∀ k < n.count d, n.entry t (w.set d k) =
          let best := bestOutcomes (n.count d) (fun c => n.worth n.decisions (w.set d c))
          if k ∈ best then 1 / (best.length : α) else 0 := by
  obtain ⟨tables, n', h1, h2, h3, h4, _⟩ := solvePolicies_net sch hn (fun _ => hs.toFeasible) stepwise
  obtain ⟨vs, fs, deps, solved, st', hT⟩ := together sch hn hs hd hone h1
  set N : Net α := { n with policies := [] } with hN
  obtain ⟨hNv, hNp, hpo, hS, hu, hdo, hac, hsol, hstore, hback, hperm, htab, hval⟩ := hT
  have hkind : ∀ d ∈ n.decisions, N.isKind .decision d = true := fun d hd => mem_decisions.1 hd
  have hall : (decisionVars vs.variables).Perm (n.decisions.map N.varOf) := by
    obtain ⟨o1, o2, _⟩ := C28_order (sch.ve 0) hS.problem N.solverWeights hac hsol
    refine o1.symm.trans ?_
    have := hperm.map N.varOf
    rw [List.map_map] at this
    refine List.Perm.trans (List.Perm.of_eq ?_) this
    conv_lhs => rw [← List.map_id (solved.map (fun p => p.1))]
    apply List.map_congr_left
    intro x hx
    exact (hback x hx).1.symm
  have hun : unseen vs.variables deps (decisionVars vs.variables) = unseen vs.variables deps (n.decisions.map N.varOf) := by
    unfold unseen
    apply List.filter_congr
    intro v _
    have : Known deps (decisionVars vs.variables) v ↔ Known deps (n.decisions.map N.varOf) v :=
      ⟨Known.mono (fun x hx => hall.subset hx), Known.mono (fun x hx => hall.symm.subset hx)⟩
    simp only [this]
  match hsv : solved, hsol, hback, hperm, htab, hval with
  | [], _, _, hperm, _, _ =>
    simp only [List.map_nil, List.nil_perm] at hperm
    exact absurd hperm hd
  | p :: ps, hsol, hback, hperm, htab, hval =>
    obtain ⟨hb1, hb2⟩ := hback p.1 (by simp)
    have hlink : Linked (fs ++ []) (fun i => ∃ v ∈ unseen vs.variables deps (decisionVars vs.variables), v.id = i) p.1.id := by
      have hmat : ∀ s, n.Matters n.decisions s → N.Matters n.decisions s := by
        intro s h
        induction h with
        | utility hf hu ht hs => exact .utility hf hu ht hs
        | chance hf hu hc hk _ hs ih => exact .chance hf hu hc hk ih hs
      have := linked_gen hNv hS (H := fun i => ∃ v ∈ unseen vs.variables deps (decisionVars vs.variables), v.id = i)
        (all := n.decisions) ?_ (hmat _ (hm _ (mem_decisions.2 hb2)))
      · rw [hb1] at this; exact this
      · intro f hf u hu huv hc hk
        refine ⟨N.varOf u, ?_, rfl⟩
        rw [hun]
        obtain ⟨v, hv, rfl, hvt⟩ := isKind_mem.1 hc
        refine (unseen_vars hNv hNp hS hkind).symm.subset (List.mem_map_of_mem (f := fun v : NVar => N.varOf v.name)
          (List.mem_filter.2 ⟨hv, ?_⟩))
        simp only [decide_eq_true_eq]
        exact ⟨hvt, hk⟩
    obtain ⟨c1, c2, c3⟩ := solvePolicies_exact (sch.ve 0) hS.problem hu hdo hac (single := false)
      (ds := decisionVars vs.variables) hsol (by simp)
    obtain ⟨t, ht, hte, hdm, hv⟩ := htab p (by simp)
    refine ⟨tables, n', N.nameAt p.1, t.2, h1, mem_decisions.2 hb2, by rw [← hte]; exact ht, ?_, ?_⟩
    · intro e ⟨k1, k2, f, hf, k3, k4⟩
      refine c2 (N.varOf e) ((decision_vars hNv hNp hS).2 ⟨e, k2, rfl⟩) ⟨N.depEntry f, ?_, ?_, ?_, ?_⟩
      · rw [hS.deps_eq]
        refine List.mem_map_of_mem (List.mem_filter.2 ⟨hf, ?_⟩)
        rw [no_policies_open hNp, k3]; exact k2
      · show (N.varOf f.forVar).id = _
        rw [k3]
      · rw [← hb1]; exact List.mem_map_of_mem k4
      · rw [← hb1]; exact varOf_decision hNv hNp hb2
    · intro w hw hpos k hk
      have hvar := decision_isVar hNv hb2
      have hfits : Fits (N.ids w) vs.variables := fits_solver hS.vars hw (fun _ h => h)
      have hset : ∀ c < n.count (N.nameAt p.1), N.FitsAll (w.set (N.nameAt p.1) c) := by
        intro c hc v hv
        unfold World.set
        split_ifs with e
        · rw [← count_eq hNv hv, e]; exact hc
        · exact hw v hv
      have hout : p.1.outcomes = n.count (N.nameAt p.1) := by
        have := hvar.outcomes hNv
        rw [hb1] at this
        exact this
      have := c3 (by
        intro f hf hu
        rw [List.append_nil] at hf
        exact tables_nonneg hNv hS hnn hf hu) hlink (N.ids w) hfits (utility_zero hu hfits) ⟨N.ids w p.1.id, by
          have := hfits _ (hvar.varOf_mem hS.vars hNv)
          rw [hb1] at this
          exact this, N.ids w, hfits, fun i _ => by rw [upd_self], by
        have hj := joint_world hNv hpo (by simp) hS (w := w) (Net.FitsAll.state hw)
        unfold probTables at hj
        rw [hj]
        unfold Net.joint
        rw [List.map_nil, List.prod_nil, mul_one]
        exact hpos⟩ k (by rw [hout]; exact hk)
      have hbo : bestOutcomes p.1.outcomes (fun c => sumOver (unseen vs.variables deps (decisionVars vs.variables)) (fun τ =>
          joint ((fs ++ []).filter (fun f => !f.isUtility)) τ * totalUtility vs.variables (fs ++ []) N.solverWeights τ)
          ((N.ids w).upd p.1.id c)) =
          bestOutcomes (n.count (N.nameAt p.1)) (fun c => n.worth n.decisions (w.set (N.nameAt p.1) c)) := by
        rw [hout]
        refine bestOutcomes_congr (fun c hc => ?_)
        rw [hun]
        refine Eq.trans ?_ (worth_world hNv hNp hS hkind hpo (hset c hc))
        rw [ids_set hNv hvar, hb1]
      rw [hbo] at this
      have hinr : n.Allowed (w.set (N.nameAt p.1) k) := fun v hv => hset k hk v (mem_stateVars.1 hv).1
      have hv2 := hval p (by simp) (w.set (N.nameAt p.1) k) hinr
      rw [← hte, byTables_eq h2 ht, hte] at hv2
      rw [← hv2, ids_set hNv hvar, hb1]
      exact this

/-- A bet on a coin: heads, tails, or none. -/
def Ex.bet : Net ℚ where
  name := "bet"
  info := ""
  «variables» := [⟨"Coin", .chance, ["heads", "tails"], (0, 0), "", some 0⟩,
    ⟨"Bet", .decision, ["heads", "tails", "none"], (0, 0), "", some 1⟩, ⟨"Win", .utility, ["win"], (0, 0), "", some 2⟩]
  factors := [⟨"Coin", [], some [1, 1], [], 2⟩, ⟨"Bet", [], none, [], 3⟩,
    ⟨"Win", ["Coin", "Bet"], some [10, -2, 1, -2, 10, 1], [2, 3], 1⟩]
  policies := []
  vs := none
  names := []
  totalUtility := none

theorem Ex.bet_new : newNet "bet" "" [Ex.nv "Coin" .chance ["heads", "tails"],
    Ex.nv "Bet" .decision ["heads", "tails", "none"], Ex.nv "Win" .utility ["win"]]
    [Ex.nf "Coin" [] [1, 1], ⟨"Bet", [], none, [], 0⟩, Ex.nf "Win" ["Coin", "Bet"] [10, -2, 1, -2, 10, 1]] = .ok Ex.bet := rfl

theorem Ex.bet_valid : Ex.bet.Valid where
  names := by decide
  named := by decide
  few := by decide
  outcomes := by decide
  tables := by decide
  hasTable := by decide
  known := by decide
  dims := by decide
  parents := by decide
  size := by
    intro f hf _ hd
    simp only [Ex.bet, List.mem_cons, List.not_mem_nil, or_false] at hf
    rcases hf with rfl | rfl | rfl
    · exact ⟨_, rfl, by decide⟩
    · exact absurd hd (by decide)
    · exact ⟨_, rfl, by decide⟩
  single := by decide
  weights := by intro i h; simp [Ex.bet] at h

theorem Ex.bet_solvable : Ex.bet.Solvable where
  utility := by decide
  used := by decide
  acyclic := by
    have hno : ∀ p d, ¬ Ex.bet.DecisionParent p d := by
      rintro p d ⟨h1, h2, f, hf, rfl, h3⟩
      have : ∀ f ∈ Ex.bet.factors, Ex.bet.isKind .decision f.forVar = true →
          ∀ p ∈ f.given, Ex.bet.isKind .decision p = false := by decide
      rw [this f hf h2 p h3] at h1
      exact absurd h1 (by simp)
    intro s h
    obtain ⟨_, h, _⟩ := Relation.TransGen.head'_iff.1 h
    exact hno _ _ h

theorem Ex.bet_matters : ∀ d ∈ Ex.bet.decisions, Ex.bet.Matters Ex.bet.decisions d := by
  intro d hd
  have : Ex.bet.decisions = ["Bet"] := by decide
  rw [this, List.mem_singleton] at hd
  rw [hd]
  exact .utility (f := ⟨"Win", ["Coin", "Bet"], some [10, -2, 1, -2, 10, 1], [2, 3], 1⟩) (by decide) (by decide) (by decide)
    (by decide)

/-- The conditions of C150_stepwise hold: the policy bets on heads and on tails with the same probability, and never does
without a bet. -/
example (sch : NSched ℚ) : ∃ tables n', Ex.bet.solvePolicies sch true = (.ok tables, n') ∧
    Ex.bet.byTables tables "Bet" (World.set (fun _ => 0) "Bet" 0) = 1 / 2 ∧
    Ex.bet.byTables tables "Bet" (World.set (fun _ => 0) "Bet" 1) = 1 / 2 ∧
    Ex.bet.byTables tables "Bet" (World.set (fun _ => 0) "Bet" 2) = 0 := by
  obtain ⟨tables, n', order, h1, h2, _, _, h3⟩ := C150_stepwise sch Ex.bet_valid (fun _ => Ex.bet_solvable) (by decide +kernel)
  have ho : order = ["Bet"] := List.perm_singleton.1 h2
  have hw : ∀ c, Ex.bet.worthTo (Ex.bet.byTables tables) [] "Bet" (World.set (fun _ => 0) "Bet" c) =
      Ex.bet.worthTo (fun _ _ => 1) [] "Bet" (World.set (fun _ => 0) "Bet" c) := fun _ => rfl
  have h4 := h3 [] "Bet" [] ho (Ex.bet_matters "Bet" (by decide)) (fun _ => 0) (by decide) (by decide +kernel) (by simp)
  simp only [hw] at h4
  exact ⟨tables, n', h1, (h4 0 (by decide)).trans (by decide +kernel), (h4 1 (by decide)).trans (by decide +kernel),
    (h4 2 (by decide)).trans (by decide +kernel)⟩

/-- The conditions of C150_together hold: in the umbrella network, the umbrella is taken if the forecast is bad. -/
example (sch : NSched ℚ) (stepwise : Bool) : ∃ tables n' t, Ex.umb.solvePolicies sch stepwise = (.ok tables, n') ∧
    ("Umbrella", t) ∈ tables ∧
    Ex.umb.entry t (World.set (World.set (fun _ => 0) "Forecast" 1) "Umbrella" 1) = 1 := by
  obtain ⟨tables, n', d, t, h1, hd, h2, _, h3⟩ := C150_together sch Ex.umb_valid Ex.umb_solvable (by decide) (by decide +kernel)
    Ex.umb_matters (stepwise := stepwise) (fun _ => by decide)
  have : Ex.umb.decisions = ["Umbrella"] := by decide
  rw [this, List.mem_singleton] at hd
  subst hd
  exact ⟨tables, n', t, h1, h2, (h3 (World.set (fun _ => 0) "Forecast" 1) (by decide) (by decide +kernel) 1
    (by decide)).trans (by decide +kernel)⟩

end Bbn
