import Verif.Props.NetJoint
import Verif.Props.PolicyRepeat
import Verif.Props.Reproduce

/-!
# C123: the layout of the returned tables
-/

set_option autoImplicit false

namespace Bbn

variable {α : Type}

/-- **C123, what holds.** A policy table with at most one parent is the same in every run: the same parent, the same numbers
in the same places. (With more parents, the entries for each combination of outcomes are the same: `C39_policies_repeat`.) -/
theorem C123_policies_partial [Field α] [LinearOrder α] [IsStrictOrderedRing α] (sch sch' : NSched α) {n : Net α}
    (hn : n.Valid) (hs : (∃ s, n.isKind .decision s = true) → n.Solvable) (stepwise : Bool) :
    ∃ tables m tables' m', n.solvePolicies sch stepwise = (.ok tables, m) ∧
      n.solvePolicies sch' stepwise = (.ok tables', m') ∧ (tables'.map Prod.fst).Perm (tables.map Prod.fst) ∧
      ∀ t ∈ tables, ∀ t' ∈ tables', t'.1 = t.1 → t.2.given.length ≤ 1 →
        t'.2.forVar = t.2.forVar ∧ t'.2.given = t.2.given ∧ t'.2.table = t.2.table := by
  obtain ⟨ts, m, h1, _, _, h4, _⟩ := solvePolicies_net sch hn (fun h => (hs h).toFeasible) stepwise
  obtain ⟨ts', m', k1, _, _, k4, _⟩ := solvePolicies_net sch' hn (fun h => (hs h).toFeasible) stepwise
  obtain ⟨ts2, m2, l1, l2, l3⟩ := policies_like sch sch' hn hs stepwise h1 .rfl
  rw [k1] at l1
  obtain ⟨e, rfl⟩ := Prod.mk.inj l1
  obtain rfl := Except.ok.inj e
  refine ⟨ts, m, ts', m', h1, k1, l2, fun t ht t' ht' he hlen => ?_⟩
  obtain ⟨c1, c2, c3⟩ := l3 t ht t' ht' he
  have hg : t'.2.given = t.2.given := by
    match hx : t.2.given, hlen with
    | [], _ => rw [hx] at c2; exact List.perm_nil.1 c2
    | [a], _ => rw [hx] at c2; exact List.perm_singleton.1 c2
  have hd : t'.2.dims = t.2.dims := by unfold NFactor.dims; rw [hg, c1]
  obtain ⟨d, d1, d2⟩ := (h4 t ht).size
  obtain ⟨d', d1', d2'⟩ := (k4 t' ht').size
  refine ⟨c1, hg, ?_⟩
  rw [d1, d1']
  congr 1
  rw [hd] at d2'
  apply List.ext_getElem?
  intro k
  by_cases hk : k < (t.2.dims.map n.count).prod
  · obtain ⟨w, w1, rfl⟩ := rowMajor_surj n.count t.2.dims (h4 t ht).dims k hk
    have := c3 w w1
    unfold Net.entry NFactor.tab at this
    rw [d1, d1', hd] at this
    simp only [Option.getD_some, List.getD_eq_getElem?_getD] at this
    rw [← d2] at hk
    have hk' := hk
    rw [d2, ← d2'] at hk'
    rw [List.getElem?_eq_getElem hk, List.getElem?_eq_getElem hk'] at this ⊢
    simpa using this
  · rw [List.getElem?_eq_none (by omega), List.getElem?_eq_none (by omega)]

namespace Ex

/-- A decision with two parents and a utility for each. -/
def trip : Net ℚ where
  name := "trip"
  info := ""
  «variables» := [⟨"Rain", .chance, ["yes", "no"], (0, 0), "", some 0⟩, ⟨"Snow", .chance, ["yes", "no"], (0, 0), "", some 1⟩,
    ⟨"Trip", .decision, ["go", "stay"], (0, 0), "", some 2⟩, ⟨"Fun", .utility, ["fun"], (0, 0), "", some 3⟩,
    ⟨"Risk", .utility, ["risk"], (0, 0), "", some 4⟩]
  factors := [⟨"Rain", [], some [1/2, 1/2], [], 2⟩, ⟨"Snow", [], some [1/4, 3/4], [], 2⟩,
    ⟨"Trip", ["Rain", "Snow"], none, [2, 2], 2⟩, ⟨"Fun", ["Rain", "Trip"], some [3, 4, 9, 1], [2, 2], 1⟩,
    ⟨"Risk", ["Snow", "Trip"], some [-5, 0, 0, 0], [2, 2], 1⟩]
  policies := []
  vs := none
  names := []
  totalUtility := none

/-- The parents and numbers of the policies. -/
def tripPolicies (sch : NSched ℚ) (stepwise : Bool) : Option (List (String × List String × Option (List ℚ))) :=
  match (trip.solvePolicies sch stepwise).1 with
  | .ok l => some (l.map (fun (t : String × NFactor ℚ) => (t.1, t.2.given, t.2.table)))
  | .error _ => none

/-- The variables and numbers of the factor for two variables. -/
def tripFactor (sch : NSched ℚ) : Option (List String × List ℚ) :=
  match (trip.solveQuery sch [] ["Rain", "Snow"] false).1 with
  | .ok (_, f) => some (trip.scopeNames f, f.data)
  | .error _ => none

theorem trip_valid : trip.Valid where
  names := by decide
  named := by decide
  few := by decide
  outcomes := by decide
  tables := by decide
  hasTable := by decide
  known := by decide
  dims := by decide
  parents := by decide
  size := by
    intro f hf h1 h2
    simp only [trip, List.mem_cons, List.not_mem_nil, or_false] at hf
    rcases hf with rfl | rfl | rfl | rfl | rfl
    · exact ⟨_, rfl, by decide⟩
    · exact ⟨_, rfl, by decide⟩
    · exact absurd h2 (by decide)
    · exact ⟨_, rfl, by decide⟩
    · exact ⟨_, rfl, by decide⟩
  single := by decide
  weights := by intro i h; simp [trip] at h

theorem trip_solvable : trip.Solvable where
  utility := by decide
  used := by decide
  acyclic := by
    have hno : ∀ p d, ¬ trip.DecisionParent p d := by
      rintro p d ⟨h1, h2, f, hf, rfl, h3⟩
      have : ∀ f ∈ trip.factors, trip.isKind .decision f.forVar = true →
          ∀ p ∈ f.given, trip.isKind .decision p = false := by decide
      rw [this f hf h2 p h3] at h1
      exact absurd h1 (by simp)
    intro s h
    obtain ⟨_, h, _⟩ := Relation.TransGen.head'_iff.1 h
    exact hno _ _ h

end Ex

/-- **C123, refuted as stated**, for policies: the order of the parents in the table, and with it the places of the numbers,
depend on the order in which Go iterates over its maps. -/
theorem C123_refuted_policies : Ex.trip.Valid ∧ Ex.trip.Solvable ∧
    ¬ ∀ sch sch' : NSched ℚ, Ex.tripPolicies sch true = Ex.tripPolicies sch' true :=
  ⟨Ex.trip_valid, Ex.trip_solvable, fun h => absurd (h (Ex.norder false) (Ex.norder true)) (by decide +kernel)⟩

/-- **C123, refuted as stated**, for queries: so do the order of the variables in the factor and the places of its numbers. -/
theorem C123_refuted_query : Ex.trip.Valid ∧
    ¬ ∀ sch sch' : NSched ℚ, Ex.tripFactor sch = Ex.tripFactor sch' :=
  ⟨Ex.trip_valid, fun h => absurd (h (Ex.norder false) (Ex.norder true)) (by decide +kernel)⟩

/-- A case: the policy for the umbrella has one parent. -/
example (sch sch' : NSched ℚ) : ∃ tables m tables' m', Ex.umb.solvePolicies sch true = (.ok tables, m) ∧
    Ex.umb.solvePolicies sch' true = (.ok tables', m') ∧ (tables'.map Prod.fst).Perm (tables.map Prod.fst) ∧
    ∀ t ∈ tables, ∀ t' ∈ tables', t'.1 = t.1 → t.2.given.length ≤ 1 →
      t'.2.forVar = t.2.forVar ∧ t'.2.given = t.2.given ∧ t'.2.table = t.2.table :=
  C123_policies_partial sch sch' Ex.umb_valid (fun _ => Ex.umb_solvable) true

end Bbn
