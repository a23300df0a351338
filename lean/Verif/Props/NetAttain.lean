import Verif.Lemmas.Timed
import Verif.Props.NetExpect

/-!
# Whether the returned policies can be carried out
-/

set_option autoImplicit false

namespace Bbn

open Finset

variable {α : Type}

/-- The order in which decisions are solved, and what each policy uses, in both modes. -/
theorem solved_order [Field α] [LinearOrder α] [IsStrictOrderedRing α] (sch : NSched α) {n : Net α} (hn : n.Valid)
    (hs : n.Solvable) (stepwise : Bool) :
    ∃ tables n' order, n.solvePolicies sch stepwise = (.ok tables, n') ∧ order.Perm n.decisions ∧ n.Ordered order ∧
      (n.Ordered n.decisions → order = n.decisions) ∧
      ∀ A d B, order = A ++ d :: B → n.Strategy A d (n.byTables tables d) := by
  cases stepwise with
  | true =>
    obtain ⟨tables, n', order, h1, h2, h3, h4, h5, _⟩ := C83_listed sch hn (fun _ => hs)
    exact ⟨tables, n', order, h1, h2, h3, h4, fun A d B e => (h5 A d B e).1⟩
  | false =>
    by_cases hd : n.decisions = []
    · obtain ⟨tables, n', h1, _⟩ := solvePolicies_net sch hn (fun _ => hs.toFeasible) false
      refine ⟨tables, n', [], h1, by rw [hd], ?_, fun _ => hd.symm, ?_⟩ <;>
      · intro A d B e
        simp at e
    · obtain ⟨tables, n', order, h1, h2, h3, h4, h5⟩ := together_order sch hn hs hd (stepwise := false) (by simp)
      exact ⟨tables, n', order, h1, h2, h3, h4, fun A d B e => (h5 A d B e).1⟩

/-- After `SolvePolicies`, a sum over all worlds is one over the tables and what the returned policies say. -/
theorem solved_total [Field α] [LinearOrder α] [IsStrictOrderedRing α] (sch : NSched α) {n : Net α} (hn : n.Valid)
    (hs : n.Feasible) {stepwise : Bool} {tables : List (String × NFactor α)} {n' : Net α}
    (h : n.solvePolicies sch stepwise = (.ok tables, n')) (F : World → α) :
    n'.total n'.policies F = sumWorlds n.stateVars (fun w => (n.chanceTables.map (fun f => n.prob f w)).prod *
      (n.decisions.map (fun d => n.byTables tables d w)).prod * F w) (fun _ => 0) := by
  obtain ⟨tables', m', h1, h2, h3, h4, h5, h6, ⟨vs0, names0, pols0, h7⟩, h8, _, _, _⟩ :=
    solvePolicies_net sch hn (fun _ => hs) stepwise
  rw [h] at h1
  obtain ⟨e1, rfl⟩ := Prod.mk.inj h1
  obtain rfl := Except.ok.inj e1
  obtain ⟨hpp, htb⟩ := stored_tables sch hn (fun _ => hs) h
  unfold Net.total
  have hst : n'.stateVars = n.stateVars := by rw [h7]; rfl
  rw [hst]
  refine sumWorlds_congr _ _ (stateVars_names hn) (fun w hw _ => ?_)
  have hprod : (n'.policies.map (fun p => p.2.val (n.ids w))).prod = (n.decisions.map (fun d => n.byTables tables d w)).prod := by
    rw [← (hpp.map _).prod_eq, List.map_map]
    congr 1
    exact List.map_congr_left (fun p hp => htb p hp w hw)
  have e1 : n'.joint n'.policies w = (n.chanceTables.map (fun f => n.prob f w)).prod *
      (n'.policies.map (fun p => p.2.val (n.ids w))).prod := by
    rw [h7]; rfl
  rw [e1, hprod]

theorem prob_nonneg [Field α] [LinearOrder α] [IsStrictOrderedRing α] {n : Net α} {f : NFactor α}
    (h : ∀ x ∈ f.tab, 0 ≤ x) (w : World) : 0 ≤ n.prob f w := by
  have hentry : ∀ w, 0 ≤ n.entry f w := fun w => getD_nonneg h _
  unfold Net.prob
  split_ifs
  · exact hentry w
  · exact div_nonneg (hentry w) (Finset.sum_nonneg (fun k _ => hentry _))

theorem pairwise_of_splits {β : Type} {R : β → β → Prop} : ∀ {l : List β},
    (∀ A d B, l = A ++ d :: B → ∀ b ∈ B, R d b) → l.Pairwise R := by
  intro l
  induction l with
  | nil => intro _; exact List.Pairwise.nil
  | cons x l ih =>
    intro h
    exact List.Pairwise.cons (h [] x l rfl) (ih (fun A d B e => h (x :: A) d B (by rw [e]; rfl)))

/-- Decisions listed in the order of times that fit what they observe respect their declared order. -/
theorem listed_ordered {n : Net α} {rank : String → Nat}
    (hd : ∀ f ∈ n.factors, n.isKind .decision f.forVar = true → ∀ g ∈ f.given, rank g < rank f.forVar)
    (hl : n.decisions.Pairwise (fun d e => rank d < rank e)) : n.Ordered n.decisions := by
  intro A d B e p hpd
  have hpm := mem_decisions.2 hpd.1
  have hlt : rank p < rank d := by
    obtain ⟨h1, h2, f, hf, rfl, h3⟩ := hpd
    exact hd f hf h2 p h3
  rw [e, List.mem_append, List.mem_cons] at hpm
  rw [e, List.pairwise_append, List.pairwise_cons] at hl
  rcases hpm with h | rfl | h
  · exact h
  · exact absurd hlt (lt_irrefl _)
  · exact absurd (hl.2.1.1 p h) (by omega)

/-- Times that fit the tables and the observations of the decisions fit the order in which decisions are solved, if the
decisions are listed in that order, or the declared order leaves no choice. -/
theorem timed_order {n : Net α} (hn : n.Valid) {rank : String → Nat}
    (hc : ∀ f ∈ n.chanceTables, ∀ g ∈ f.given, rank g < rank f.forVar)
    (hd : ∀ f ∈ n.factors, n.isKind .decision f.forVar = true → ∀ g ∈ f.given, rank g < rank f.forVar)
    (hl : n.decisions.Pairwise (fun d e => rank d < rank e) ∨ n.InLine) {order : List String}
    (hp : order.Perm n.decisions) (ho : n.Ordered order) (heq : n.Ordered n.decisions → order = n.decisions) :
    n.Timed order rank := by
  refine ⟨hc, hd, ?_⟩
  have hpar : ∀ p d, n.DecisionParent p d → rank p < rank d := by
    rintro p d ⟨h1, h2, f, hf, rfl, h3⟩
    exact hd f hf h2 p h3
  rcases hl with hl | hl
  · rw [heq (listed_ordered hd hl)]
    exact hl
  · refine pairwise_of_splits (fun A a B e b hbB => ?_)
    have hnd : order.Nodup := hp.nodup_iff.2 (decisions_nodup hn)
    rw [e, List.nodup_append, List.nodup_cons] at hnd
    have hlt : ∀ p d, Relation.TransGen n.DecisionParent p d → rank p < rank d := by
      intro p d h
      induction h with
      | single h => exact hpar _ _ h
      | tail _ h ih => exact ih.trans (hpar _ _ h)
    rcases hl a (hp.subset (by rw [e]; simp)) b (hp.subset (by rw [e]; simp [hbB])) with h | h | h
    · rw [h] at hnd
      exact absurd hbB hnd.2.1.1
    · exact hlt _ _ h
    · exact absurd rfl (hnd.2.2 b (ho.before h A B e) b (by simp [hbB]))

/-- **C109 (partial).** Let the chance tables of a network have no row that sums to zero and no negative entry, and let
there be a time for every variable, such that parents come before a chance variable and what a decision observes comes
before the decision. If the decisions are listed in the order of these times, or the declared order of the decisions
leaves no choice, the policies from `SolvePolicies`, in both modes, can be carried out: the probability of no evidence is
one, and `SolveUtility` reports no more than the largest and no less than the smallest utility.

In full the claim would do without the condition on the listed order; then it is false, see `C109_refuted`. -/
theorem C109_partial [Field α] [LinearOrder α] [IsStrictOrderedRing α] (sch s1 s2 : NSched α) {n : Net α} (hn : n.Valid)
    (hs : n.Solvable) (hr : n.Regular) (hnn : ∀ f ∈ n.chanceTables, ∀ x ∈ f.tab, 0 ≤ x) {rank : String → Nat}
    (hc : ∀ f ∈ n.chanceTables, ∀ g ∈ f.given, rank g < rank f.forVar)
    (hd : ∀ f ∈ n.factors, n.isKind .decision f.forVar = true → ∀ g ∈ f.given, rank g < rank f.forVar)
    (hl : n.decisions.Pairwise (fun d e => rank d < rank e) ∨ n.InLine) (stepwise ign : Bool) :
    ∃ tables n', n.solvePolicies sch stepwise = (.ok tables, n') ∧ n'.Likely s1 [] ign 1 ∧
      ∀ u lo hi, (u = "" ∨ ∃ v ∈ n.utilityVars, v.name = u) →
        (∀ w, n.Allowed w → lo ≤ n.asked u w ∧ n.asked u w ≤ hi) → ∃ y, n'.Worth s2 [] u ign y ∧ lo ≤ y ∧ y ≤ hi := by
  obtain ⟨tables, n', order, h1, h2, h3, h4, h5⟩ := solved_order sch hn hs stepwise
  obtain ⟨tables', m', k1, _, k3, _, k5, k6, ⟨vs0, names0, pols0, k7⟩, k8, _⟩ :=
    solvePolicies_net sch hn (fun _ => hs.toFeasible) stepwise
  rw [h1] at k1
  obtain ⟨e1, rfl⟩ := Prod.mk.inj k1
  obtain rfl := Except.ok.inj e1
  have hone := strategies_one hn hr (timed_order hn hc hd hl h2 h3 h4) h2 h5
  have hsolved : n'.AllSolved := by
    intro v hv hd
    have hv' : v ∈ n.variables := by rw [k7] at hv; exact hv
    exact mapGet_isSome.2 (k8.symm.subset ((k3 v.name).2 ((isKind_iff hn hv' _).2 hd)))
  have hact : n'.active [] ign = n'.policies := by
    unfold Net.active
    split_ifs <;> simp
  have hmass : n'.mass n'.policies (n'.Agrees []) = 1 := by
    unfold Net.mass
    rw [solved_total sch hn hs.toFeasible h1]
    refine Eq.trans ?_ hone
    congr 1
    funext w
    rw [if_pos (by intro e he; cases he), mul_one]
  refine ⟨tables, n', h1, ?_, ?_⟩
  · have := likely_mass s1 k5 k6.toPoliciesOK hsolved (evidence := []) ⟨List.nodup_nil, by simp⟩ ign
    rwa [hact, hmass] at this
  · intro u lo hi hu hb
    have hask : n'.asked u = n.asked u := by rw [k7]; rfl
    refine ⟨_, worth_total s2 k5 k6.toPoliciesOK hsolved (evidence := []) ⟨List.nodup_nil, by simp⟩ (u := u) (by
      have : n'.utilityVars = n.utilityVars := by rw [k7]; rfl
      rw [this]
      rcases hu with hu | hu
      · exact .inl ⟨hu, hs.utility⟩
      · exact .inr hu) ign, ?_⟩
    rw [hact, solved_total sch hn hs.toFeasible h1, hask]
    have hpos : ∀ w, n.Allowed w → 0 ≤ (n.chanceTables.map (fun f => n.prob f w)).prod *
        (n.decisions.map (fun d => n.byTables tables d w)).prod := by
      intro w hw
      refine mul_nonneg (prod_nonneg' ?_) (prod_nonneg' ?_)
      · intro x hx
        obtain ⟨f, hf, rfl⟩ := List.mem_map.1 hx
        exact prob_nonneg (hnn f hf) w
      · intro x hx
        obtain ⟨d, hd, rfl⟩ := List.mem_map.1 hx
        obtain ⟨A, B, e⟩ := List.append_of_mem (h2.symm.subset hd)
        exact (h5 A d B e).nonneg w hw
    have hmul : ∀ c : α, c = sumWorlds n.stateVars (fun w => (n.chanceTables.map (fun f => n.prob f w)).prod *
        (n.decisions.map (fun d => n.byTables tables d w)).prod * c) (fun _ => 0) := by
      intro c
      conv_lhs => rw [← mul_one c, ← hone, ← sumWorlds_mul]
      congr 1
      funext w
      ring
    constructor
    · rw [hmul lo]
      refine sumWorlds_le _ _ (stateVars_names hn) (fun w hw _ => ?_)
      rw [if_pos (by intro e he; cases he)]
      exact mul_le_mul_of_nonneg_left (hb w hw).1 (hpos w hw)
    · rw [hmul hi]
      refine sumWorlds_le _ _ (stateVars_names hn) (fun w hw _ => ?_)
      rw [if_pos (by intro e he; cases he)]
      exact mul_le_mul_of_nonneg_left (hb w hw).2 (hpos w hw)

namespace Ex

/-- A switch is set, a sign tells with probability 9/10 how it was set, and one has to act as it was set, knowing only
the sign. The decision to act is listed first. -/
def loop : Net ℚ where
  name := "loop"
  info := ""
  «variables» := [⟨"Act", .decision, ["a", "b"], (0, 0), "", some 1⟩, ⟨"Set", .decision, ["a", "b"], (0, 0), "", none⟩,
    ⟨"Sign", .chance, ["a", "b"], (0, 0), "", some 0⟩, ⟨"Gain", .utility, ["gain"], (0, 0), "", some 2⟩]
  factors := [⟨"Sign", ["Set"], some [9, 1, 1, 9], [2], 2⟩, ⟨"Act", ["Sign"], none, [2], 2⟩,
    ⟨"Gain", ["Set", "Act"], some [1, 0, 0, 1], [2, 2], 1⟩]
  policies := []
  vs := none
  names := []
  totalUtility := none

/-- The same with the switch listed first. -/
def unloop : Net ℚ where
  name := "loop"
  info := ""
  «variables» := [⟨"Set", .decision, ["a", "b"], (0, 0), "", none⟩, ⟨"Act", .decision, ["a", "b"], (0, 0), "", some 1⟩,
    ⟨"Sign", .chance, ["a", "b"], (0, 0), "", some 0⟩, ⟨"Gain", .utility, ["gain"], (0, 0), "", some 2⟩]
  factors := [⟨"Sign", ["Set"], some [9, 1, 1, 9], [2], 2⟩, ⟨"Act", ["Sign"], none, [2], 2⟩,
    ⟨"Gain", ["Set", "Act"], some [1, 0, 0, 1], [2, 2], 1⟩]
  policies := []
  vs := none
  names := []
  totalUtility := none

/-- The tables of the two networks, as a user writes them. -/
def loopTables : List (NFactor ℚ) :=
  [nf "Sign" ["Set"] [9, 1, 1, 9], ⟨"Act", ["Sign"], none, [], 0⟩, nf "Gain" ["Set", "Act"] [1, 0, 0, 1]]

theorem loop_new : newNet "loop" "" [nv "Act" .decision ["a", "b"], nv "Set" .decision ["a", "b"],
    nv "Sign" .chance ["a", "b"], nv "Gain" .utility ["gain"]] loopTables = .ok loop := rfl

theorem unloop_new : newNet "loop" "" [nv "Set" .decision ["a", "b"], nv "Act" .decision ["a", "b"],
    nv "Sign" .chance ["a", "b"], nv "Gain" .utility ["gain"]] loopTables = .ok unloop := rfl

theorem loop_valid : loop.Valid where
  names := by decide
  named := by decide
  few := by decide
  outcomes := by decide
  tables := by decide
  hasTable := by decide
  known := by decide
  dims := by decide
  parents := by decide
  size := by
    intro f hf h1 h2
    simp only [loop, List.mem_cons, List.not_mem_nil, or_false] at hf
    rcases hf with rfl | rfl | rfl
    · exact ⟨_, rfl, by decide⟩
    · exact absurd h2 (by decide)
    · exact ⟨_, rfl, by decide⟩
  single := by decide
  weights := by intro i h; cases h

theorem unloop_valid : unloop.Valid where
  names := by decide
  named := by decide
  few := by decide
  outcomes := by decide
  tables := by decide
  hasTable := by decide
  known := by decide
  dims := by decide
  parents := by decide
  size := by
    intro f hf h1 h2
    simp only [unloop, List.mem_cons, List.not_mem_nil, or_false] at hf
    rcases hf with rfl | rfl | rfl
    · exact ⟨_, rfl, by decide⟩
    · exact absurd h2 (by decide)
    · exact ⟨_, rfl, by decide⟩
  single := by decide
  weights := by intro i h; cases h

theorem loop_parent {p d : String} : ¬ loop.DecisionParent p d := by
  rintro ⟨h1, h2, f, hf, rfl, h3⟩
  have : ∀ f ∈ loop.factors, loop.isKind .decision f.forVar = true → ∀ p ∈ f.given, loop.isKind .decision p = false := by
    decide
  rw [this f hf h2 p h3] at h1
  cases h1

theorem unloop_parent {p d : String} : ¬ unloop.DecisionParent p d := by
  rintro ⟨h1, h2, f, hf, rfl, h3⟩
  have : ∀ f ∈ unloop.factors, unloop.isKind .decision f.forVar = true → ∀ p ∈ f.given, unloop.isKind .decision p = false := by
    decide
  rw [this f hf h2 p h3] at h1
  cases h1

theorem loop_solvable : loop.Solvable where
  utility := by decide
  used := by decide
  acyclic := fun s h => by
    obtain ⟨a, h1, _⟩ := Relation.TransGen.head'_iff.1 h
    exact loop_parent h1

theorem unloop_solvable : unloop.Solvable where
  utility := by decide
  used := by decide
  acyclic := fun s h => by
    obtain ⟨a, h1, _⟩ := Relation.TransGen.head'_iff.1 h
    exact unloop_parent h1

theorem loop_matters {ds : List String} : ∀ d ∈ loop.decisions, loop.Matters ds d := by
  intro d hd
  refine .utility (f := ⟨"Gain", ["Set", "Act"], some [1, 0, 0, 1], [2, 2], 1⟩) (by decide) (by decide) (by decide) ?_
  revert d
  decide

theorem unloop_regular : unloop.Regular := by
  intro f hf w hw
  have hc : unloop.chanceTables = [⟨"Sign", ["Set"], some [9, 1, 1, 9], [2], 2⟩] := by decide
  rw [hc, List.mem_singleton] at hf
  have hs : w "Set" < 2 := hw ⟨"Set", .decision, ["a", "b"], (0, 0), "", none⟩ (by decide)
  have h1 : unloop.count "Set" = 2 := by decide
  have h2 : unloop.count "Sign" = 2 := by decide
  rw [hf]
  rcases (by omega : w "Set" = 0 ∨ w "Set" = 1) with e | e <;>
    simp [Net.rowSum, Net.entry, h1, h2, NFactor.dims, rowMajor, NFactor.tab, World.set, Finset.sum_range_succ, e] <;>
    norm_num

theorem unloop_gain (w : World) (hw : unloop.Allowed w) : 0 ≤ unloop.asked "" w ∧ unloop.asked "" w ≤ 1 := by
  have hu : unloop.utilityVars = [⟨"Gain", .utility, ["gain"], (0, 0), "", some 2⟩] := by decide
  have e : unloop.asked "" w = unloop.utilityIn "Gain" w := by
    unfold Net.asked Net.totalIn
    rw [if_pos rfl, hu]
    simp [Net.weight, unloop]
  have := utility_entry unloop_valid (f := ⟨"Gain", ["Set", "Act"], some [1, 0, 0, 1], [2, 2], 1⟩) (by decide)
    (u := ⟨"Gain", .utility, ["gain"], (0, 0), "", some 2⟩) (by rw [hu]; simp) rfl hw
  rw [e]
  have key : ∀ x ∈ ([1, 0, 0, 1] : List ℚ), 0 ≤ x ∧ x ≤ 1 := by decide
  exact key _ this

theorem loop_gain (w : World) (hw : loop.Allowed w) : loop.asked "" w ≤ 1 := by
  have hu : loop.utilityVars = [⟨"Gain", .utility, ["gain"], (0, 0), "", some 2⟩] := by decide
  have e : loop.asked "" w = loop.utilityIn "Gain" w := by
    unfold Net.asked Net.totalIn
    rw [if_pos rfl, hu]
    simp [Net.weight, loop]
  have := utility_entry loop_valid (f := ⟨"Gain", ["Set", "Act"], some [1, 0, 0, 1], [2, 2], 1⟩) (by decide)
    (u := ⟨"Gain", .utility, ["gain"], (0, 0), "", some 2⟩) (by rw [hu]; simp) rfl hw
  rw [e]
  have key : ∀ x ∈ ([1, 0, 0, 1] : List ℚ), x ≤ 1 := by decide
  exact key _ this

/-- A time for the variables: the switch is set, the sign shows it, one acts. -/
def loopRank : String → Nat := fun s => if s = "Set" then 0 else if s = "Sign" then 1 else 2

/-- The conditions of C109_partial hold if the switch is listed first. The utility reported is at most one. -/
theorem unloop_attained (sch s1 s2 : NSched ℚ) (stepwise ign : Bool) : ∃ tables n' y,
    unloop.solvePolicies sch stepwise = (.ok tables, n') ∧ n'.Likely s1 [] ign 1 ∧ n'.Worth s2 [] "" ign y ∧ y ≤ 1 := by
  obtain ⟨tables, n', h1, h2, h3⟩ := C109_partial sch s1 s2 unloop_valid unloop_solvable unloop_regular (by decide)
    (rank := loopRank) (by decide) (by decide) (.inl (by decide)) stepwise ign
  obtain ⟨y, h4, _, h5⟩ := h3 "" 0 1 (.inl rfl) unloop_gain
  exact ⟨tables, n', y, h1, h2, h4, h5⟩

end Ex

/-- **C109 fails.** The sign shows how the switch was set, so one acts after the switch was set. But the decision to act
is listed first, and nothing declares that the other one comes earlier. `SolvePolicies` then lets the switch be set
knowing what the sign will show. No utility is larger than one, but the reported expected utility is at least 9/5, and so
is the "probability" of no evidence. With the decisions listed the other way, the utility is at most one. -/
theorem C109_refuted (sch s1 s2 sch' s1' s2' : NSched ℚ) (ign : Bool) : ∃ tables n' y p tables₁ n₁ y₁,
    newNet "loop" "" [Ex.nv "Act" .decision ["a", "b"], Ex.nv "Set" .decision ["a", "b"],
      Ex.nv "Sign" .chance ["a", "b"], Ex.nv "Gain" .utility ["gain"]] Ex.loopTables = .ok Ex.loop ∧
    (∀ w, Ex.loop.Allowed w → Ex.loop.asked "" w ≤ 1) ∧
    Ex.loop.solvePolicies sch false = (.ok tables, n') ∧ n'.Likely s1 [] ign p ∧ n'.Worth s2 [] "" ign y ∧ 9 / 5 ≤ p ∧ 9 / 5 ≤ y ∧
    newNet "loop" "" [Ex.nv "Set" .decision ["a", "b"], Ex.nv "Act" .decision ["a", "b"],
      Ex.nv "Sign" .chance ["a", "b"], Ex.nv "Gain" .utility ["gain"]] Ex.loopTables = .ok Ex.unloop ∧
    Ex.unloop.solvePolicies sch' false = (.ok tables₁, n₁) ∧ n₁.Likely s1' [] ign 1 ∧ n₁.Worth s2' [] "" ign y₁ ∧ y₁ ≤ 1 := by
  have hn := Ex.loop_valid
  have hs := Ex.loop_solvable
  obtain ⟨tables₁, n₁, y₁, u1, u2, u3, u4⟩ := Ex.unloop_attained sch' s1' s2' false ign
  obtain ⟨tables, n', order, h1, h2, h3, h4, h5, h6, g, n'', h7, h8⟩ := C81_listed sch s2 hn hs (by decide) (by decide)
    (matters_order Ex.loop_matters) (stepwise := false) (by simp) ign
  obtain ⟨tables', m', k1, _, k3, _, k5, k6, ⟨vs0, names0, pols0, k7⟩, k8, _⟩ :=
    solvePolicies_net sch hn (fun _ => hs.toFeasible) false
  rw [h1] at k1
  obtain ⟨e1, rfl⟩ := Prod.mk.inj k1
  obtain rfl := Except.ok.inj e1
  have hd : Ex.loop.decisions = ["Act", "Set"] := by decide
  obtain rfl := h4 (fun A d B _ p hp => absurd hp Ex.loop_parent)
  have hsolved : n'.AllSolved := by
    intro v hv hd
    have hv' : v ∈ Ex.loop.variables := by rw [k7] at hv; exact hv
    exact mapGet_isSome.2 (k8.symm.subset ((k3 v.name).2 ((isKind_iff hn hv' _).2 hd)))
  have hact : n'.active [] ign = n'.policies := by
    unfold Net.active
    split_ifs <;> simp
  have hy : 9 / 5 ≤ Ex.loop.expectedTotal (Ex.loop.byTables tables) := by
    refine le_trans ?_ (h6 (fun d w => if d = "Act" then (if w "Act" = w "Sign" then 1 else 0) else
      (if w "Set" = w "Sign" then 1 else 0)) ?_)
    · decide +kernel
    · rw [hd]
      have hsign : ∀ w, Ex.loop.Allowed w → w "Sign" = 0 ∨ w "Sign" = 1 := by
        intro w hw
        have hl : w "Sign" < 2 := hw ⟨"Sign", .chance, ["a", "b"], (0, 0), "", some 0⟩ (by decide)
        omega
      have hc : Ex.loop.count "Act" = 2 := by decide
      have hc' : Ex.loop.count "Set" = 2 := by decide
      intro A d B e
      match A, e with
      | [], e =>
        obtain ⟨rfl, _⟩ := List.cons.inj e
        refine ⟨fun w _ => ?_, fun w hw => ?_, fun w w' _ _ h => ?_⟩
        · rw [if_pos rfl]; split <;> decide
        · rw [hc, Finset.sum_range_succ, Finset.sum_range_succ, Finset.sum_range_zero, zero_add]
          rcases hsign w hw with h | h <;> simp [World.set, h]
        · rw [if_pos rfl, if_pos rfl, h "Act" (.inl (by simp)),
            h "Sign" (.inr ⟨⟨"Act", ["Sign"], none, [2], 2⟩, by decide, by decide, by decide⟩)]
      | [x], e =>
        obtain ⟨rfl, _⟩ := List.cons.inj (List.cons.inj e).2
        obtain rfl := (List.cons.inj e).1
        refine ⟨fun w _ => ?_, fun w hw => ?_, fun w w' _ _ h => ?_⟩
        · rw [if_neg (by decide)]; split <;> decide
        · rw [hc', Finset.sum_range_succ, Finset.sum_range_succ, Finset.sum_range_zero, zero_add]
          rcases hsign w hw with h | h <;> simp [World.set, h]
        · rw [if_neg (c := "Set" = "Act") (by decide), if_neg (c := "Set" = "Act") (by decide), h "Set" (.inl (by simp)),
            h "Sign" (.inr ⟨⟨"Act", ["Sign"], none, [2], 2⟩, by decide, by decide, by decide⟩)]
      | x :: y :: A, e =>
        have := congrArg List.length e
        simp at this
  have hp := likely_mass s1 k5 k6.toPoliciesOK hsolved (evidence := []) ⟨List.nodup_nil, by simp⟩ ign
  rw [hact] at hp
  refine ⟨tables, n', _, _, tables₁, n₁, y₁, Ex.loop_new, Ex.loop_gain, h1, hp, ⟨g, n'', h7, h8⟩, hy.trans ?_, hy,
    Ex.unloop_new, u1, u2, u3, u4⟩
  -- no utility is larger than one
  unfold Net.mass
  rw [solved_total sch hn hs.toFeasible h1]
  unfold Net.expectedTotal
  refine sumWorlds_le _ _ (stateVars_names hn) (fun w hw _ => ?_)
  rw [if_pos (by intro e he; cases he), mul_right_comm]
  refine mul_le_mul_of_nonneg_left ?_ (mul_nonneg (prod_nonneg' ?_) (prod_nonneg' ?_))
  · have := Ex.loop_gain w hw
    rwa [Net.asked, if_pos rfl] at this
  · intro x hx
    obtain ⟨f, hf, rfl⟩ := List.mem_map.1 hx
    have key : ∀ f ∈ Ex.loop.chanceTables, ∀ x ∈ f.tab, 0 ≤ x := by decide
    exact prob_nonneg (key f hf) w
  · intro x hx
    obtain ⟨d, hd, rfl⟩ := List.mem_map.1 hx
    obtain ⟨A, B, e⟩ := List.append_of_mem hd
    exact (h5 A d B e).1.nonneg w hw

end Bbn
