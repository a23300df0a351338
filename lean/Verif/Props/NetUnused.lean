import Verif.Lemmas.Stuck
import Verif.Props.NetExamples
import Verif.Props.NetPolicies
import Verif.Model.Commands

/-!
# C106: which networks can be solved
-/

set_option autoImplicit false

namespace Bbn

variable {α : Type} [Field α] [LinearOrder α] [IsStrictOrderedRing α]

/-- No policies for a network with decisions that cannot be solved. -/
theorem solvePolicies_stuck (sch : NSched α) {n : Net α} (hn : n.Valid) {S : String → Prop} (hne : ∃ s, S s)
    (hk : ∀ s, S s → n.isKind .decision s = true)
    (hw : ∀ s, S s → n.Unused s ∨ ∃ t, S t ∧ t ≠ s ∧ ∃ f ∈ n.factors, f.forVar = t ∧ s ∈ f.given)
    (stepwise : Bool) : ¬ ∃ tables, (n.solvePolicies sch stepwise).1 = .ok tables := by
  rintro ⟨tables, h⟩
  have hopen : Net.openDecisions { n with policies := [] } = n.variables.filter (fun v => v.nodeType = .decision) := by
    unfold Net.openDecisions
    apply List.filter_congr
    intro v _
    simp [Net.hasPolicy, mapGet]
  have hpos : 0 < n.countDecisionSteps stepwise := by
    unfold Net.countDecisionSteps
    dsimp only
    split_ifs <;> omega
  unfold Net.solvePolicies at h
  dsimp only at h
  cases hs : Net.policySteps sch stepwise (n.countDecisionSteps stepwise) 0 { n with policies := [] } with
  | mk r n' =>
  rw [hs] at h
  cases r with
  | error e => cases h
  | ok u =>
    refine policySteps_stuck sch stepwise hne _ 0 { n with policies := [] } n' (hn.with n.vs n.names [])
      ⟨fun s hs => ⟨hk s hs, by simp [Net.hasPolicy, mapGet]⟩, ?_⟩ hpos ?_ hs
    · intro s hs
      rcases hw s hs with h | h
      · exact .inl ⟨h, fun i v _ _ p hp => by cases hp⟩
      · exact .inr h
    · intro e
      rw [hopen]
      unfold Net.countDecisionSteps
      rw [if_neg (by simp [e])]
      dsimp only
      split_ifs with h0 <;> omega

/-- **C106 (unused decisions).** If a decision is a parent of no chance and no utility variable, `SolvePolicies` returns
no policies, also none for the other decisions, whatever the iteration orders of maps, in both modes. -/
theorem C106_unused_fails (sch : NSched α) {n : Net α} (hn : n.Valid) {v : NVar} (hv : v ∈ n.variables)
    (hd : v.nodeType = .decision)
    (hun : ∀ f ∈ n.factors, f.forVar ≠ n.totalName → n.isKind .decision f.forVar = false → v.name ∉ f.given)
    (stepwise : Bool) : ¬ ∃ tables, (n.solvePolicies sch stepwise).1 = .ok tables :=
  solvePolicies_stuck sch hn (S := fun s => s = v.name) ⟨_, rfl⟩
    (fun s hs => by rw [hs]; exact (isKind_iff hn hv _).2 hd) (fun s hs => .inl (by rw [hs]; exact hun)) stepwise

/-- **C106 (cycles).** If a decision informs itself through other decisions, `SolvePolicies` returns no policies, in both
modes. -/
theorem C106_cycle_fails (sch : NSched α) {n : Net α} (hn : n.Valid) {s : String}
    (hs : Relation.TransGen n.DecisionParent s s) (stepwise : Bool) :
    ¬ ∃ tables, (n.solvePolicies sch stepwise).1 = .ok tables := by
  refine solvePolicies_stuck sch hn (S := fun s => Relation.TransGen n.DecisionParent s s) ⟨s, hs⟩ ?_ ?_ stepwise
  · intro s hs
    obtain ⟨_, h, _⟩ := Relation.TransGen.head'_iff.1 hs
    exact h.1
  · intro s hs
    obtain ⟨t, h1, h2⟩ := Relation.TransGen.head'_iff.1 hs
    obtain ⟨k1, k2, f, hf, hft, hg⟩ := h1
    refine .inr ⟨t, ?_, ?_, f, hf, hft, hg⟩
    · exact Relation.TransGen.tail' h2 ⟨k1, k2, f, hf, hft, hg⟩
    · rintro rfl
      have := hn.dims f hf
      rw [NFactor.dims, List.nodup_append] at this
      exact this.2.2 t hg f.forVar (List.mem_singleton_self _) hft.symm

/-- **C106 (partial).** For a valid network, with utilities or without, `SolvePolicies` succeeds exactly if every decision
is a parent of a chance or utility variable and no decision informs itself, directly or through other decisions. The full
claim, that every network accepted by `New` can be solved, is false: `C106_refuted`. -/
theorem C106_partial (sch : NSched α) {n : Net α} (hn : n.Valid) (stepwise : Bool) :
    (∃ tables, (n.solvePolicies sch stepwise).1 = .ok tables) ↔
      (∀ v ∈ n.variables, v.nodeType = .decision → ∃ f ∈ n.factors, f.forVar ≠ n.totalName ∧
        n.isKind .decision f.forVar = false ∧ v.name ∈ f.given) ∧
      ∀ s, ¬ Relation.TransGen n.DecisionParent s s := by
  constructor
  · intro h
    refine ⟨fun v hv hd => ?_, fun s hs => C106_cycle_fails sch hn hs stepwise h⟩
    by_contra hc
    exact C106_unused_fails sch hn hv hd (fun f hf h1 h2 h3 => hc ⟨f, hf, h1, h2, h3⟩) stepwise h
  · rintro ⟨h, hac⟩
    obtain ⟨tables, n', h1, _⟩ := C46_policy_tables sch hn (fun _ => ⟨h, hac⟩) stepwise
    exact ⟨tables, by rw [h1]⟩

/-- **C106 (bbni).** With a network that cannot be solved the interactive app does not start, whatever the evidence. -/
theorem C106_app (fm : Fmt α) (sch0 : NSched α) (sch : Nat → NSched α) {n : Net α} (hn : n.Valid) (hf : ¬ n.Feasible)
    (evidence : List (String × String)) : ¬ ∃ a, startApp fm sch0 sch n evidence = .ok a := by
  rintro ⟨a, h⟩
  unfold startApp at h
  obtain ⟨nodes, _, h⟩ := bind_inv h
  dsimp only at h
  obtain ⟨tables, h1, _⟩ := bind_inv h
  obtain ⟨h2, h3⟩ := (C106_partial sch0 hn true).1 ⟨tables, h1⟩
  exact hf ⟨h2, h3⟩

/-- **C106 (bbn inference).** Nor does `bbn inference` print anything for a file with such a network. -/
theorem C106_inference {B : Type} (lib : Lib α B) (disk : Disk B) (fix : Option α → String) (sch0 : NSched α)
    (sch : Nat → NSched α) (path : String) (evidence : List String) (heap : LHeap α) {n : Net α}
    (hf : (fromFile lib disk path heap).1 = .ok n) (hn : n.Valid) (hnf : ¬ n.Feasible) :
    ¬ ∃ text, inferenceCommand lib disk fix sch0 sch path evidence heap = .ok text := by
  rintro ⟨text, h⟩
  unfold inferenceCommand at h
  obtain ⟨r, h, _⟩ := bind_inv h
  unfold runInference at h
  rw [hf, ok_bind] at h
  obtain ⟨ev, _, h⟩ := bind_inv h
  obtain ⟨nodes, _, h⟩ := bind_inv h
  obtain ⟨tables, h1, _⟩ := bind_inv h
  obtain ⟨h2, h3⟩ := (C106_partial sch0 hn true).1 ⟨tables, h1⟩
  exact hnf ⟨h2, h3⟩

namespace Ex

/-- A network with a decision that nothing depends on, as a user writes it. -/
def hatVars : List NVar :=
  [nv "Rain" .chance ["yes", "no"], nv "Umbrella" .decision ["take", "leave"], nv "Hat" .decision ["take", "leave"],
    nv "Comfort" .utility ["comfort"]]

/-- Its tables. -/
def hatTables : List (NFactor ℚ) :=
  [nf "Rain" [] [20, 80], ⟨"Hat", ["Rain"], none, [], 0⟩, nf "Comfort" ["Rain", "Umbrella"] [7, 0, 2, 10]]

/-- The network as `New` builds it. -/
def hat : Net ℚ where
  name := "hat"
  info := ""
  «variables» := [⟨"Rain", .chance, ["yes", "no"], (0, 0), "", some 0⟩,
    ⟨"Umbrella", .decision, ["take", "leave"], (0, 0), "", none⟩, ⟨"Hat", .decision, ["take", "leave"], (0, 0), "", some 1⟩,
    ⟨"Comfort", .utility, ["comfort"], (0, 0), "", some 2⟩]
  factors := [⟨"Rain", [], some [20, 80], [], 2⟩, ⟨"Hat", ["Rain"], none, [2], 2⟩,
    ⟨"Comfort", ["Rain", "Umbrella"], some [7, 0, 2, 10], [2, 2], 1⟩]
  policies := []
  vs := none
  names := []
  totalUtility := none

theorem hat_new : newNet "hat" "" hatVars hatTables = .ok hat := rfl

theorem hat_valid : hat.Valid where
  names := by decide
  named := by decide
  few := by decide
  outcomes := by decide
  tables := by decide
  hasTable := by decide
  known := by decide
  dims := by decide
  parents := by decide
  size := by
    intro f hf h1 h2
    simp only [hat, List.mem_cons, List.not_mem_nil, or_false] at hf
    rcases hf with rfl | rfl | rfl
    · exact ⟨_, rfl, by decide⟩
    · exact absurd h2 (by decide)
    · exact ⟨_, rfl, by decide⟩
  single := by decide
  weights := by intro i h; simp [hat] at h

/-- A network with two decisions that see each other, as a user writes it. -/
def duelVars : List NVar :=
  [nv "Left" .decision ["a", "b"], nv "Right" .decision ["a", "b"], nv "Value" .utility ["value"]]

/-- Its tables. -/
def duelTables : List (NFactor ℚ) :=
  [⟨"Left", ["Right"], none, [], 0⟩, ⟨"Right", ["Left"], none, [], 0⟩, nf "Value" ["Left", "Right"] [7, 0, 2, 10]]

/-- The network as `New` builds it. -/
def duel : Net ℚ where
  name := "duel"
  info := ""
  «variables» := [⟨"Left", .decision, ["a", "b"], (0, 0), "", some 0⟩, ⟨"Right", .decision, ["a", "b"], (0, 0), "", some 1⟩,
    ⟨"Value", .utility, ["value"], (0, 0), "", some 2⟩]
  factors := [⟨"Left", ["Right"], none, [2], 2⟩, ⟨"Right", ["Left"], none, [2], 2⟩,
    ⟨"Value", ["Left", "Right"], some [7, 0, 2, 10], [2, 2], 1⟩]
  policies := []
  vs := none
  names := []
  totalUtility := none

theorem duel_new : newNet "duel" "" duelVars duelTables = .ok duel := rfl

theorem duel_valid : duel.Valid where
  names := by decide
  named := by decide
  few := by decide
  outcomes := by decide
  tables := by decide
  hasTable := by decide
  known := by decide
  dims := by decide
  parents := by decide
  size := by
    intro f hf h1 h2
    simp only [duel, List.mem_cons, List.not_mem_nil, or_false] at hf
    rcases hf with rfl | rfl | rfl
    · exact absurd h2 (by decide)
    · exact absurd h2 (by decide)
    · exact ⟨_, rfl, by decide⟩
  single := by decide
  weights := by intro i h; simp [duel] at h

theorem duel_cycle : Relation.TransGen duel.DecisionParent "Left" "Left" :=
  .tail (.single (b := "Right") ⟨by decide, by decide, ⟨"Right", ["Left"], none, [2], 2⟩, by decide, rfl, by decide⟩)
    ⟨by decide, by decide, ⟨"Left", ["Right"], none, [2], 2⟩, by decide, rfl, by decide⟩

/-- A network without utilities: whether to look at the weather. -/
def lookVars : List NVar := [nv "Look" .decision ["yes", "no"], nv "Seen" .chance ["yes", "no"]]

/-- Its tables. -/
def lookTables : List (NFactor ℚ) := [nf "Seen" ["Look"] [1, 0, 0, 1]]

/-- The network as `New` builds it. -/
def look : Net ℚ where
  name := "look"
  info := ""
  «variables» := [⟨"Look", .decision, ["yes", "no"], (0, 0), "", none⟩, ⟨"Seen", .chance, ["yes", "no"], (0, 0), "", some 0⟩]
  factors := [⟨"Seen", ["Look"], some [1, 0, 0, 1], [2], 2⟩]
  policies := []
  vs := none
  names := []
  totalUtility := none

theorem look_new : newNet "look" "" lookVars lookTables = .ok look := rfl

theorem look_valid : look.Valid where
  names := by decide
  named := by decide
  few := by decide
  outcomes := by decide
  tables := by decide
  hasTable := by decide
  known := by decide
  dims := by decide
  parents := by decide
  size := by
    intro f hf h1 h2
    simp only [look, List.mem_cons, List.not_mem_nil, or_false] at hf
    subst hf
    exact ⟨_, rfl, by decide⟩
  single := by decide
  weights := by intro i h; simp [look] at h

end Ex

/-- **C106 (refuted).** `New` accepts the networks below, but `SolvePolicies` never returns policies for them: in the first
the decision `Hat` sees the rain, but nothing depends on it; in the second two decisions see each other. -/
theorem C106_refuted : newNet "hat" "" Ex.hatVars Ex.hatTables = .ok Ex.hat ∧
    newNet "duel" "" Ex.duelVars Ex.duelTables = .ok Ex.duel ∧
    ∀ (sch : NSched ℚ) (stepwise : Bool), (¬ ∃ tables, (Ex.hat.solvePolicies sch stepwise).1 = .ok tables) ∧
      ¬ ∃ tables, (Ex.duel.solvePolicies sch stepwise).1 = .ok tables :=
  ⟨Ex.hat_new, Ex.duel_new, fun sch stepwise => ⟨C106_unused_fails sch Ex.hat_valid
    (v := ⟨"Hat", .decision, ["take", "leave"], (0, 0), "", some 1⟩) (by decide) rfl (by decide) stepwise,
    C106_cycle_fails sch Ex.duel_valid Ex.duel_cycle stepwise⟩⟩

/-- The app does not start with them. -/
example (fm : Fmt ℚ) (sch : NSched ℚ) : (¬ ∃ a, startApp fm sch (fun _ => sch) Ex.hat [("Rain", "yes")] = .ok a) ∧
    ¬ ∃ a, startApp fm sch (fun _ => sch) Ex.duel [] = .ok a :=
  ⟨C106_app fm sch (fun _ => sch) Ex.hat_valid (fun h => absurd (h.used
    ⟨"Hat", .decision, ["take", "leave"], (0, 0), "", some 1⟩ (by decide) rfl) (by decide)) _,
    C106_app fm sch (fun _ => sch) Ex.duel_valid (fun h => h.acyclic _ Ex.duel_cycle) _⟩

/-- The umbrella network meets the conditions of `C106_partial`, and is solved. -/
example (sch : NSched ℚ) : ∃ tables, (Ex.umb.solvePolicies sch true).1 = .ok tables :=
  (C106_partial sch Ex.umb_valid true).2 ⟨Ex.umb_solvable.used, Ex.umb_solvable.acyclic⟩

/-- So does the network without utilities. -/
example (sch : NSched ℚ) (stepwise : Bool) : ∃ tables, (Ex.look.solvePolicies sch stepwise).1 = .ok tables := by
  refine (C106_partial sch Ex.look_valid stepwise).2 ⟨by decide, fun s h => ?_⟩
  obtain ⟨_, ⟨_, h2, f, hf, rfl, h3⟩, _⟩ := Relation.TransGen.head'_iff.1 h
  have : ∀ f ∈ Ex.look.factors, Ex.look.isKind .decision f.forVar = false := by decide
  rw [this f hf] at h2
  cases h2

end Bbn
