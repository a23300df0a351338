import Verif.Props.Machine
import Verif.Props.Cost

/-!
# The theorems about 64-bit integers and memory, applied to concrete factors and networks
-/

set_option autoImplicit false

namespace Bbn

namespace Ex

/-- C120: six numbers for a table of six, and five. -/
example : (∃ f s', vs3.createFactorM .go64 [xA, xB] (some ([1, 2, 3, 4, 5, 6] : List ℚ)) = .ok (f, s') ∧ f.data = [1, 2, 3, 4, 5, 6]) ∧
    Panics (vs3.createFactorM .go64 [xA, xB] (some ([1, 2, 3, 4, 5] : List ℚ))) := by
  obtain ⟨f, s', h1, _, h2⟩ := (C120_create_data vs3 [xA, xB] (by decide) ([1, 2, 3, 4, 5, 6] : List ℚ)).1 (by decide)
  exact ⟨⟨f, s', h1, h2⟩, (C120_create_data vs3 [xA, xB] (by decide) ([1, 2, 3, 4, 5] : List ℚ)).2 (by decide)⟩

/-- C120: the position of a tuple, with and without missing values, and one too short. -/
example : (∃ x : GoInt, fAB.index64 [1, 2] = .ok x ∧ x.toInt = 5) ∧ Panics (fAB.index64 [1]) ∧
    (∃ x : GoInt, fAB.indexWithNoData64 [1, 2] = .ok (x, true) ∧ x.toInt = 5) ∧ Panics (fAB.indexWithNoData64 [1]) := by
  obtain ⟨x, h1, _, h2⟩ := (C120_index fAB [1, 2]).2 5 (by decide)
  obtain ⟨y, k1, _, k2⟩ := (C120_indexWithNoData fAB [1, 2]).2 5 true (by decide)
  exact ⟨⟨x, h1, h2 (by decide) (by decide)⟩, (C120_index fAB [1]).1 ⟨_, rfl⟩, ⟨y, k1, k2 (by decide) (by decide)⟩,
    (C120_indexWithNoData fAB [1]).1 ⟨_, rfl⟩⟩

/-- C120: an entry is read and changed. -/
example : fAB.get64 (goInts [1, 2]) = .ok (1/10) ∧ ∃ g, fAB.set64 (goInts [1, 2]) 9 = .ok g := by
  obtain ⟨_, ⟨y, h1, h2⟩, h3⟩ := C120_get_set fAB rfl (by decide) [1, 2] (by unfold InRange; decide)
  rw [show fAB.get (ints [1, 2]) = .ok (1/10) by decide +kernel] at h2
  obtain rfl := Except.ok.inj h2
  exact ⟨h1, (h3 9).imp (fun _ h => h.1)⟩

/-- C120: a row. -/
example : fAB.row64 [1] = .ok [4/10, 5/10, 1/10] :=
  (C120_row fAB (by decide) (by decide) [1]).2.2 _ (by decide +kernel)

/-- C120: the operations on two of the factors. -/
example : (∃ r, vs3.product [fA, fAB] = .ok r ∧ vs3.productM .go64 [fA, fAB] = .ok r) ∧
    ∃ r, vs3.sumOut fAB xA = .ok r ∧ vs3.sumOutM .go64 fAB xA = .ok r := by
  have h := C120_operations_partial vs3 [xA, xB] (by decide) (by decide) [fA, fAB] (by
    intro f hf
    rcases List.mem_cons.1 hf with rfl | hf
    · exact ⟨fA_wf, by decide⟩
    · rw [List.mem_singleton.1 hf]
      exact ⟨fAB_wf, by decide⟩)
  have hp : (vs3.product [fA, fAB]).toOption ≠ none := by decide +kernel
  have hs : (vs3.sumOut fAB xA).toOption ≠ none := by decide +kernel
  constructor
  · match e : vs3.product [fA, fAB] with
    | .ok r => exact ⟨r, rfl, h.1 r e⟩
    | .error x => rw [e] at hp; exact absurd rfl hp
  · match e : vs3.sumOut fAB xA with
    | .ok r => exact ⟨r, rfl, (h.2.2 fAB (by simp)).2.1 xA r e⟩
    | .error x => rw [e] at hs; exact absurd rfl hs

/-- C120: the expected utility of the umbrella network. -/
example (sch : NSched ℚ) (r : Factor ℚ) (n' : Net ℚ) (h : umb.solveUtility sch [("Umbrella", "yes")] [] "" true = (.ok r, n')) :
    umb.solveUtilityM .go64 sch [("Umbrella", "yes")] [] "" true = (.ok r, n') :=
  C120_utility_partial sch umb_valid ⟨by decide, by simp [umb], by simp [umb], by simp [umb]⟩ (by decide) _ _ _ _ r n' h

example : (umb.solveUtility (norder false) [("Umbrella", "yes")] [] "" true).1.toOption.map Factor.data = some [37 / 5, 88 / 5] := by decide +kernel

/-- C120: calls that no integer is too small for. -/
example : ∃ r n', umb.solveQueryM .careful back [("Forecast", "good")] ["Weather"] false = (.ok r, n') ∧
    umb.solveQueryM .go64 back [("Forecast", "good")] ["Weather"] false = (.ok r, n') := by
  have hp : (umb.solveQueryM .careful back [("Forecast", "good")] ["Weather"] false).1.toOption ≠ none := by decide +kernel
  match e : umb.solveQueryM .careful back [("Forecast", "good")] ["Weather"] false with
  | (.ok r, n') => exact ⟨r, n', rfl, ((C120_careful_partial back umb).1 _ _ _ _ _ e).1⟩
  | (.error x, n') => rw [e] at hp; exact absurd rfl hp

/-- C134: in the sprinkler network, the grass is taken out after the rain. -/
example (order : List Nat) (h : spr.TakesOut [] ["Sprinkler"] order) : order = [0, 2] := by
  refine (C134_taken_out_in_one_order spr [] ["Sprinkler"]).unique h ⟨fun i => ?_, by decide +kernel⟩
  match i with
  | 0 => simp [spr]
  | 1 => simp [spr]
  | 2 => simp [spr]
  | i + 3 => simp [spr]

/-- C134: the same observed variable with two outcomes. -/
example := C134_memory_need_ignores_numbers spr_valid spr_valid (by unfold Net.AllChance; decide) rfl rfl rfl rfl
  wet_ok (evidence' := [("Grass", "dry")]) ⟨by decide, by decide⟩ rfl (query := ["Sprinkler"]) (by decide) 7 back (norder true)
  false true

/-- C135: two steps of a hidden Markov model, asked for the first state: the last signal is taken out before the state it
comes from. -/
example (sch : NSched ℚ) (ign : Bool) : (forest 4 markov).solveQueryM (.memory 8) sch [] ["0"] ign =
    (forest 4 markov).solveQuery sch [] ["0"] ign := by
  refine C135_small_tables_children_first_partial (forest_valid (by omega) markov_lt) forest_chance rfl (by decide +kernel) (k := 2)
    (by omega) (fun v hv => (forest_outcomes v hv).le) ⟨by simp, by simp⟩ (by decide +kernel) (order := [1, 3, 2])
    ⟨fun i => ?_, by decide +kernel⟩ (by decide +kernel) (by decide) sch ign
  match i with
  | 0 => decide +kernel
  | 1 => decide +kernel
  | 2 => decide +kernel
  | 3 => decide +kernel
  | i + 4 => simp [forest]

end Ex

end Bbn
