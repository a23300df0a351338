import Verif.Props.YamlNodes
import Verif.Props.Xml
import Verif.Props.TuiBasic

/-!
# The theorems about files, logic nodes and arguments, applied to concrete cases
-/

set_option autoImplicit false

namespace Bbn

namespace Ex

/-- C47: a heap on which `count-is 5` was configured. -/
theorem count5 : ∃ h, (initHeap (α := ℚ)).setArgs 23 [5] = .ok h ∧ LReach h :=
  have e : (initHeap (α := ℚ)).setArgs 23 [5] = .ok (initHeap.set 23 (.count 5 .is)) := by decide +kernel
  ⟨_, e, .setArgs _ _ .init e⟩

example : ∃ (h : LHeap ℚ) (p : Nat), (initHeap (α := ℚ)).setArgs 23 [5] = .ok h ∧ logicGet "equals-not" = some p ∧
    (∃ t, h.table p 1 = .ok t ∧ RuleTable t 1 (fun ps => !ps.getD 0 true)) ∧ Errors (h.table p 2) := by
  obtain ⟨h, h1, h2⟩ := count5
  obtain ⟨p, k1, k2, k3⟩ := C47_one_parent h2 (name := "equals-not") (φ := fun A => !A) (by simp [formulas1])
  exact ⟨h, p, h1, k1, k2, k3 2 (by decide)⟩

example : ∃ (h : LHeap ℚ) (p : Nat), logicGet "if-then-not" = some p ∧
    ∃ t, h.table p 1 = .ok t ∧ boolEntry t [true] 2 1 = 1 ∧ boolEntry t [false] 2 1 = 1 / (1 + 1) := by
  obtain ⟨h, _, h2⟩ := count5
  obtain ⟨p, k1, ⟨t, k2, _, k3⟩, _⟩ := C47_conditions h2 (name := "if-then-not") (φ := fun A => A) (c := false)
    (by simp [conditions])
  exact ⟨h, p, k1, t, k2, (k3 true 1 (by decide)).trans (by decide), (k3 false 1 (by decide)).trans (by simp)⟩

/-- A file with a node that is defined by rows and one that is defined by an operator. -/
def yaml : NetYaml ℚ := ⟨"n", "", [⟨"B", [], "", ["t", "f"], (0, 0), "", "", [[3, 7]]⟩,
  ⟨"A", ["B"], "", ["t", "f"], (0, 0), "", "count-is 1", []⟩]⟩

/-- C53: it is loaded alike after `count-is 5` was configured. -/
example : ∃ h, (initHeap (α := ℚ)).setArgs 23 [5] = .ok h ∧ (fromYaml id yaml h).1 = (fromYaml id yaml initHeap).1 := by
  obtain ⟨h, h1, h2⟩ := count5
  exact ⟨h, h1, (C53_network id yaml h2).1⟩

/-- C57: it is loaded, with the table of the operator. -/
example : ∃ (n : Net ℚ) (h : LHeap ℚ), fromYaml id yaml initHeap = (.ok n, h) ∧ ∃ f, n.factors[1]? = some f ∧ f.given = ["B"] ∧
    f.tab = [1, 0, 0, 1] := by
  have ho : (fromYaml id yaml initHeap).1.toOption ≠ none := by decide +kernel
  match e : fromYaml id yaml initHeap with
  | (.error x, h) => rw [e] at ho; exact absurd rfl ho
  | (.ok n, h) =>
    obtain ⟨u, f, _, h2, _, _, _, _, _, _, h3, t, h4, h5⟩ := (C57_loaded .init e).2.2.2.2 1 _ rfl
    refine ⟨n, h, rfl, f, h2, h3, ?_⟩
    rw [show (toTable id (⟨"A", ["B"], "", ["t", "f"], (0, 0), "", "count-is 1", []⟩ : VarYaml ℚ) initHeap).1 =
      .ok (some [1, 0, 0, 1]) by decide +kernel] at h4
    rw [← h5, ← Except.ok.inj h4]
    rfl

/-- C57: an unknown operator after a good node is reported. -/
example (h : LHeap ℚ) (hr : LReach h) : Errors (fromYaml id { yaml with «variables» := yaml.variables ++
    [⟨"A", ["B", "C"], "", ["t", "f"], (0, 0), "", "nand 1", []⟩] } h).1 :=
  (C57_rejected_partial (pre := yaml.variables) (post := []) (by rfl)
    (.operator "nand" ["1"] (by decide +kernel) (by decide) (by decide) (by decide) (by decide)) hr).2 (by
    intro u hu
    have h0 : ∀ u ∈ yaml.variables, (toTable id u initHeap).1.toOption ≠ none := by decide +kernel
    have := h0 u hu
    match e : (toTable id u initHeap).1 with
    | .ok t => exact ⟨t, rfl⟩
    | .error x => rw [e] at this; exact absurd rfl this)

/-- C57: two rows. -/
example : ∃ t, toTable id (⟨"A", ["B"], "", ["t", "f"], (0, 0), "", "", [[1, 2], [3, 4]]⟩ : VarYaml ℚ) initHeap =
    (.ok (some t), initHeap) ∧ t.length = 4 ∧ t[2]? = some 3 := by
  obtain ⟨t, h1, h2, h3⟩ := (C57_rows id (⟨"A", ["B"], "", ["t", "f"], (0, 0), "", "", [[1, 2], [3, 4]]⟩ : VarYaml ℚ) rfl
    initHeap).2 (by decide) 2 (by decide)
  exact ⟨t, h1, h2, h3 1 0 (by decide) _ rfl⟩

/-- C55, C56: the umbrella network. -/
theorem umb_saved : ∀ v ∈ umbVars, 0 < v.outcomes.length ∧ ∃ f, tableFor umbTables v = some f ∧ v.outcomes.length ∣ f.tab.length := by
  intro v hv
  have h : ∀ v ∈ umbVars, 0 < v.outcomes.length ∧ (tableFor umbTables v).any (fun f => v.outcomes.length ∣ f.tab.length) = true := by
    decide +kernel
  obtain ⟨h1, h2⟩ := h v hv
  obtain ⟨f, hf, hd⟩ := (Option.any_eq_true ..).1 h2
  exact ⟨h1, f, hf, of_decide_eq_true hd⟩

example := C55_round_trip "umbrella" "" (by decide) umb_new umb_saved

example : ∃ y n', toYaml umb = .ok y ∧ (∀ lower h, fromYaml lower y h = (.ok n', h)) ∧ n'.info = "" := by
  obtain ⟨y, n', h1, h2, h3, _⟩ := C56_partial "umbrella" "" (by decide) umb_new umb_saved
  exact ⟨y, n', h1, h2, h3.2 rfl⟩

/-- Integers as text. -/
def whole (s : String) : Option ℚ := (goAtoi s).map (fun i => (i : ℚ))

/-- C58: the file with the definitions in another order. -/
example : ∃ n : Net ℚ, fromXml whole xml = .ok n ∧ fromXml whole { xml with definitions := xml.definitions.reverse } = .ok n ∧
    ∃ f, n.factors[1]? = some f ∧ f.given = ["Rain"] := by
  have ho : (fromXml whole xml).toOption ≠ none := by decide +kernel
  rw [C58_order whole xml _ (List.reverse_perm _).symm (by decide)]
  match e : fromXml whole xml with
  | .error x => rw [e] at ho; exact absurd rfl ho
  | .ok n =>
    obtain ⟨u, f, d, _, h2, h3, _, _, _, _, _, h4, _⟩ := (C58_matched e).2.2.2 1 _ rfl
    refine ⟨n, rfl, rfl, f, h2, ?_⟩
    rw [h4, ← Option.some.inj h3]

/-- C58: an unknown type is an error. -/
example : Errors (fromXml whole { xml with «variables» := [⟨"Rain", "chance", ["yes", "no"], []⟩] }) :=
  (C58_errors_partial (by decide)).2 ⟨_, List.mem_singleton_self _, .type (by decide) (by decide) (by decide) (by decide)⟩

/-- C58: words of a table. -/
example : goFields ("\n" ++ wordsText [("9", " "), ("1", "\n\t")] ++ "3") = ["9", "1", "3"] :=
  C58_words (l := [("9", " "), ("1", "\n\t")]) (by decide +kernel) (by decide) (by decide)

/-- C59: one number is no position. -/
example : Errors (parsePosition ["color = red", "position = (7)"]) := by
  refine C59_malformed (pre := ["color = red"]) (post := []) ⟨"position ", " (7)", by decide, by decide, by decide,
    trimmed_iff.1 (by decide), ?_⟩
  rintro ⟨inner, pair, p, q, p', q', x, y, h1, h2, h3, _⟩
  obtain rfl := trimmed_iff.2 h1
  obtain rfl := unwrapped_iff.2 h2
  have : ',' ∈ (goTrimParens (goTrimSpace " (7)")).toList := by rw [h3]; simp
  revert this
  decide

/-- C66: a later entry wins, and a second `=` is an error. -/
example : (∃ m, parseEvidence ["Rain=yes", "Wet=no", "Rain=no"] = .ok m ∧ mapGet m "Rain" = some "no") ∧
    Errors (parseEvidence ["Rain=yes", "a=b=c"]) := by
  obtain ⟨m, h⟩ := (C66_accepted ["Rain=yes", "Wet=no", "Rain=no"]).1.2 (by decide)
  exact ⟨⟨m, h, (C66_values h "Rain" "no").2 ⟨["Rain=yes", "Wet=no"], [], by decide, by decide, by decide, by simp⟩⟩,
    (C66_accepted ["Rain=yes", "a=b=c"]).2 (by decide)⟩

/-- C67: two boxes apart from each other, and a canvas for two nodes. -/
example := C67_extend (b := ⟨3, 4, 2, 2⟩) (o := ⟨-1, 2, 3, 3⟩) (by decide) (by decide)

example (v : NVar) : ∃ g, createCanvas [(⟨v, none, ⟨3, 4, 20, 5⟩, [], 0⟩ : TNode ℚ), ⟨v, none, ⟨30, 1, 18, 6⟩, [], 0⟩] = .ok g := by
  obtain ⟨_, g, h, _⟩ := C67_canvas (nodes := [(⟨v, none, ⟨3, 4, 20, 5⟩, [], 0⟩ : TNode ℚ), ⟨v, none, ⟨30, 1, 18, 6⟩, [], 0⟩])
    (by simp)
  exact ⟨g, h⟩

end Ex

end Bbn
