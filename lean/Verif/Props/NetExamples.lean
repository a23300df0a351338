import Verif.Spec.Network
import Mathlib.Algebra.Order.Field.Rat

/-!
# Concrete networks used to show that the hypotheses of the property theorems can be met
-/

set_option autoImplicit false

namespace Bbn.Ex

/-- A variable as a user writes it. -/
def nv (name : String) (t : NodeType) (outcomes : List String) : NVar := ⟨name, t, outcomes, (0, 0), "", none⟩

/-- A table as a user writes it. -/
def nf (forVar : String) (given : List String) (table : List ℚ) : NFactor ℚ := ⟨forVar, given, some table, [], 0⟩

/-- The sprinkler network, with percentages and counts as entries. -/
def sprVars : List NVar :=
  [nv "Rain" .chance ["yes", "no"], nv "Sprinkler" .chance ["on", "off"], nv "Grass" .chance ["wet", "dry"]]

/-- Its tables. -/
def sprTables : List (NFactor ℚ) :=
  [nf "Rain" [] [20, 80], nf "Sprinkler" ["Rain"] [1, 99, 4, 6],
    nf "Grass" ["Rain", "Sprinkler"] [99, 1, 8, 2, 9, 1, 0, 10]]

/-- The sprinkler network as `New` builds it. -/
def spr : Net ℚ where
  name := "sprinkler"
  info := ""
  «variables» := [⟨"Rain", .chance, ["yes", "no"], (0, 0), "", some 0⟩,
    ⟨"Sprinkler", .chance, ["on", "off"], (0, 0), "", some 1⟩, ⟨"Grass", .chance, ["wet", "dry"], (0, 0), "", some 2⟩]
  factors := [⟨"Rain", [], some [20, 80], [], 2⟩, ⟨"Sprinkler", ["Rain"], some [1, 99, 4, 6], [2], 2⟩,
    ⟨"Grass", ["Rain", "Sprinkler"], some [99, 1, 8, 2, 9, 1, 0, 10], [2, 2], 2⟩]
  policies := []
  vs := none
  names := []
  totalUtility := none

theorem spr_new : newNet "sprinkler" "" sprVars sprTables = .ok spr := rfl

theorem spr_valid : spr.Valid where
  names := by decide
  named := by decide
  few := by decide
  outcomes := by decide
  tables := by decide
  hasTable := by decide
  known := by decide
  dims := by decide
  parents := by decide
  size := by
    intro f hf _ _
    simp only [spr, List.mem_cons, List.not_mem_nil, or_false] at hf
    rcases hf with rfl | rfl | rfl <;> exact ⟨_, rfl, by decide⟩
  single := by decide
  weights := by intro i h; simp [spr] at h

theorem noPolicies {n : Net ℚ} (h : n.policies = []) : n.PoliciesOK := by
  constructor <;> simp [h]

/-- The grass is wet. -/
def wet : List (String × String) := [("Grass", "wet")]

theorem wet_ok : spr.EvidenceOK wet := ⟨by decide, by decide⟩

/-- The schedule of network calls that iterates over every map backwards. -/
def back : NSched ℚ where
  ve _ := ⟨fun _ l => (List.range l.length).reverse, fun _ l => l.reverse, fun _ l => l.reverse,
    fun _ _ => List.reverse_perm _,
    fun _ l => List.reverse_perm l, fun _ l => List.reverse_perm l⟩
  polOrd _ l := (List.range l.length).reverse
  ev l := l.reverse
  names _ l := l.reverse
  polOrd_perm _ l := List.reverse_perm _
  ev_perm l := List.reverse_perm l
  names_perm _ l := List.reverse_perm l

/-- The umbrella network, with a total-utility node that weights comfort once and effort twice. -/
def umb : Net ℚ where
  name := "umbrella"
  info := ""
  «variables» := [⟨"Weather", .chance, ["sun", "rain"], (0, 0), "", some 0⟩,
    ⟨"Forecast", .chance, ["good", "bad"], (0, 0), "", some 1⟩, ⟨"Umbrella", .decision, ["no", "yes"], (0, 0), "", some 2⟩,
    ⟨"Total", .utility, ["effort", "comfort"], (0, 0), "", some 5⟩,
    ⟨"Comfort", .utility, ["comfort"], (0, 0), "", some 3⟩, ⟨"Effort", .utility, ["effort"], (0, 0), "", some 4⟩]
  factors := [⟨"Weather", [], some [70, 30], [], 2⟩, ⟨"Forecast", ["Weather"], some [8, 2, 1, 9], [2], 2⟩,
    ⟨"Umbrella", ["Forecast"], none, [2], 2⟩,
    ⟨"Comfort", ["Weather", "Umbrella"], some [100, 20, 0, 70], [2, 2], 1⟩, ⟨"Effort", ["Umbrella"], some [0, -5], [2], 1⟩,
    ⟨"Total", ["Effort", "Comfort"], some [2, 1], [1, 1], 2⟩]
  policies := []
  vs := none
  names := []
  totalUtility := some 3

/-- The umbrella network as a user writes it. -/
def umbVars : List NVar :=
  [nv "Weather" .chance ["sun", "rain"], nv "Forecast" .chance ["good", "bad"], nv "Umbrella" .decision ["no", "yes"],
    nv "Total" .utility ["effort", "comfort"], nv "Comfort" .utility ["comfort"], nv "Effort" .utility ["effort"]]

/-- Its tables. -/
def umbTables : List (NFactor ℚ) :=
  [nf "Weather" [] [70, 30], nf "Forecast" ["Weather"] [8, 2, 1, 9], ⟨"Umbrella", ["Forecast"], none, [], 0⟩,
    nf "Comfort" ["Weather", "Umbrella"] [100, 20, 0, 70], nf "Effort" ["Umbrella"] [0, -5],
    nf "Total" ["Effort", "Comfort"] [2, 1]]

theorem umb_new : newNet "umbrella" "" umbVars umbTables = .ok umb := rfl

theorem umb_valid : umb.Valid where
  names := by decide
  named := by decide
  few := by decide
  outcomes := by decide
  tables := by decide
  hasTable := by decide
  known := by decide
  dims := by decide
  parents := by decide
  size := by
    intro f hf h1 h2
    simp only [umb, List.mem_cons, List.not_mem_nil, or_false] at hf
    rcases hf with rfl | rfl | rfl | rfl | rfl | rfl
    · exact ⟨_, rfl, by decide⟩
    · exact ⟨_, rfl, by decide⟩
    · exact absurd h2 (by decide)
    · exact ⟨_, rfl, by decide⟩
    · exact ⟨_, rfl, by decide⟩
    · exact absurd rfl h1
  single := by decide
  weights := by
    intro i h
    have : i = 3 := by simpa [umb] using h.symm
    subst this
    exact ⟨_, 5, _, rfl, rfl, rfl, rfl, rfl, by decide, by decide⟩

/-- The umbrella network with the policy "take it if the forecast is bad". -/
def umbSolved : Net ℚ :=
  { umb with policies := [("Umbrella", ⟨9, [1, 0, 0, 1], [⟨1, 1, 2, .chance⟩, ⟨2, 2, 2, .decision⟩]⟩)] }

theorem umbSolved_valid : umbSolved.Valid :=
  ⟨umb_valid.names, umb_valid.named, umb_valid.few, umb_valid.outcomes, umb_valid.tables, umb_valid.hasTable,
    umb_valid.known, umb_valid.dims, umb_valid.parents, umb_valid.size, umb_valid.single, umb_valid.weights⟩

theorem umbSolved_policies : umbSolved.PoliciesOK where
  keys := by decide
  wf := by
    intro p hp
    simp only [umbSolved, List.mem_singleton] at hp
    subst hp
    exact ⟨by decide, by decide⟩
  decision := by
    intro p hp
    simp only [umbSolved, List.mem_singleton] at hp
    subst hp
    exact ⟨2, _, rfl, rfl, rfl, by decide⟩
  vars := by
    intro p hp w hw
    simp only [umbSolved, List.mem_singleton] at hp
    subst hp
    simp only [List.mem_cons, List.not_mem_nil, or_false] at hw
    rcases hw with rfl | rfl
    · exact ⟨_, rfl, by decide, by decide, rfl, .inl rfl⟩
    · exact ⟨_, rfl, by decide, by decide, rfl, .inl rfl⟩

/-- An umbrella is taken. -/
def taken : List (String × String) := [("Umbrella", "yes")]

theorem taken_ok : umbSolved.EvidenceOK taken := ⟨by decide, by decide⟩

end Bbn.Ex
