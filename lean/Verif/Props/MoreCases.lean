import Verif.Props.CommandCases
import Verif.Props.NetUnused
import Verif.Props.NetExpect
import Verif.Props.NetRounding
import Verif.Props.UtilityRounding
import Verif.Props.Reproduce
import Verif.Props.Range
import Verif.Props.TuiBasic

/-!
# More concrete cases: networks with decisions in rounded arithmetic, commands, the app
-/

set_option autoImplicit false

namespace Bbn

namespace Ex

/-- A network with two decisions that see each other, as a file. -/
def duelYaml : NetYaml ℚ where
  name := "duel"
  info := ""
  «variables» := [⟨"Left", ["Right"], "decision", ["a", "b"], (0, 0), "", "", []⟩,
    ⟨"Right", ["Left"], "decision", ["a", "b"], (0, 0), "", "", []⟩,
    ⟨"Value", ["Left", "Right"], "utility", ["value"], (0, 0), "", "", [[7], [0], [2], [10]]⟩]

/-- C106: `bbn inference` fails for it. -/
example (sch0 : NSched ℚ) (sch : Nat → NSched ℚ) (fix : Option ℚ → String) :
    ¬ ∃ text, inferenceCommand lib (fun p => if p = "duel.yml" then some (.inl duelYaml) else none) fix sch0 sch "duel.yml"
      ["Left=a"] initHeap = .ok text :=
  C106_inference lib _ fix sch0 sch "duel.yml" ["Left=a"] initHeap (n := duel) rfl duel_valid (fun h => h.acyclic _ duel_cycle)

/-- The umbrella network with its policy, in 53 bit arithmetic. -/
abbrev umbDbl : Net Dbl := umbSolved.mapNum Dbl.mk

theorem umbDbl_val : umbDbl.mapNum Dbl.val = umbSolved := (Net.mapNum_mapNum _ _ _).trans umbSolved.mapNum_id

/-- Asked about the decision when the weather is sun. -/
theorem umbSolved_ask : umbSolved.QueryOK [("Weather", "sun")] false ["Umbrella", "Forecast"] where
  state := by decide
  free := by decide
  occurs := by
    have h : ∀ q ∈ ["Umbrella", "Forecast"], ∃ p ∈ umbSolved.active [("Weather", "sun")] false, ∃ w ∈ p.2.vars,
        (umbSolved.variables[w.id]?).map NVar.name = some q := by decide +kernel
    exact fun q hq => .inr (h q hq)

/-- C93: the probability to leave the umbrella at home when the sun shines is 4/5, in 53 bit arithmetic up to rounding. -/
example (sch : NSched Dbl) : ∃ r f n', umbDbl.solveQuery sch [("Weather", "sun")] ["Umbrella", "Forecast"] false =
      (.ok (r, f), n') ∧ ∃ d x, ("Umbrella", d) ∈ r ∧ d[0]? = some x ∧
        Within (1 / 2 ^ 53 : ℚ) (4 * umbDbl.outcomeTotal + 8 * umbDbl.variables.length + 2 * f.data.length + 3) x.val (4 / 5) := by
  obtain ⟨r, f, n', h1, _, _, h4⟩ := C93_rounding dbl_rounding sch (n := umbDbl) (by rw [umbDbl_val]; exact umbSolved_valid)
    (by rw [umbDbl_val]; exact umbSolved_policies) (by rw [umbDbl_val]; exact umbSolved_nonneg)
    (evidence := [("Weather", "sun")]) (by rw [umbDbl_val]; exact ⟨by decide, by decide⟩)
    (query := ["Umbrella", "Forecast"]) false (by rw [umbDbl_val]; exact umbSolved_ask) (by rw [umbDbl_val]; decide +kernel)
  obtain ⟨d, d1, _, d3⟩ := h4 "Umbrella" (by simp)
  obtain ⟨x, x1, x2⟩ := d3 0 (by decide)
  refine ⟨r, f, n', h1, d, x, d1, x1, ?_⟩
  rw [umbDbl_val] at x2
  have e : umbSolved.mass (umbSolved.active [("Weather", "sun")] false)
        (fun w => umbSolved.Agrees [("Weather", "sun")] w ∧ w "Umbrella" = 0) /
      umbSolved.mass (umbSolved.active [("Weather", "sun")] false) (umbSolved.Agrees [("Weather", "sun")]) = 4 / 5 := by
    decide +kernel
  rw [e] at x2
  exact x2

/-- C118: two runs of the same query agree up to rounding, and on what is impossible. -/
example (sch sch' : NSched Dbl) : ∃ r f n₁ r' f' n₂,
    umbDbl.solveQuery sch [("Weather", "sun")] ["Umbrella", "Forecast"] false = (.ok (r, f), n₁) ∧
    umbDbl.solveQuery sch' [("Weather", "sun")] ["Umbrella", "Forecast"] false = (.ok (r', f'), n₂) ∧
    ∃ d d' x x', ("Forecast", d) ∈ r ∧ ("Forecast", d') ∈ r' ∧ d[1]? = some x ∧ d'[1]? = some x' ∧ (x = 0 ↔ x' = 0) := by
  obtain ⟨r, f, n₁, r', f', n₂, h1, h2, _, _, _, _, h7⟩ := C118_close_partial dbl_rounding sch sch' (n := umbDbl)
    (by rw [umbDbl_val]; exact umbSolved_valid)
    (by rw [umbDbl_val]; exact umbSolved_policies) (by rw [umbDbl_val]; exact umbSolved_nonneg)
    (evidence := [("Weather", "sun")]) (by rw [umbDbl_val]; exact ⟨by decide, by decide⟩)
    (query := ["Umbrella", "Forecast"]) false (by rw [umbDbl_val]; exact umbSolved_ask) (by rw [umbDbl_val]; decide +kernel)
  obtain ⟨d, d', d1, d2, _, _, d3⟩ := h7 "Forecast" (by simp)
  obtain ⟨x, x', x1, x2, x3, _⟩ := d3 1 (by decide)
  exact ⟨r, f, n₁, r', f', n₂, h1, h2, d, d', x, x', d1, d2, x1, x2, x3⟩

/-- C114: how much rain and a bad forecast add to the expected total utility, in 53 bit arithmetic: 16.2 up to rounding. -/
example (sch : NSched Dbl) : ∃ g n', umbDbl.solveUtility sch [("Weather", "rain")] ["Forecast"] "" false = (.ok g, n') ∧
    ∃ y, g.get (ints (tupleOf g.vars (umbDbl.ids (fun s => if s = "Forecast" then 1 else 0)))) = .ok y ∧
      Off (1 / 2 ^ 53 : ℚ) (2 * umbDbl.outcomeTotal + 6 * umbDbl.variables.length + 1) y.val (81 / 5) (108 / 5) := by
  obtain ⟨g, n', h1, _, h3⟩ := C114_rounding dbl_signed sch (n := umbDbl) (by rw [umbDbl_val]; exact umbSolved_valid)
    (by rw [umbDbl_val]; exact umbSolved_policies) (by rw [umbDbl_val]; exact umbSolved_nonneg)
    (evidence := [("Weather", "rain")]) (by rw [umbDbl_val]; exact ⟨by decide, by decide⟩) (query := ["Forecast"])
    (by rw [umbDbl_val]; decide) (s := "") (.inl ⟨rfl, by decide⟩) false
  obtain ⟨y, y1, y2⟩ := h3 (fun s => if s = "Forecast" then 1 else 0) (by decide)
  refine ⟨g, n', h1, y, y1, ?_⟩
  rw [umbDbl_val] at y2
  have e1 : sumWorlds (umbSolved.hiddenVars [("Weather", "rain")] ["Forecast"]) (fun w =>
      umbSolved.joint (umbSolved.active [("Weather", "rain")] false) (umbSolved.observe [("Weather", "rain")] w) *
        umbSolved.asked "" (umbSolved.observe [("Weather", "rain")] w)) (fun s => if s = "Forecast" then 1 else 0) = 81 / 5 := by
    decide +kernel
  have e2 : sumWorlds (umbSolved.hiddenVars [("Weather", "rain")] ["Forecast"]) (fun w =>
      umbSolved.joint (umbSolved.active [("Weather", "rain")] false) (umbSolved.observe [("Weather", "rain")] w) *
        umbSolved.askedSize "" (umbSolved.observe [("Weather", "rain")] w)) (fun s => if s = "Forecast" then 1 else 0) =
      108 / 5 := by
    decide +kernel
  rw [e1, e2] at y2
  exact y2

/-- The umbrella network with its policy, with Go's `float64`. -/
abbrev umbF64 : Net F64 := umbSolved.mapNum F64.num

theorem umbF64_val : umbF64.mapNum F64.val = umbSolved := (Net.mapNum_mapNum _ _ _).trans umbSolved.mapNum_id

set_option exponentiation.threshold 2000 in
/-- C121: the same query with Go's `float64`: the numbers of the chance tables and the policy are far from the limits. -/
example (sch : NSched F64) : ∃ r f n', umbF64.solveQuery sch [("Weather", "sun")] ["Umbrella", "Forecast"] false =
      (.ok (r, f), n') ∧ ∃ d x, ("Umbrella", d) ∈ r ∧ d[0]? = some x ∧
        ∀ E : Nat, E = 4 * umbF64.outcomeTotal + 8 * umbF64.variables.length + 168 + 2 * f.data.length + 3 → E ≤ 1000 →
          Within (1 / 2 ^ 53 : ℚ) E x.val (4 / 5) := by
  have hsize : ∀ f ∈ umbSolved.factors, ∀ x ∈ f.tab, 0 < x → (1 / 2) ^ 7 ≤ x ∧ x ≤ 2 ^ 7 := by decide +kernel
  have hpol : ∀ p ∈ umbSolved.policies, ∀ x ∈ p.2.data, x = 0 ∨ x = 1 := by decide +kernel
  obtain ⟨r, f, n', h1, _, _, h4⟩ := C121_range_partial f64_ranged (B := 1000) (by norm_num) (by norm_num) sch (n := umbF64)
    (bits := fun _ => 7) ⟨by
      intro f hf x hx
      obtain ⟨g, hg, rfl⟩ := List.mem_map.1 hf
      rw [NFactor.tab_mapNum] at hx
      obtain ⟨y, hy, rfl⟩ := List.mem_map.1 hx
      exact hsize g hg y hy, by
      intro p hp x hx
      obtain ⟨q, hq, rfl⟩ := List.mem_map.1 hp
      obtain ⟨y, hy, rfl⟩ := List.mem_map.1 hx
      exact hpol q hq y hy⟩ (fun _ _ => by norm_num) (by rw [umbF64_val]; exact umbSolved_valid)
    (by rw [umbF64_val]; exact umbSolved_policies) (by rw [umbF64_val]; exact umbSolved_nonneg)
    (evidence := [("Weather", "sun")]) (by rw [umbF64_val]; exact ⟨by decide, by decide⟩)
    (query := ["Umbrella", "Forecast"]) false (by rw [umbF64_val]; exact umbSolved_ask) (by rw [umbF64_val]; decide +kernel)
  obtain ⟨d, d1, _, d3⟩ := h4 "Umbrella" (by simp)
  obtain ⟨x, x1, x2⟩ := d3 0 (by decide)
  refine ⟨r, f, n', h1, d, x, d1, x1, fun E hE hB => ?_⟩
  have x3 := x2 E (by rw [hE]; rfl) hB
  rw [umbF64_val] at x3
  have e : umbSolved.mass (umbSolved.active [("Weather", "sun")] false)
        (fun w => umbSolved.Agrees [("Weather", "sun")] w ∧ w "Umbrella" = 0) /
      umbSolved.mass (umbSolved.active [("Weather", "sun")] false) (umbSolved.Agrees [("Weather", "sun")]) = 4 / 5 := by
    decide +kernel
  rw [e] at x3
  exact x3

/-- Rain, and grass that gets wet by rain, right of it and further down. -/
def rainGrass : App ℚ where
  nodes := [tn ⟨"Rain", .chance, ["yes", "no"], (0, 0), "", some 0⟩ (nf "Rain" [] [1, 4]),
    tn ⟨"Wet", .chance, ["yes", "no"], (40, 10), "", some 1⟩ (nf "Wet" ["Rain"] [9, 1, 2, 8])]
  byName := [("Rain", 0), ("Wet", 1)]
  network := pair
  evidence := []
  marginals := []
  selectedNode := 0
  selectedState := 0
  ignorePolicies := false
  canvas := []
  colors := []
  text := ""

/-- C92: the head of the arrow is right above the box of the grass. -/
example : ∃ x, rainGrass.canvasRune exactFm 9 x = 'v' := by
  have h : ∃ x ∈ (List.range 80).map Int.ofNat, edgeRune (nodeBounds ⟨"Rain", .chance, ["yes", "no"], (0, 0), "", some 0⟩)
      (nodeBounds ⟨"Wet", .chance, ["yes", "no"], (40, 10), "", some 1⟩) 9 x = some 'v' ∧
      ∀ m ∈ rainGrass.nodes, ¬ m.bounds.Covers (9, x) := by
    simp only [covers_iff]
    decide +kernel
  obtain ⟨x, _, h1, h2⟩ := h
  refine ⟨x, C92_shown_partial (fm := exactFm) (a := rainGrass) (e := (nodeBounds _, nodeBounds _)) ?_ h1 h2 ?_⟩
  · exact List.mem_singleton.2 rfl
  · exact fun e he _ => List.mem_singleton.1 he

/-- C73: without a no-data value, the app is trained with the file. -/
example : (loadApp pf (fun _ _ => .ok (["Coin", "Gain"], [["heads", "10"], ["", "30"], ["tails", "30"]])) coin
    (newAppArgs "coin.yml" [] "data.csv" "" ',')).map (fun n => n.factors.map NFactor.tab) = .ok [[1/2, 1/2], [5, 15]] := by
  rw [C73_partial]
  decide +kernel

end Ex

end Bbn
