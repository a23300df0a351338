import Verif.Props.NetNaN
import Verif.Props.NetBayes
import Verif.Props.NetJoint
import Verif.Props.NetSettle
import Verif.Props.NetAside
import Verif.Props.Concurrent
import Verif.Props.Memory
import Verif.Props.Reproduce

/-!
# The theorems about networks, applied to concrete networks
-/

set_option autoImplicit false

namespace Bbn

namespace Ex

/-- Rain and the sprinkler can be asked for together, given wet grass. -/
theorem spr_both : spr.QueryOK wet false ["Rain", "Sprinkler"] := ⟨by decide, by decide, by
  intro q hq
  simp only [List.mem_cons, List.not_mem_nil, or_false] at hq
  rcases hq with rfl | rfl
  · exact chance_occurs spr_valid _ (v := ⟨"Rain", .chance, ["yes", "no"], (0, 0), "", some 0⟩) (by decide) rfl
  · exact chance_occurs spr_valid _ (v := ⟨"Sprinkler", .chance, ["on", "off"], (0, 0), "", some 1⟩) (by decide) rfl⟩

/-- C32: the alarm is quiet, so the answer is finite: 1/10. -/
example (sch : NSched (Ext ℚ)) : ∃ r f n',
    (silent.mapNum .fin).solveQuery sch [("Alarm", "quiet")] ["Burglar"] false = (.ok (r, f), n') ∧
      ("Burglar", [.fin (1/10), .fin (9/10)]) ∈ r := by
  obtain ⟨r, f, n', h1, _, _, h4⟩ := C32_possible sch silent_valid (noPolicies rfl)
    (evidence := [("Alarm", "quiet")]) ⟨by decide, by decide⟩ (query := ["Burglar"]) false
    ⟨by decide, by decide, by
      intro q hq
      simp only [List.mem_singleton] at hq
      subst hq
      exact chance_occurs silent_valid _ (v := ⟨"Burglar", .chance, ["yes", "no"], (0, 0), "", some 0⟩) (by decide) rfl⟩
    (by decide +kernel)
  refine ⟨r, f, n', h1, ?_⟩
  have := h4 "Burglar" (by simp)
  rwa [show (List.range (silent.count "Burglar")).map (fun k => Ext.fin
    (silent.mass (silent.active [("Alarm", "quiet")] false) (fun w => silent.Agrees [("Alarm", "quiet")] w ∧ w "Burglar" = k) /
      silent.mass (silent.active [("Alarm", "quiet")] false) (silent.Agrees [("Alarm", "quiet")]))) =
    [.fin (1/10), .fin (9/10)] by decide +kernel] at this

/-- C37: both are answered. -/
example (sch : NSched ℚ) : ∃ r f n', spr.solveQuery sch wet ["Rain", "Sprinkler"] false = (.ok (r, f), n') ∧
    ∀ s, s ∈ r.map Prod.fst ↔ s ∈ ["Rain", "Sprinkler"] :=
  C37_disjoint_partial sch spr_valid (noPolicies rfl) wet_ok false spr_both

/-- C80: the policy of the umbrella network depends on the forecast at most. -/
example (sch : NSched ℚ) (stepwise : Bool) : ∃ tables n', umb.solvePolicies sch stepwise = (.ok tables, n') ∧
    ∀ t ∈ tables, ∀ s ∈ t.2.given, s = "Umbrella" ∨ s = "Forecast" := by
  obtain ⟨tables, n', h1, h2⟩ := C80_partial sch umb_valid (fun _ => umb_solvable.toFeasible) stepwise
  refine ⟨tables, n', h1, fun t ht s hs => ?_⟩
  rcases h2 t ht s hs with h | ⟨f, hf, hd, _, hg⟩
  · have := mem_decisions.2 h
    rw [show umb.decisions = ["Umbrella"] by decide, List.mem_singleton] at this
    exact .inl this
  · have : ∀ f ∈ umb.factors, umb.isKind .decision f.forVar = true → ∀ s ∈ f.given, s = "Forecast" := by decide
    exact .inr (this f hf hd s hg)

/-- C83: the letter is filed first. -/
example (sch : NSched ℚ) : ∃ tables n', letter.solvePolicies sch true = (.ok tables, n') ∧
    letter.Strategy [] "File" (letter.byTables tables "File") ∧ letter.Strategy ["File"] "Act" (letter.byTables tables "Act") := by
  obtain ⟨tables, n', order, k1, k2, k3, _, k5, _⟩ := C83_listed sch letter_valid (fun _ => letter_solvable)
  obtain rfl := letter_order k2 k3
  exact ⟨tables, n', k1, (k5 [] "File" ["Act"] rfl).1, (k5 ["File"] "Act" [] rfl).1⟩

/-- C86: two options and no more: the total is two. -/
example : umb.mass [] (fun _ => True) = 2 := by
  rw [C86_total umb_valid umb_acyclic umb_regular]
  decide +kernel

/-- C88: asked together or alone, it is the same answer. -/
example (sch sch' : NSched ℚ) : ∃ r f n', spr.solveQuery sch wet ["Rain", "Sprinkler"] false = (.ok (r, f), n') ∧
    ∃ d, ("Sprinkler", d) ∈ r ∧ spr.Answers sch' wet "Sprinkler" false d := by
  obtain ⟨r, f, n', h1, h2⟩ := C88_separately sch sch' spr_valid (noPolicies rfl) wet_ok false spr_both (by decide +kernel)
  exact ⟨r, f, n', h1, h2 "Sprinkler" (by simp)⟩

/-- C122: the returned factor, normalised, has both variables, and nothing but what was asked. -/
example (sch : NSched ℚ) : ∃ r f n1 h n2, spr.solveQuery sch wet ["Rain", "Sprinkler"] false = (.ok (r, f), n1) ∧
    n1.normalize f = (.ok h, n2) ∧ "Rain" ∈ spr.scopeNames h ∧ "Sprinkler" ∈ spr.scopeNames h := by
  obtain ⟨r, f, n1, h, n2, h1, h2, _, h3, _⟩ := C122_joint sch spr_valid (noPolicies rfl) wet_ok false spr_both
    (by decide +kernel)
  exact ⟨r, f, n1, h, n2, h1, h2, h3 _ (by simp), h3 _ (by simp)⟩

/-- C122: two runs with other iteration orders give the same table. -/
example (sch sch' : NSched ℚ) : ∃ r f n1 g n2 h n3 r' f' n1' g' n2' h' n3',
    spr.solveQuery sch wet ["Rain", "Sprinkler"] false = (.ok (r, f), n1) ∧
    n1.rearrange f ["Rain", "Sprinkler"] = (.ok g, n2) ∧ n2.normalize g = (.ok h, n3) ∧
    spr.solveQuery sch' wet ["Rain", "Sprinkler"] false = (.ok (r', f'), n1') ∧
    n1'.rearrange f' ["Rain", "Sprinkler"] = (.ok g', n2') ∧ n2'.normalize g' = (.ok h', n3') ∧
    spr.scopeNames h' = spr.scopeNames h ∧ h'.data = h.data :=
  C122_repeat sch sch' spr_valid (noPolicies rfl) (by decide) wet_ok (by decide) (by decide) false spr_both
    (by decide +kernel)

/-- C129: goroutines with a network each get what they would get alone, whatever the order of the steps. -/
example (is : List Nat) {a : Answer ℚ}
    (h : (askWet, a) ∈ ((Program.start [spr, spr] [[askWet], [{ askRain with net := 1 }]]).run is).returned) :
    a = askWet.alone spr := by
  obtain ⟨n, h1, h2⟩ := C129_apart_partial (C129_own_network_partial is (by
    intro i j li lj hij hi hj ci hci cj hcj
    match i, j with
    | 0, 0 => exact absurd rfl hij
    | 0, 1 =>
      cases hi; cases hj
      simp only [List.mem_singleton] at hci hcj
      subst hci hcj
      decide
    | 1, 0 =>
      cases hi; cases hj
      simp only [List.mem_singleton] at hci hcj
      subst hci hcj
      decide
    | 1, 1 => exact absurd rfl hij
    | i + 2, _ => cases hi
    | _, j + 2 => cases hj)) h
  obtain rfl := Option.some.inj h1
  exact h2

/-- C129: with locks, whatever the order of the steps, the answer about wet grass is the posterior. -/
example (is : List Nat) {a : Answer ℚ} (h : (askWet, a) ∈ (askBoth.lockedRun is).returned) :
    ∃ r f d, a = .ok (r, f) ∧ ("Rain", d) ∈ r ∧ d[0]? = some (891/2491) := by
  obtain ⟨r, f, h1, _, h2⟩ := C129_posteriors_partial h (n := spr) rfl spr_valid (noPolicies rfl) rfl wet_ok
    ⟨by decide, by decide, by
      intro q hq
      simp only [askWet, List.mem_singleton] at hq
      subst hq
      exact chance_occurs spr_valid _ (v := ⟨"Rain", .chance, ["yes", "no"], (0, 0), "", some 0⟩) (by decide) rfl⟩
    (by decide +kernel)
  obtain ⟨d, h3, _, h4⟩ := h2 "Rain" (by simp [askWet])
  refine ⟨r, f, d, h1, h3, (h4 0 (by decide)).trans ?_⟩
  decide +kernel

/-- C130: one coin is trained, the two others are as they were. -/
example (t : Trainer ℚ) {μ' : Memory ℚ} {e : Option String} (h : memUpdate t ⟨"one", "", 1, 1, [], none, [], none⟩ (coins 2) = .ok (μ', e)) :
    updateNetwork t ((coins 2).net ⟨"one", "", 1, 1, [], none, [], none⟩) =
      .ok (μ'.net ⟨"one", "", 1, 1, [], none, [], none⟩, e) ∧
    μ'.net ⟨"two", "", 0, 0, [], none, [], none⟩ = (coins 2).net ⟨"two", "", 0, 0, [], none, [], none⟩ := by
  constructor
  · rw [C130_update_partial t (m := ⟨"one", "", 1, 1, [], none, [], none⟩) (coins_own 2 (by decide)).2, h]
    rfl
  · exact C130_others_partial (m := ⟨"one", "", 1, 1, [], none, [], none⟩) (coins_own 2 (by decide)).2
      ⟨by decide, by decide, by decide⟩ h

/-- C130: a new network of one coin leaves the network of two coins as it was. -/
example : (memNew "one" "" 1 1 (coins 2)).2.net ⟨"two", "", 0, 0, [], none, [], none⟩ =
    (coins 2).net ⟨"two", "", 0, 0, [], none, [], none⟩ :=
  C130_new_others_partial "one" "" (coins_own 2 (by decide)).2 (by decide) (by decide)

/-- The coin of the new network can be trained. -/
example : (train ⟨"one", "", 1, 1, [], none, [], none⟩ [[0], [0], [1]]
    (memNew "one" "" 1 1 (coins 2)).2).toOption.isSome = true := by
  decide +kernel

end Ex

end Bbn
