import Verif.Props.Yaml
import Verif.Lemmas.Text
import Verif.Spec.Files
import Verif.Props.NetExamples

/-!
# Saved descriptions, and the definitions of nodes: C56, C57
-/

set_option autoImplicit false

namespace Bbn

variable {α : Type}

/-! ## C56 -/

/-- **C56, refuted.** The description and the colours are dropped. -/
theorem C56_refuted : ∃ (n : Net ℚ) (y : NetYaml ℚ) (n' : Net ℚ),
    newNet "n" "about rain" [{ Ex.nv "Rain" .chance ["yes", "no"] with color := "blue" }] [Ex.nf "Rain" [] [20, 80]] = .ok n ∧
    toYaml n = .ok y ∧ (∀ lower h, fromYaml lower y h = (.ok n', h)) ∧
    n'.info ≠ n.info ∧ n'.variables.map NVar.color ≠ n.variables.map NVar.color := by
  have hptr : ∀ v ∈ [{ Ex.nv "Rain" .chance ["yes", "no"] with color := "blue" }], v.factor = none := by decide
  obtain ⟨y, n', h1, h2, _, h3, h4, _⟩ := round_trip "n" "about rain" (α := ℚ) hptr
    (factors := [Ex.nf "Rain" [] [20, 80]]) rfl (by
      intro v hv
      rw [List.mem_singleton] at hv
      subst hv
      exact ⟨by decide, _, rfl, by decide⟩)
  refine ⟨_, y, n', rfl, h1, h2, ?_, ?_⟩
  · rw [h3]; decide
  · intro e
    cases hv : n'.variables with
    | nil => rw [hv] at e; cases e
    | cons v vs =>
      have := h4 v (by rw [hv]; exact List.mem_cons_self)
      rw [hv, List.map_cons, this] at e
      revert e
      change "" :: _ = ["blue"] → False
      intro e
      exact absurd (List.cons.inj e).1 (by decide)

/-- **C56, what holds.** Networks without description and colours are loaded as they were saved. (All others lose
both.) -/
theorem C56_partial [Zero α] [One α] (name info : String) {vars : List NVar} {factors : List (NFactor α)}
    (hptr : ∀ v ∈ vars, v.factor = none) {n : Net α} (hnew : newNet name info vars factors = .ok n)
    (hall : ∀ v ∈ vars, 0 < v.outcomes.length ∧
      ∃ f, tableFor factors v = some f ∧ v.outcomes.length ∣ f.tab.length) :
    ∃ y n', toYaml n = .ok y ∧ (∀ lower h, fromYaml lower y h = (.ok n', h)) ∧
      (n'.info = n.info ↔ info = "") ∧
      (n'.variables.map NVar.color = n.variables.map NVar.color ↔ ∀ v ∈ vars, v.color = "") := by
  obtain ⟨y, n', h1, h2, h3, h4, h5, _⟩ := round_trip name info hptr hnew hall
  have hb := C35_new_result name info vars factors hptr hnew
  refine ⟨y, n', h1, h2, ?_, ?_⟩
  · rw [h4, hb.sameInfo]; exact eq_comm
  · have e1 : n'.variables.map NVar.color = List.replicate n'.variables.length "" := by
      rw [List.eq_replicate_iff]
      refine ⟨by simp, ?_⟩
      intro c hc
      obtain ⟨v, hv, rfl⟩ := List.mem_map.1 hc
      exact h5 v hv
    have e2 : n.variables.map NVar.color = vars.map NVar.color := by
      rw [hb.links, List.map_map]
      apply List.map_congr_left
      intro v _
      simp only [Function.comp_apply]; unfold linked; split <;> rfl
    have e3 : n'.variables.length = vars.length := by
      have := congrArg List.length h3.vars
      rw [hb.links] at this
      simpa using this
    rw [e1, e2, e3, eq_comm, List.eq_replicate_iff]
    simp

/-! ## C57 -/

section
variable [Zero α] [One α] [Add α] [Div α]

theorem two_pow_ne {n k : Nat} (h : n ≠ k) : ¬ (2 ^ k : Nat) = 2 ^ n := fun e => h (Nat.pow_right_injective (le_refl 2) e).symm

/-- How the objects of the operators react to numbers of arguments and parents. -/
theorem operators_spec {op : String} {okArgs okParents : Nat → Bool} (hm : (op, okArgs, okParents) ∈ operators) :
    ∃ l : Logic α, (op, l) ∈ logicFactors (α := α) ∧
      (∀ args : List Int, okArgs args.length = false → Errors (l.setArgs args)) ∧
      (∀ args : List Int, okArgs args.length = true → ∃ l', l.setArgs args = .ok l' ∧
        ∀ n, okParents n = false → Errors (l'.table n)) := by
  have kb : ∀ (arr : List Bool) (k : Nat), arr.length = 2 ^ k →
      (∀ args : List Int, (args.length == 0) = false → Errors ((Logic.bool arr : Logic α).setArgs args)) ∧
      (∀ args : List Int, (args.length == 0) = true → ∃ l', (Logic.bool arr : Logic α).setArgs args = .ok l' ∧
        ∀ n, (n == k) = false → Errors (l'.table n)) := by
    intro arr k hk
    constructor
    · intro args ha
      refine ⟨_, if_pos ?_⟩
      simp at ha
      exact List.length_pos_iff.2 ha
    · intro args ha
      refine ⟨.bool arr, if_neg ?_, ?_⟩
      · simp at ha; simp [ha]
      · intro n hn
        simp at hn
        dsimp only [Logic.table]
        rw [hk, if_pos (two_pow_ne hn)]
        exact ⟨_, rfl⟩
  have kf : ∀ (arr : List α), arr.length = 4 →
      (∀ args : List Int, (args.length == 0) = false → Errors ((Logic.float arr : Logic α).setArgs args)) ∧
      (∀ args : List Int, (args.length == 0) = true → ∃ l', (Logic.float arr : Logic α).setArgs args = .ok l' ∧
        ∀ n, (n == 1) = false → Errors (l'.table n)) := by
    intro arr hk
    constructor
    · intro args ha
      refine ⟨_, if_pos ?_⟩
      simp at ha
      exact List.length_pos_iff.2 ha
    · intro args ha
      refine ⟨.float arr, if_neg ?_, ?_⟩
      · simp at ha; simp [ha]
      · intro n hn
        simp at hn
        dsimp only [Logic.table]
        rw [hk, if_pos (show 4 ≠ 2 ^ (n + 1) from two_pow_ne (k := 2) (n := n + 1) (by omega))]
        exact ⟨_, rfl⟩
  have k0 : ∀ (l : Logic α), (∀ args, l.setArgs args = if args.length > 0 then
      .error (.error "logic operator expects zero arguments") else .ok l) →
      (∀ args : List Int, (args.length == 0) = false → Errors (l.setArgs args)) ∧
      (∀ args : List Int, (args.length == 0) = true → ∃ l', l.setArgs args = .ok l' ∧
        ∀ n : Nat, true = false → Errors (l'.table n)) := by
    intro l hl
    constructor
    · intro args ha
      rw [hl]
      refine ⟨_, if_pos ?_⟩
      simp at ha
      exact List.length_pos_iff.2 ha
    · intro args ha
      rw [hl]
      refine ⟨l, if_neg ?_, fun _ h => by cases h⟩
      simp at ha; simp [ha]
  have k1 : ∀ (l : Logic α) (g : Int → Logic α), (∀ args, l.setArgs args = match args with
      | [a] => .ok (g a) | _ => .error (.error "logic operator expects 1 argument")) →
      (∀ args : List Int, (args.length == 1) = false → Errors (l.setArgs args)) ∧
      (∀ args : List Int, (args.length == 1) = true → ∃ l', l.setArgs args = .ok l' ∧
        ∀ n : Nat, true = false → Errors (l'.table n)) := by
    intro l g hl
    constructor
    · intro args ha
      rw [hl]
      match args, ha with
      | [], _ => exact ⟨_, rfl⟩
      | [a], ha => cases ha
      | _ :: _ :: _, _ => exact ⟨_, rfl⟩
    · intro args ha
      rw [hl]
      match args, ha with
      | [a], _ => exact ⟨_, rfl, fun _ h => by cases h⟩
  have k2 : ∀ (l : Logic α) (g : Int → Int → Logic α), (∀ args, l.setArgs args = match args with
      | [a, b] => .ok (g a b) | _ => .error (.error "logic operator expects 2 argument (index, length)")) →
      (∀ a b n, n ≠ 1 → Errors ((g a b).table n)) →
      (∀ args : List Int, (args.length == 2) = false → Errors (l.setArgs args)) ∧
      (∀ args : List Int, (args.length == 2) = true → ∃ l', l.setArgs args = .ok l' ∧
        ∀ n : Nat, (n == 1) = false → Errors (l'.table n)) := by
    intro l g hl hg
    constructor
    · intro args ha
      rw [hl]
      match args, ha with
      | [], _ => exact ⟨_, rfl⟩
      | [_], _ => exact ⟨_, rfl⟩
      | [_, _], ha => cases ha
      | _ :: _ :: _ :: _, _ => exact ⟨_, rfl⟩
    · intro args ha
      rw [hl]
      match args, ha with
      | [a, b], _ => exact ⟨_, rfl, fun n hn => hg a b n (by simpa using hn)⟩
  unfold operators at hm
  simp only [List.mem_append, List.mem_map, Prod.mk.injEq] at hm
  rcases hm with ((((⟨s, hs, rfl, rfl, rfl⟩ | ⟨s, hs, rfl, rfl, rfl⟩) | ⟨s, hs, rfl, rfl, rfl⟩) |
    ⟨s, hs, rfl, rfl, rfl⟩) | ⟨s, hs, rfl, rfl, rfl⟩) | ⟨s, hs, rfl, rfl, rfl⟩
  · simp only [List.mem_cons, List.not_mem_nil, or_false] at hs
    rcases hs with rfl | rfl | rfl | rfl | rfl | rfl | rfl
    · exact ⟨_, by simp [logicFactors], kb [false, true] 1 rfl⟩
    · exact ⟨_, by simp [logicFactors], kb [true, false] 1 rfl⟩
    · exact ⟨_, by simp [logicFactors], kb [false, true] 1 rfl⟩
    · exact ⟨.float [1, 0, 1 / (1 + 1), 1 / (1 + 1)], by simp [logicFactors], kf _ rfl⟩
    · exact ⟨.float [1 / (1 + 1), 1 / (1 + 1), 1, 0], by simp [logicFactors], kf _ rfl⟩
    · exact ⟨.float [0, 1, 1 / (1 + 1), 1 / (1 + 1)], by simp [logicFactors], kf _ rfl⟩
    · exact ⟨.float [1 / (1 + 1), 1 / (1 + 1), 0, 1], by simp [logicFactors], kf _ rfl⟩
  · simp only [List.mem_cons, List.not_mem_nil, or_false] at hs
    rcases hs with rfl | rfl | rfl | rfl | rfl | rfl | rfl | rfl | rfl | rfl | rfl | rfl | rfl | rfl
    · exact ⟨_, by simp [logicFactors], kb [true, false, false, false] 2 rfl⟩
    · exact ⟨_, by simp [logicFactors], kb [false, false, true, false] 2 rfl⟩
    · exact ⟨_, by simp [logicFactors], kb [false, true, false, false] 2 rfl⟩
    · exact ⟨_, by simp [logicFactors], kb [false, false, false, true] 2 rfl⟩
    · exact ⟨_, by simp [logicFactors], kb [true, true, true, false] 2 rfl⟩
    · exact ⟨_, by simp [logicFactors], kb [true, false, true, true] 2 rfl⟩
    · exact ⟨_, by simp [logicFactors], kb [true, true, false, true] 2 rfl⟩
    · exact ⟨_, by simp [logicFactors], kb [false, true, true, true] 2 rfl⟩
    · exact ⟨_, by simp [logicFactors], kb [false, true, true, false] 2 rfl⟩
    · exact ⟨_, by simp [logicFactors], kb [true, false, true, true] 2 rfl⟩
    · exact ⟨_, by simp [logicFactors], kb [true, true, true, false] 2 rfl⟩
    · exact ⟨_, by simp [logicFactors], kb [false, true, true, true] 2 rfl⟩
    · exact ⟨_, by simp [logicFactors], kb [true, true, false, true] 2 rfl⟩
    · exact ⟨_, by simp [logicFactors], kb [true, false, false, true] 2 rfl⟩
  · simp only [List.mem_cons, List.not_mem_nil, or_false] at hs
    rcases hs with rfl | rfl | rfl
    · exact ⟨.countTrue, by simp [logicFactors], k0 _ (fun _ => rfl)⟩
    · exact ⟨.countFalse, by simp [logicFactors], k0 _ (fun _ => rfl)⟩
    · exact ⟨.bits, by simp [logicFactors], k0 _ (fun _ => rfl)⟩
  · simp only [List.mem_cons, List.not_mem_nil, or_false] at hs
    rcases hs with rfl | rfl | rfl | rfl | rfl | rfl
    · exact ⟨.count 0 .is, by simp [logicFactors], k1 _ (fun a => .count a .is) (fun _ => rfl)⟩
    · exact ⟨.count 0 .less, by simp [logicFactors], k1 _ (fun a => .count a .less) (fun _ => rfl)⟩
    · exact ⟨.count 0 .greater, by simp [logicFactors], k1 _ (fun a => .count a .greater) (fun _ => rfl)⟩
    · exact ⟨.given 0, by simp [logicFactors], k1 _ .given (fun _ => rfl)⟩
    · exact ⟨.givenNot 0, by simp [logicFactors], k1 _ .givenNot (fun _ => rfl)⟩
    · exact ⟨.givenExcl 0, by simp [logicFactors], k1 _ .givenExcl (fun _ => rfl)⟩
  · have one : ∀ {n : Nat} {x : Except Fault (List α)}, n ≠ 1 →
        Errors (if n ≠ 1 then .error (.error "logic operator requires 1 operand") else x) := by
      intro n x hn; rw [if_pos hn]; exact ⟨_, rfl⟩
    simp only [List.mem_cons, List.not_mem_nil, or_false] at hs
    rcases hs with rfl | rfl | rfl | rfl
    · exact ⟨.outcomeIs 0 0, by simp [logicFactors], k2 _ .outcomeIs (fun _ => rfl) (fun _ _ _ h => one h)⟩
    · exact ⟨.outcomeIsNot 0 0, by simp [logicFactors], k2 _ .outcomeIsNot (fun _ => rfl) (fun _ _ _ h => one h)⟩
    · exact ⟨.outcomeLess 0 0, by simp [logicFactors], k2 _ .outcomeLess (fun _ => rfl) (fun _ _ _ h => one h)⟩
    · exact ⟨.outcomeGreater 0 0, by simp [logicFactors], k2 _ .outcomeGreater (fun _ => rfl) (fun _ _ _ h => one h)⟩
  · simp only [List.mem_cons, List.not_mem_nil, or_false] at hs
    subst hs
    refine ⟨.outcomeEither [] 0, by simp [logicFactors], ?_, ?_⟩
    · intro args ha
      simp at ha
      exact ⟨_, if_pos ha⟩
    · intro args ha
      simp at ha
      refine ⟨_, if_neg (by omega), ?_⟩
      intro n hn
      simp at hn
      exact ⟨_, if_pos hn⟩

theorem get_unknown {op : String} (h : op ∉ operators.map Prod.fst) : logicGet op = none := by
  unfold logicGet
  rw [List.findIdx?_eq_none_iff]
  intro e he
  simp only [decide_eq_false_iff_not]
  rintro rfl
  have hall : ∀ s ∈ (logicFactors (α := Rat)).map Prod.fst, s ∈ operators.map Prod.fst := by decide
  exact h (hall _ (List.mem_map_of_mem he))

omit [Add α] [Div α] in
theorem logicTable_text (lower : String → String) {op : String} {args : List String} (h1 : ' ' ∉ op.toList)
    (h2 : ∀ a ∈ args, ' ' ∉ a.toList) (k : Nat) (h : LHeap α) :
    logicTable lower (logicText op args) k h = match logicGet (lower op) with
    | none => (.error (.error "unknown logic operator"), h)
    | some p =>
      match logicArgs args with
      | .error e => (.error e, h)
      | .ok args =>
        match h.setArgs p args with
        | .error e => (.error e, h)
        | .ok h => (h.table p k, h) := by
  have e : goSplit (logicText op args) ' ' = op :: args := by
    refine goSplit_intercalate (c := ' ') (by simp) ?_
    intro p hp
    rcases List.mem_cons.1 hp with rfl | hp
    · exact h1
    · exact h2 p hp
  unfold logicTable
  rw [e]
  rfl

theorem logicArg_none {a : String} (h : goAtoi a = none) : logicArg a = .error (.error "invalid syntax") := by
  unfold logicArg; rw [h]

theorem logicArg_some {a : String} {i : Int} (h : goAtoi a = some i) : logicArg a = .ok i := by
  unfold logicArg; rw [h]

/-- Reading the arguments gives as many integers, or an error. -/
theorem logicArgs_cases (args : List String) :
    (∃ is, logicArgs args = .ok is ∧ is.length = args.length) ∨ Errors (logicArgs args) := by
  unfold logicArgs
  induction args with
  | nil => exact .inl ⟨[], rfl, rfl⟩
  | cons a args ih =>
    rw [List.mapM_cons]
    cases ha : goAtoi a with
    | none => rw [logicArg_none ha]; exact .inr ⟨_, rfl⟩
    | some i =>
      rw [logicArg_some ha, ok_bind]
      rcases ih with ⟨is, h, hl⟩ | ⟨m, h⟩
      · rw [h, ok_bind]; exact .inl ⟨i :: is, rfl, by simp [hl]⟩
      · rw [h]; exact .inr ⟨_, rfl⟩

theorem logicArgs_bad {args : List String} (h : ∃ a ∈ args, goAtoi a = none) : Errors (logicArgs args) := by
  rcases logicArgs_cases args with ⟨is, h1, hlen⟩ | h1
  swap
  · exact h1
  exfalso
  clear hlen
  unfold logicArgs at h1
  induction args generalizing is with
  | nil => obtain ⟨a, ha, _⟩ := h; cases ha
  | cons b args ih =>
    rw [List.mapM_cons] at h1
    cases hb : goAtoi b with
    | none => rw [logicArg_none hb] at h1; cases h1
    | some i =>
      rw [logicArg_some hb, ok_bind] at h1
      obtain ⟨a, ha, hn⟩ := h
      rcases List.mem_cons.1 ha with rfl | ha
      · rw [hb] at hn; cases hn
      · cases hr : List.mapM logicArg args with
        | error e => rw [hr] at h1; cases h1
        | ok is' => exact ih ⟨a, ha, hn⟩ is' hr

theorem logicArgs_ints {is : List Int} (h : ∀ i ∈ is, -2 ^ 63 ≤ i ∧ i < 2 ^ 63) :
    logicArgs (is.map toString) = .ok is := by
  unfold logicArgs
  rw [mapM_map_ok (h := id) ?_, List.map_id]
  intro i hi
  exact logicArg_some (goAtoi_toString (h i hi).1 (h i hi).2)

/-- A faulty node is rejected: its type is unknown, or building its table reports an error. -/
theorem fault_rejected {lower : String → String} {v : VarYaml α} (hf : NodeFault lower v) {h : LHeap α} (hr : LReach h) :
    nodeTypeOf v.type = none ∨ Errors (toTable lower v h).1 := by
  have hlogic : ∀ {op args}, v.logic = logicText op args → v.logic ≠ "" → ' ' ∉ op.toList →
      (∀ a ∈ args, ' ' ∉ a.toList) → Errors (logicTable lower v.logic v.given.length h).1 →
      nodeTypeOf v.type = none ∨ Errors (toTable lower v h).1 := by
    intro op args _ hne _ _ he
    refine .inr ?_
    unfold toTable
    by_cases hb : v.table.length > 0 ∧ v.logic ≠ ""
    · rw [if_pos hb]; exact ⟨_, rfl⟩
    rw [if_neg hb, if_neg hne]
    obtain ⟨m, he⟩ := he
    dsimp only
    rw [he]
    exact ⟨m, rfl⟩
  have hops : ∀ {op args okArgs okParents}, v.logic = logicText op args → ' ' ∉ op.toList →
      (∀ a ∈ args, ' ' ∉ a.toList) → (lower op, okArgs, okParents) ∈ operators →
      (okArgs args.length = false ∨ okParents v.given.length = false) →
      Errors (logicTable lower v.logic v.given.length h).1 := by
    intro op args okArgs okParents e h1 h2 hm hbad
    rw [e, logicTable_text lower h1 h2]
    obtain ⟨l, hl, ha, hp⟩ := operators_spec (α := α) hm
    obtain ⟨p, g1, g2⟩ := get_init hl
    rw [g1]
    dsimp only
    rcases logicArgs_cases args with ⟨is, e1, e2⟩ | ⟨m, e1⟩
    swap
    · rw [e1]; exact ⟨_, rfl⟩
    rw [e1]
    dsimp only
    rw [← e2] at hbad
    cases hok : okArgs is.length with
    | false =>
      obtain ⟨m, e3⟩ := ha is hok
      obtain ⟨k, k1, k2⟩ := reach_sameOp hr p l g2
      have : h.setArgs p is = .error (.error m) := by
        unfold LHeap.setArgs
        rw [goGet_ok.2 k1]
        change (k.setArgs is >>= fun l => pure (h.set p l)) = _
        rw [← setArgs_sameOp_eq is k2, e3]; rfl
      rw [this]
      exact ⟨_, rfl⟩
    | true =>
      obtain ⟨l', e3, e4⟩ := hp is hok
      obtain ⟨h', e5, _, e6⟩ := configured hr g2 e3
      rw [e5]
      dsimp only
      rw [e6]
      apply e4
      rcases hbad with hb | hb
      · rw [hok] at hb; cases hb
      · exact hb
  cases hf with
  | type h1 h2 h3 h4 =>
    refine .inl ?_
    unfold nodeTypeOf
    rw [if_neg h1, if_neg h2, if_neg h3, if_neg h4]
  | both h1 h2 =>
    refine .inr ?_
    unfold toTable
    rw [if_pos ⟨List.length_pos_iff.2 h1, h2⟩]
    exact ⟨_, rfl⟩
  | operator op args e hne h1 h2 h3 =>
    apply hlogic e hne h1 h2
    rw [e, logicTable_text lower h1 h2, get_unknown h3]
    exact ⟨_, rfl⟩
  | number op args e hne h1 h2 h3 =>
    apply hlogic e hne h1 h2
    rw [e, logicTable_text lower h1 h2]
    obtain ⟨a, ha, hb⟩ := h3
    obtain ⟨m, hm⟩ := logicArgs_bad ⟨a, ha, goAtoi_bad hb⟩
    rw [hm]
    cases logicGet (lower op) <;> exact ⟨_, rfl⟩
  | arguments op args oa op' e hne h1 h2 h3 h4 =>
    exact hlogic e hne h1 h2 (hops e h1 h2 h3 (.inl h4))
  | parents op args oa op' e hne h1 h2 h3 h4 =>
    exact hlogic e hne h1 h2 (hops e h1 h2 h3 (.inr h4))

theorem yamlNodes_fault {lower : String → String} {v : VarYaml α} (hf : NodeFault lower v) (post : List (VarYaml α)) :
    ∀ (pre : List (VarYaml α)) {h : LHeap α}, LReach h →
      (∀ r, (yamlNodes lower (pre ++ v :: post) h).1 ≠ .ok r) ∧
      ((∀ u ∈ pre, ∃ t, (toTable lower u initHeap).1 = .ok t) → Errors (yamlNodes lower (pre ++ v :: post) h).1) := by
  intro pre
  induction pre with
  | nil =>
    intro h hr
    have : Errors (yamlNodes lower ([] ++ v :: post) h).1 := by
      rw [List.nil_append, yamlNodes]
      rcases fault_rejected hf hr with e | ⟨m, e⟩
      · rw [e]; exact ⟨_, rfl⟩
      · cases nodeTypeOf v.type with
        | none => exact ⟨_, rfl⟩
        | some tp =>
          dsimp only
          generalize toTable lower v h = r at e ⊢
          obtain ⟨r, h⟩ := r
          dsimp only at e
          subst e
          exact ⟨_, rfl⟩
    refine ⟨fun r e => ?_, fun _ => this⟩
    obtain ⟨m, hm⟩ := this
    rw [hm] at e; cases e
  | cons u pre ih =>
    intro h hr
    rw [List.cons_append, yamlNodes]
    cases nodeTypeOf u.type with
    | none => exact ⟨fun r e => (by cases e), fun _ => ⟨_, rfl⟩⟩
    | some tp =>
      dsimp only
      obtain ⟨a1, a2⟩ := toTable_reach lower u hr
      generalize toTable lower u h = r at a1 a2 ⊢
      obtain ⟨r, h⟩ := r
      dsimp only at a1 a2
      cases r with
      | error e =>
        refine ⟨fun r e => (by cases e), fun hu => ?_⟩
        obtain ⟨t, ht⟩ := hu u (by simp)
        rw [ht] at a1; cases a1
      | ok t =>
        dsimp only
        obtain ⟨i1, i2⟩ := ih a2
        generalize yamlNodes lower (pre ++ v :: post) h = s at i1 i2 ⊢
        obtain ⟨s, h⟩ := s
        cases s with
        | error e =>
          refine ⟨fun r e => (by cases e), fun hu => ?_⟩
          exact i2 (fun x hx => hu x (by simp [hx]))
        | ok x => exact absurd rfl (i1 x)

/-- **C57, rejection.** A network with a faulty node — both a table and an operator, an unknown type, an unknown
operator, arguments that are no integers, too many or too few arguments or parents — is never loaded, wherever in the
file the node is and whatever was loaded before. Loading reports an error if the nodes before it are fine (these might
panic, see `C57_refuted`). -/
theorem C57_rejected_partial {lower : String → String} {y : NetYaml α} {pre post : List (VarYaml α)} {v : VarYaml α}
    (hy : y.variables = pre ++ v :: post) (hf : NodeFault lower v) {h : LHeap α} (hr : LReach h) :
    (∀ n, (fromYaml lower y h).1 ≠ .ok n) ∧
    ((∀ u ∈ pre, ∃ t, (toTable lower u initHeap).1 = .ok t) → Errors (fromYaml lower y h).1) := by
  obtain ⟨i1, i2⟩ := yamlNodes_fault hf post pre hr
  unfold fromYaml
  rw [hy]
  generalize yamlNodes lower (pre ++ v :: post) h = s at i1 i2 ⊢
  obtain ⟨s, h⟩ := s
  cases s with
  | error e =>
    refine ⟨fun n e => (by cases e), fun hu => ?_⟩
    obtain ⟨m, hm⟩ := i2 hu
    dsimp only at hm
    cases hm
    exact ⟨m, rfl⟩
  | ok x => exact absurd rfl (i1 x)

/-- **C57, refuted.** Bad arguments of a known operator can make loading panic instead of reporting an error. -/
theorem C57_refuted : ∃ (y : NetYaml ℚ), (∀ v ∈ y.variables, v.logic = "" ∨ v.logic = "outcome-is 5 3") ∧
    Panics (fromYaml id y initHeap).1 := by
  refine ⟨⟨"n", "", [⟨"A", [], "", ["a", "b", "c"], (0, 0), "", "", [[1, 1, 1]]⟩,
    ⟨"B", ["A"], "", ["yes", "no"], (0, 0), "", "outcome-is 5 3", []⟩]⟩, by decide, "index out of range", ?_⟩
  have e : (yamlNodes id [⟨"A", [], "", ["a", "b", "c"], (0, 0), "", "", [[1, 1, 1]]⟩,
    ⟨"B", ["A"], "", ["yes", "no"], (0, 0), "", "outcome-is 5 3", []⟩] (initHeap (α := ℚ))).1 =
      .error (.panic "index out of range") := by decide +kernel
  unfold fromYaml
  dsimp only
  generalize yamlNodes (α := ℚ) id _ initHeap = r at e ⊢
  obtain ⟨r, h⟩ := r
  dsimp only at e
  subst e
  rfl

omit [Add α] [Div α] in
/-- **C57, tables.** The table of a node without operator consists of its rows: for rows of the same length `c`, the
entry of row `i` and column `j` is at position `i * c + j`, and there are no other entries. Without rows there is no
table. Nothing else changes. -/
theorem C57_rows (lower : String → String) (v : VarYaml α) (hl : v.logic = "") (h : LHeap α) :
    (v.table = [] → toTable lower v h = (.ok none, h)) ∧
    (v.table ≠ [] → ∀ c, (∀ r ∈ v.table, r.length = c) → ∃ t, toTable lower v h = (.ok (some t), h) ∧
      t.length = v.table.length * c ∧
      ∀ i j, j < c → ∀ r, v.table[i]? = some r → t[i * c + j]? = r[j]?) := by
  constructor
  · intro e
    unfold toTable
    rw [if_neg (by simp [hl]), if_pos hl, e]
    rfl
  · intro hne c hc
    refine ⟨v.table.flatten, ?_, ?_, ?_⟩
    · unfold toTable
      rw [if_neg (by simp [hl]), if_pos hl, if_pos (List.length_pos_iff.2 hne)]
    · generalize v.table = rows at hc
      clear hne
      induction rows with
      | nil => simp
      | cons r rows ih =>
        rw [List.flatten_cons, List.length_append, ih (fun x hx => hc x (by simp [hx])), hc r (by simp),
          List.length_cons, Nat.succ_mul, Nat.add_comm]
    · intro i j hj r hr
      generalize v.table = rows at hc hr
      clear hne
      induction rows generalizing i with
      | nil => cases hr
      | cons q rows ih =>
        have hq := hc q (by simp)
        rw [List.flatten_cons]
        cases i with
        | zero =>
          simp only [List.getElem?_cons_zero, Option.some.injEq] at hr
          subst hr
          rw [Nat.zero_mul, Nat.zero_add, List.getElem?_append_left (by omega)]
        | succ i =>
          rw [List.getElem?_cons_succ] at hr
          rw [List.getElem?_append_right (by rw [hq, Nat.succ_mul]; omega), hq,
            show (i + 1) * c + j - c = i * c + j by rw [Nat.succ_mul]; omega]
          exact ih i (fun x hx => hc x (by simp [hx])) hr

omit [Add α] [Div α] in
/-- **C57, operators.** The table of a node with an operator and integer arguments is the one that `Get`, `SetArgs` and
`Table` give for the number of its parents (see C47–C51). -/
theorem C57_operator {lower : String → String} {v : VarYaml α} {op : String} {is : List Int} (ht : v.table = [])
    (hl : v.logic = logicText op (is.map toString)) (hne : v.logic ≠ "") (hop : ' ' ∉ op.toList)
    (hi : ∀ i ∈ is, -2 ^ 63 ≤ i ∧ i < 2 ^ 63) {p : Nat} (hp : logicGet (lower op) = some p) {h h' : LHeap α}
    (hs : h.setArgs p is = .ok h') {t : List α} (htab : h'.table p v.given.length = .ok t) :
    toTable lower v h = (.ok (some t), h') := by
  have hsp : ∀ a ∈ is.map toString, ' ' ∉ a.toList := by
    intro a ha
    obtain ⟨i, _, rfl⟩ := List.mem_map.1 ha
    have hd : ∀ n : Nat, ' ' ∉ n.repr.toList := fun n hm => absurd (digits_repr n _ hm) (by decide)
    cases i with
    | ofNat n => exact hd n
    | negSucc n =>
      change ' ' ∉ ("-" ++ (n + 1).repr).toList
      rw [String.toList_append, List.mem_append]
      rintro (h | h)
      · exact absurd h (by decide)
      · exact hd _ h
  unfold toTable
  rw [if_neg (by simp [ht]), if_neg hne]
  dsimp only
  rw [hl, logicTable_text lower hop hsp, hp]
  dsimp only
  rw [logicArgs_ints hi]
  dsimp only
  rw [hs]
  dsimp only
  rw [htab]
  rfl

end

/-- A node with an operator. -/
example : ∃ h', toTable id (⟨"A", ["B", "C"], "", ["t", "f"], (0, 0), "", "count-is 1", []⟩ : VarYaml ℚ) initHeap =
    (.ok (some [0, 1, 1, 0, 1, 0, 0, 1]), h') :=
  ⟨initHeap.set 23 (.count 1 .is), C57_operator (op := "count-is") (is := [1]) rfl (by decide +kernel) (by decide)
    (by decide) (by decide) (p := 23) (by decide) (by decide +kernel) (by decide +kernel)⟩

/-- A faulty node: an unknown operator. -/
example : NodeFault id (⟨"A", ["B", "C"], "", ["t", "f"], (0, 0), "", "nand 1", []⟩ : VarYaml ℚ) :=
  .operator "nand" ["1"] (by decide +kernel) (by decide) (by decide) (by decide) (by decide)

/-- A faulty node: an argument is missing. -/
example : NodeFault id (⟨"A", ["B", "C"], "", ["t", "f"], (0, 0), "", "count-is", []⟩ : VarYaml ℚ) :=
  .arguments "count-is" [] (fun k => k == 1) (fun _ => true) (by decide +kernel) (by decide) (by decide) (by decide)
    (by simp [operators]) (by decide)

theorem Ex.umb_complete : ∀ v ∈ Ex.umbVars, ∃ f ∈ Ex.umbTables, f.forVar = v.name ∧ v.outcomes.length ∣ f.tab.length := by
  decide

/-- A network as in C55 and C56. -/
example : ∃ n y n', newNet "n" "" Ex.umbVars Ex.umbTables = .ok n ∧ toYaml n = .ok y ∧
    (∀ lower h, fromYaml lower y h = (.ok n', h)) ∧ n'.Valid ∧ ∀ w, n'.asked "" w = n.asked "" w := by
  obtain ⟨n, y, n', h1, h2, h3, _, h4, _, h5, _⟩ := C55_meaning "n" "" (by decide) Ex.umb_wellFormed Ex.umb_complete
  exact ⟨n, y, n', h1, h2, h3, h4, fun w => h5 "" w (.inl rfl)⟩

end Bbn
