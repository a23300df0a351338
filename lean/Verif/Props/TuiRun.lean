import Mathlib.Algebra.Order.Floor.Ring
import Mathlib.Data.Rat.Floor
import Verif.Lemmas.TuiOk
import Verif.Props.TuiInput
import Verif.Props.TuiShown
import Verif.Spec.Text

/-!
# Sessions that do not crash: C69, C79
-/

set_option autoImplicit false

namespace Bbn

variable {α : Type}

/-- The bar of a number is computed exactly: the integer part of ten times the number, and the integer part of seven
times what is left (`math.Modf`, `internal/tui/node.go:187-196`). -/
def Fmt.ExactBars [Field α] [LinearOrder α] [FloorRing α] (fm : Fmt α) : Prop :=
  ∀ x, 0 ≤ x → fm.full x = ⌊x * 10⌋ ∧ fm.fracIdx x = ⌊Int.fract (x * 10) * 7⌋

/-- The bars of numbers between 0 and 1 fit. -/
theorem Fmt.ExactBars.bar [Field α] [LinearOrder α] [IsStrictOrderedRing α] [FloorRing α] {fm : Fmt α} (h : fm.ExactBars) {x : α}
    (h0 : 0 ≤ x) (h1 : x ≤ 1) : fm.Bar (some x) := by
  rintro y ⟨⟩
  obtain ⟨e1, e2⟩ := h x h0
  have hf := Int.fract_lt_one (x * 10)
  have hf0 := Int.fract_nonneg (x * 10)
  rw [e1, e2]
  refine ⟨Int.floor_nonneg.2 (by positivity), ?_, ?_⟩
  · have : ⌊Int.fract (x * 10) * 7⌋ < 7 := by
      rw [Int.floor_lt]
      push_cast
      linarith
    omega
  · by_cases hx : x = 1
    · right
      subst hx
      have e : (1 : α) * 10 = ((10 : ℤ) : α) := by norm_num
      rw [e, Int.floor_intCast, Int.fract_intCast]
      simp
    · left
      have hlt : x < 1 := lt_of_le_of_ne h1 hx
      rw [Int.floor_lt]
      push_cast
      linarith

/-- **C79.** The app starts for every network that is ready for it (as `new_appReady` shows for well-formed structures)
and every possible start evidence, and no session of careful inputs crashes it. -/
theorem C79_no_crash [Field α] [LinearOrder α] [IsStrictOrderedRing α] [FloorRing α] {n : Net α} (hr : AppReady n)
    (hne : n.variables ≠ []) (hcol : ∀ v ∈ n.variables, v.color = "" ∨ ColorName v.color)
    (hpos : ∀ v ∈ n.variables, 0 ≤ v.position.1 ∧ 0 ≤ v.position.2)
    (htab : ∀ f ∈ n.chanceTables, ∀ x ∈ f.tab, 0 ≤ x) {fm : Fmt α} (hfm : fm.ExactBars)
    (sch0 : NSched α) (sch1 : Nat → NSched α) (sch : Nat → Nat → NSched α) {evidence : List (String × String)}
    (hev : n.EvidenceOK evidence) {N : Net α} (hN : N = (n.solvePolicies sch0 true).2)
    (possible : N.mass (N.active evidence false) (N.Agrees evidence) ≠ 0) :
    ∃ a0, startApp fm sch0 sch1 n evidence = .ok a0 ∧
      ∀ es, App.CarefulRun fm sch N 0 es a0 → ∃ a, App.run fm sch 0 es a0 = .ok a := by
  obtain ⟨hA, hnn, a0, h1, h2, h3⟩ := startApp_ok hr hne hcol hpos htab (fun x h0 h1 => hfm.bar h0 h1) sch0 sch1 hev hN possible
  refine ⟨a0, h1, fun es hc => ?_⟩
  obtain ⟨a, h4, _⟩ := App.Sound.run_ok hA hnn (fun x h0 h1 => hfm.bar h0 h1) sch es 0 a0 h2 h3 hc
  exact ⟨a, h4⟩

/-! ## C69: the selection -/

/-- The selected node and its selected outcome exist. -/
def App.OutcomeExists (a : App α) : Prop :=
  ∃ m, 0 ≤ a.selectedNode ∧ a.nodes[a.selectedNode.toNat]? = some m ∧ 0 ≤ a.selectedState ∧
    a.selectedState < m.var.outcomes.length

/-- The input does not move the selection to another node by a mouse click away from the lines of its outcomes. -/
def App.Steady (a : App α) : Event → Prop
  | .leftClick x y => ∀ m i, a.nodes.zipIdx.find? (fun p => p.1.bounds.contains x y) = some (m, i) →
      m.selectedOutcome x y = none → (i : Int) = a.selectedNode
  | .rightClick x y => ∀ m i, a.nodes.zipIdx.find? (fun p => p.1.bounds.contains x y) = some (m, i) →
      (i : Int) = a.selectedNode
  | _ => True

section

variable [Zero α] [One α] [Add α] [Mul α] [Div α] [DecidableEq α]

/-- All inputs of a session are such. -/
def App.SteadyRun (fm : Fmt α) (sch : Nat → Nat → NSched α) : Nat → List Event → App α → Prop
  | _, [], _ => True
  | k, e :: es, a => a.Steady e ∧ ∀ a', a.step fm (sch k) e = .ok a' → App.SteadyRun fm sch (k + 1) es a'

omit [Zero α] [One α] [Add α] [Mul α] [Div α] [DecidableEq α] in
theorem node_exists {a : App α} (h : 0 ≤ a.selectedNode ∧ a.selectedNode < a.nodes.length) :
    ∃ m, a.nodes[a.selectedNode.toNat]? = some m :=
  ⟨_, List.getElem?_eq_getElem (by omega)⟩

theorem step_count {fm : Fmt α} {sch : Nat → NSched α} {a a' : App α} {e : Event} (h : a.step fm sch e = .ok a') :
    a'.nodes.length = a.nodes.length := by
  simpa using congrArg List.length (step_names h)

/-- Any input keeps a node selected. -/
theorem step_node {fm : Fmt α} {sch : Nat → NSched α} {a a' : App α} {e : Event} (h : a.step fm sch e = .ok a')
    (hn : 0 ≤ a.selectedNode ∧ a.selectedNode < a.nodes.length) (hs : 0 ≤ a.selectedState) :
    (0 ≤ a'.selectedNode ∧ a'.selectedNode < a'.nodes.length) ∧ 0 ≤ a'.selectedState := by
  have := nextSelection_range (e := e) hn hs
  rw [← step_selection h] at this
  rw [step_count h]
  exact this

theorem step_outcome {fm : Fmt α} {sch : Nat → NSched α} {a a' : App α} {e : Event} (h : a.step fm sch e = .ok a')
    (hout : ∀ m ∈ a.nodes, m.var.outcomes ≠ []) (ho : a.OutcomeExists)
    (hs : a.Steady e ∨ ∃ c, ∀ m ∈ a.nodes, m.var.outcomes.length = c) : a'.OutcomeExists := by
  obtain ⟨m, o1, o2, o3, o4⟩ := ho
  have hn : 0 ≤ a.selectedNode ∧ a.selectedNode < a.nodes.length := by
    have := (List.getElem?_eq_some_iff.1 o2).1
    omega
  have hsel := step_selection h
  obtain ⟨r1, r2⟩ := step_node h hn o3
  obtain ⟨m', hm'⟩ := node_exists r1
  suffices hlt : ∀ k, a.nodes[a'.selectedNode.toNat]? = some k → a'.selectedState < k.var.outcomes.length by
    refine ⟨m', r1.1, hm', r2, ?_⟩
    have e := congrArg (fun l => l[a'.selectedNode.toNat]?) (step_names h)
    simp only [List.getElem?_map, hm', Option.map_some] at e
    cases hk : a.nodes[a'.selectedNode.toNat]? with
    | none => rw [hk] at e; cases e
    | some k =>
      rw [hk] at e
      rw [Option.some.inj e]
      exact hlt k hk
  intro k hk
  have hpos : 0 < k.var.outcomes.length := List.length_pos_iff.2 (hout k (List.mem_of_getElem? hk))
  have keep : a'.selectedNode = a.selectedNode → a'.selectedState = a.selectedState →
      a'.selectedState < k.var.outcomes.length := by
    intro e1 e2
    rw [e1, o2] at hk
    cases hk
    rw [e2]
    exact o4
  have other : ∀ i : Nat, a.nodes[i]? = some k → a'.selectedState = a.selectedState →
      ((i : Int) = a.selectedNode ∨ ∃ c, ∀ m ∈ a.nodes, m.var.outcomes.length = c) →
      a'.selectedState < k.var.outcomes.length := by
    rintro i hi e2 (e | ⟨c, hc⟩)
    · have : a.selectedNode.toNat = i := by omega
      rw [this, hi] at o2
      cases o2
      rw [e2]
      exact o4
    · rw [hc k (List.mem_of_getElem? hk), ← hc m (List.mem_of_getElem? o2), e2]
      exact o4
  cases e with
  | tab => obtain ⟨_, e2⟩ := Prod.mk.inj hsel; rw [e2]; omega
  | backtab => obtain ⟨_, e2⟩ := Prod.mk.inj hsel; rw [e2]; omega
  | space =>
    simp only [nextSelection, o2] at hsel
    obtain ⟨e1, e2⟩ := Prod.mk.inj hsel
    rw [e1, o2] at hk
    cases hk
    rw [e2]
    exact Int.tmod_lt_of_pos _ (by omega)
  | digit c =>
    simp only [nextSelection, o2] at hsel
    obtain ⟨e1, e2⟩ := Prod.mk.inj hsel
    cases hg : goAtoi (String.singleton c) with
    | none => rw [hg] at e2; exact keep e1 e2
    | some i =>
      rw [hg] at e2
      dsimp only at e2
      split_ifs at e2 with hc
      · rw [e1, o2] at hk
        cases hk
        rw [e2]
        exact hc.2
      · exact keep e1 e2
  | enter => exact keep (Prod.mk.inj hsel).1 (Prod.mk.inj hsel).2
  | showTable => exact keep (Prod.mk.inj hsel).1 (Prod.mk.inj hsel).2
  | togglePolicies => exact keep (Prod.mk.inj hsel).1 (Prod.mk.inj hsel).2
  | move key => exact keep (Prod.mk.inj hsel).1 (Prod.mk.inj hsel).2
  | leftClick x y =>
    simp only [nextSelection] at hsel
    cases hf : a.nodes.zipIdx.find? (fun p => p.1.bounds.contains x y) with
    | none => rw [hf] at hsel; exact keep (Prod.mk.inj hsel).1 (Prod.mk.inj hsel).2
    | some q =>
      obtain ⟨n, i⟩ := q
      obtain ⟨f1, _⟩ := find_lt hf
      rw [hf] at hsel
      dsimp only at hsel
      have hn' : a'.selectedNode.toNat = i := by rw [(Prod.mk.inj hsel).1]; simp
      cases hso : n.selectedOutcome x y with
      | none =>
        rw [hso] at hsel
        refine other i (by rw [← hn']; exact hk) (Prod.mk.inj hsel).2 (hs.imp (fun h => h n i hf hso) id)
      | some o =>
        rw [hso] at hsel
        rw [hn', f1] at hk
        cases hk
        rw [(Prod.mk.inj hsel).2]
        exact Int.ofNat_lt.2 (selectedOutcome_lt hso)
  | rightClick x y =>
    simp only [nextSelection] at hsel
    cases hf : a.nodes.zipIdx.find? (fun p => p.1.bounds.contains x y) with
    | none => rw [hf] at hsel; exact keep (Prod.mk.inj hsel).1 (Prod.mk.inj hsel).2
    | some q =>
      obtain ⟨n, i⟩ := q
      rw [hf] at hsel
      dsimp only at hsel
      have hn' : a'.selectedNode.toNat = i := by rw [(Prod.mk.inj hsel).1]; simp
      exact other i (by rw [← hn']; exact hk) (Prod.mk.inj hsel).2 (hs.imp (fun h => h n i hf) id)

theorem run_outcome {fm : Fmt α} {sch : Nat → Nat → NSched α} : ∀ (es : List Event) (k : Nat) (a a' : App α),
    App.run fm sch k es a = .ok a' → (∀ m ∈ a.nodes, m.var.outcomes ≠ []) → a.OutcomeExists →
    (App.SteadyRun fm sch k es a ∨ ∃ c, ∀ m ∈ a.nodes, m.var.outcomes.length = c) → a'.OutcomeExists := by
  intro es
  induction es with
  | nil => intro k a a' h _ ho _; cases h; exact ho
  | cons e es ih =>
    intro k a a' h hout ho hs
    rw [App.run] at h
    obtain ⟨b, hb, h⟩ := bind_inv h
    have hsub : ∀ m ∈ b.nodes, ∃ m' ∈ a.nodes, m'.var = m.var := by
      intro m hm
      have : m.var ∈ b.nodes.map TNode.var := List.mem_map_of_mem hm
      rw [step_names hb] at this
      exact List.mem_map.1 this
    refine ih (k + 1) b a' h (fun m hm => ?_) (step_outcome hb hout ho (hs.imp (fun h => h.1) id)) (hs.imp (fun h => h.2 b hb) ?_)
    · obtain ⟨m', h1, h2⟩ := hsub m hm
      rw [← h2]
      exact hout m' h1
    · rintro ⟨c, hc⟩
      refine ⟨c, fun m hm => ?_⟩
      obtain ⟨m', h1, h2⟩ := hsub m hm
      rw [← h2]
      exact hc m' h1

/-- **C69 (partial).** In any session the selected node exists. The selected outcome exists as well, unless the mouse moved
the selection to another node, by a right click or by a click away from the lines of the outcomes (in which case the app
keeps the number of the outcome), and the variables differ in their numbers of outcomes. Missing: other sessions
(`C69_refuted`). -/
theorem C69_partial [NatCast α] [LE α] [DecidableLE α] [LT α] [DecidableLT α] {fm : Fmt α} {sch0 : NSched α}
    {sch1 : Nat → NSched α} {sch : Nat → Nat → NSched α} {n : Net α} {evidence : List (String × String)} {a0 a : App α}
    (hne : n.variables ≠ []) (hout : ∀ v ∈ n.variables, v.outcomes ≠ [])
    (h0 : startApp fm sch0 sch1 n evidence = .ok a0) {es : List Event} (h : App.run fm sch 0 es a0 = .ok a) :
    (∃ m, 0 ≤ a.selectedNode ∧ a.nodes[a.selectedNode.toNat]? = some m) ∧
    (App.SteadyRun fm sch 0 es a0 ∨ (∃ c, ∀ v ∈ n.variables, v.outcomes.length = c) →
      ∃ m, 0 ≤ a.selectedNode ∧ a.nodes[a.selectedNode.toNat]? = some m ∧
        ∃ o, 0 ≤ a.selectedState ∧ m.var.outcomes[a.selectedState.toNat]? = some o) := by
  obtain ⟨st, _, _⟩ := startApp_inv h0
  have hlen : a0.nodes.length = n.variables.length := by rw [← st.vars, List.length_map]
  have hpos := List.length_pos_iff.2 hne
  have hmem : ∀ m ∈ a0.nodes, m.var ∈ n.variables := by
    intro m hm
    rw [← st.vars]
    exact List.mem_map_of_mem hm
  have hout0 : ∀ m ∈ a0.nodes, m.var.outcomes ≠ [] := fun m hm => hout _ (hmem m hm)
  have hn0 : (0 ≤ a0.selectedNode ∧ a0.selectedNode < a0.nodes.length) ∧ 0 ≤ a0.selectedState := by
    rw [st.selectedNode, st.selectedState]
    omega
  constructor
  · have := run_keep (fun b : App α => (0 ≤ b.selectedNode ∧ b.selectedNode < b.nodes.length) ∧ 0 ≤ b.selectedState)
      (fun _ _ _ _ hp hs => step_node hs hp.1 hp.2) es 0 a0 a h hn0
    obtain ⟨m, hm⟩ := node_exists this.1
    exact ⟨m, this.1.1, hm⟩
  · intro hs
    obtain ⟨m0, hm0⟩ := node_exists hn0.1
    have hp0 := List.length_pos_iff.2 (hout0 m0 (List.mem_of_getElem? hm0))
    obtain ⟨m, r1, r2, r3, r4⟩ := run_outcome es 0 a0 a h hout0 ⟨m0, hn0.1.1, hm0, hn0.2, by rw [st.selectedState]; omega⟩
      (hs.imp id (fun ⟨c, hc⟩ => ⟨c, fun m hm => hc _ (hmem m hm)⟩))
    exact ⟨m, r1, r2, _, r3, List.getElem?_eq_getElem (by omega)⟩

/-- Sessions without the mouse are of the first kind. -/
theorem keyboard_steady {fm : Fmt α} {sch : Nat → Nat → NSched α} : ∀ (es : List Event) (k : Nat) (a : App α),
    (∀ e ∈ es, ∀ x y, e ≠ .leftClick x y ∧ e ≠ .rightClick x y) → App.SteadyRun fm sch k es a := by
  intro es
  induction es with
  | nil => intro k a _; trivial
  | cons e es ih =>
    intro k a h
    refine ⟨?_, fun a' _ => ih _ _ (fun e he => h e (by simp [he]))⟩
    have he := h e (by simp)
    cases e with
    | leftClick x y => exact absurd rfl (he x y).1
    | rightClick x y => exact absurd rfl (he x y).2
    | _ => trivial

/-- Enter crashes the app if the selected outcome does not exist. -/
theorem enter_panics {fm : Fmt α} {sch : Nat → NSched α} {a : App α} {m : TNode α} (h0 : 0 ≤ a.selectedNode)
    (hm : a.nodes[a.selectedNode.toNat]? = some m) (hu : m.var.nodeType ≠ .utility)
    (ho : (m.var.outcomes.length : Int) ≤ a.selectedState) : Panics (a.step fm sch .enter) := by
  have h1 : goGetI a.nodes a.selectedNode = .ok m := by
    unfold goGetI
    rw [if_neg (by omega), goGet_eq]
    exact hm
  have h2 : ∃ msg, goGetI m.var.outcomes a.selectedState = .error (.panic msg) := by
    unfold goGetI
    rw [if_neg (by omega)]
    unfold goGet
    rw [List.getElem?_eq_none (by omega)]
    exact ⟨_, rfl⟩
  obtain ⟨msg, h2⟩ := h2
  rw [App.step, App.inputEnter, h1, ok_bind, if_neg hu, h2]
  exact ⟨msg, rfl⟩

end

/-! ## Examples -/

/-- Without decisions there are no policies. -/
theorem solved_chance [Field α] [LinearOrder α] [IsStrictOrderedRing α] {n : Net α} (hr : AppReady n)
    (hd : ∀ v ∈ n.variables, v.nodeType ≠ .decision) (sch0 : NSched α) :
    ∃ vs names, (n.solvePolicies sch0 true).2 = { n with vs := vs, names := names, policies := [] } := by
  obtain ⟨tables, N, k1, _, _, _, _, _, k6, vs, names, ps, k7⟩ := hr.solve sch0
  have hps : ps = [] := by
    rw [List.eq_nil_iff_forall_not_mem]
    intro p hp
    obtain ⟨i, v, h1, _, h3, _⟩ := k6.decision p (by rw [k7]; exact hp)
    rw [k7] at h1
    exact hd v (List.mem_of_getElem? h1) h3
  rw [k1, k7, hps]
  exact ⟨vs, names, rfl⟩

namespace Ex

/-- Exact bars and texts. -/
def exactFm : Fmt ℚ where
  full x := ⌊x * 10⌋
  fracIdx x := ⌊Int.fract (x * 10) * 7⌋
  percent x := fixedText 7 (x * 100)
  utility x := fixedText 12 x
  cellUtility x := fixedText 9 x
  cellPercent x := fixedText 7 x ++ "%"

theorem exactFm_bars : exactFm.ExactBars := fun _ _ => ⟨rfl, rfl⟩

theorem exactFm_texts : exactFm.ExactTexts := ⟨fun _ => rfl, fun _ => rfl, fun _ => rfl, fun _ => rfl⟩

/-- Two unrelated variables side by side, with three and two outcomes. -/
def pair : Net ℚ where
  name := "pair"
  info := ""
  «variables» := [⟨"A", .chance, ["x", "y", "z"], (0, 0), "", some 0⟩, ⟨"B", .chance, ["yes", "no"], (40, 0), "", some 1⟩]
  factors := [⟨"A", [], some [1, 2, 3], [], 3⟩, ⟨"B", [], some [1, 1], [], 2⟩]
  policies := []
  vs := none
  names := []
  totalUtility := none

def pairVars : List NVar :=
  [⟨"A", .chance, ["x", "y", "z"], (0, 0), "", none⟩, ⟨"B", .chance, ["yes", "no"], (40, 0), "", none⟩]

def pairTables : List (NFactor ℚ) := [⟨"A", [], some [1, 2, 3], [], 0⟩, ⟨"B", [], some [1, 1], [], 0⟩]

theorem pair_new : newNet "pair" "" pairVars pairTables = .ok pair := rfl

theorem pair_valid : pair.Valid where
  names := by decide
  named := by decide
  few := by decide
  outcomes := by decide
  tables := by decide
  hasTable := by decide
  known := by decide
  dims := by decide
  parents := by decide
  size := by
    intro f hf _ _
    have : ∀ f ∈ pair.factors, f.tab.length = (f.dims.map pair.count).prod ∧ f.table = some f.tab := by decide +kernel
    exact ⟨f.tab, (this f hf).2, (this f hf).1⟩
  single := by decide
  weights := by intro i h; cases h

theorem pair_ready : AppReady pair where
  valid := pair_valid
  solvable := by
    rintro ⟨s, hs⟩
    obtain ⟨v, hv, _, h⟩ := isKind_mem.1 hs
    have : ∀ v ∈ pair.variables, v.nodeType ≠ .decision := by decide
    exact absurd h (this v hv)
  total := by intro i h; cases h
  linked := by
    intro v hv _
    have : v = ⟨"A", .chance, ["x", "y", "z"], (0, 0), "", some 0⟩ ∨ v = ⟨"B", .chance, ["yes", "no"], (40, 0), "", some 1⟩ := by
      simpa [pair] using hv
    rcases this with rfl | rfl
    · exact ⟨0, _, rfl, rfl, rfl⟩
    · exact ⟨1, _, rfl, rfl, rfl⟩

/-- The app starts with this network. -/
theorem pair_start (sch0 : NSched ℚ) (sch1 : Nat → NSched ℚ) : ∃ a0 N, startApp exactFm sch0 sch1 pair [] = .ok a0 ∧
    N.AppNet ∧ N.Nonneg ∧ a0.Sound N ∧ Possible N a0 := by
  obtain ⟨vs, names, hN⟩ := solved_chance pair_ready (by decide) sch0
  obtain ⟨h1, h2, a0, h3, h4, h5⟩ := startApp_ok pair_ready (by decide) (by decide) (by decide) (by decide +kernel)
    (fun x h0 h1 => exactFm_bars.bar h0 h1) sch0 sch1 (evidence := []) ⟨by simp, by simp⟩ hN.symm (by
      have : pair.mass [] (pair.Agrees []) ≠ 0 := by decide +kernel
      exact this)
  exact ⟨a0, _, h3, h1, h2, h4, h5⟩

end Ex

/-- A click on the title of a node. -/
theorem title_click {a : App ℚ} {p q : TNode ℚ} (hn : a.nodes = [p, q]) {x y : Int} (h1 : p.bounds.contains x y = false)
    (h2 : q.bounds.contains x y = true) (h3 : y < q.bounds.y + 2) :
    a.nodes.zipIdx.find? (fun p => p.1.bounds.contains x y) = some (q, 1) ∧ q.selectedOutcome x y = none := by
  constructor
  · rw [hn]
    simp [h1, h2]
  · unfold TNode.selectedOutcome
    rw [if_pos h2, List.find?_eq_none]
    intro i _
    simp only [decide_eq_true_eq]
    omega

/-- **C69 fails**: with a variable of three outcomes selected, its last outcome selected by two presses of the space bar, and a
click on the title of a variable with two outcomes, Enter crashes the app. -/
theorem C69_refuted (sch0 : NSched ℚ) (sch1 : Nat → NSched ℚ) (sch : Nat → Nat → NSched ℚ) :
    ∃ a0 a, newNet "pair" "" Ex.pairVars Ex.pairTables = .ok Ex.pair ∧ startApp Ex.exactFm sch0 sch1 Ex.pair [] = .ok a0 ∧
      App.run Ex.exactFm sch 0 [.space, .space, .leftClick 42 1] a0 = .ok a ∧ Panics (a.step Ex.exactFm (sch 3) .enter) := by
  obtain ⟨a0, N, h0, hA, hnn, hs0, hp0⟩ := Ex.pair_start sch0 sch1
  have hfm : ∀ x, 0 ≤ x → x ≤ 1 → Ex.exactFm.Bar (some x) := fun x h0 h1 => Ex.exactFm_bars.bar h0 h1
  obtain ⟨st, _, _⟩ := startApp_inv h0
  -- the nodes
  have hnodes : ∀ b : App ℚ, b.nodes.map (fun n => (n.var, n.bounds)) = Ex.pair.variables.map (fun v => (v, nodeBounds v)) →
      ∃ p q, b.nodes = [p, q] ∧ p.var = ⟨"A", .chance, ["x", "y", "z"], (0, 0), "", some 0⟩ ∧
        q.var = ⟨"B", .chance, ["yes", "no"], (40, 0), "", some 1⟩ ∧ p.bounds = nodeBounds p.var ∧ q.bounds = nodeBounds q.var := by
    intro b hb
    match hbn : b.nodes with
    | [] => rw [hbn] at hb; simp [Ex.pair] at hb
    | [p] => rw [hbn] at hb; simp [Ex.pair] at hb
    | [p, q] =>
      rw [hbn] at hb
      simp only [Ex.pair, List.map_cons, List.map_nil, List.cons.injEq, Prod.mk.injEq] at hb
      obtain ⟨⟨e1, e2⟩, ⟨e3, e4⟩, _⟩ := hb
      exact ⟨p, q, rfl, e1, e3, by rw [e2, e1], by rw [e4, e3]⟩
    | p :: q :: r :: l => rw [hbn] at hb; simp [Ex.pair] at hb
  have hb0 : a0.nodes.map (fun n => (n.var, n.bounds)) = Ex.pair.variables.map (fun v => (v, nodeBounds v)) := by
    have e1 := st.vars
    have e2 := st.bounds
    rw [← List.zip_map', ← List.zip_map', e1, e2, List.map_id']
  have hspace : ∀ {b b' : App ℚ} {k}, b.step Ex.exactFm (sch k) .space = .ok b' →
      b'.nodes.map (fun n => (n.var, n.bounds)) = b.nodes.map (fun n => (n.var, n.bounds)) := by
    intro b b' k h
    rw [App.step] at h
    obtain ⟨n, _, h⟩ := bind_inv h
    split_ifs at h
    have := congrArg (List.map (fun p => (p.1, p.2.2.1))) (App.render_same h).nodes
    rw [List.map_map, List.map_map] at this
    exact this
  obtain ⟨a1, s1, hp1⟩ := hs0.step_ok hA hnn hfm (sch 0) hp0 (e := .space) trivial
  have hs1 := hs0.step hA s1
  obtain ⟨a2, s2, hp2⟩ := hs1.step_ok hA hnn hfm (sch 1) hp1 (e := .space) trivial
  have hs2 := hs1.step hA s2
  obtain ⟨p0, q0, n0, pv0, _⟩ := hnodes a0 hb0
  obtain ⟨p1, q1, n1, pv1, _⟩ := hnodes a1 ((hspace s1).trans hb0)
  obtain ⟨p2, q2, n2, pv2, qv2, pb2, qb2⟩ := hnodes a2 ((hspace s2).trans ((hspace s1).trans hb0))
  have sel1 := step_selection s1
  simp only [nextSelection, st.selectedNode, st.selectedState, n0] at sel1
  change _ = ((0 : Int), ((0 : Int) + 1).tmod p0.var.outcomes.length) at sel1
  rw [pv0] at sel1
  have sel1' : a1.selectedNode = 0 ∧ a1.selectedState = 1 := Prod.mk.inj sel1
  have sel2 := step_selection s2
  simp only [nextSelection, sel1'.1, sel1'.2, n1] at sel2
  change _ = ((0 : Int), ((1 : Int) + 1).tmod p1.var.outcomes.length) at sel2
  rw [pv1] at sel2
  have sel2' : a2.selectedNode = 0 ∧ a2.selectedState = 2 := Prod.mk.inj sel2
  obtain ⟨t1, t2⟩ := title_click n2 (x := 42) (y := 1) (by rw [pb2, pv2]; decide) (by rw [qb2, qv2]; decide)
    (by rw [qb2, qv2]; decide)
  obtain ⟨a3, s3, _⟩ := hs2.step_ok hA hnn hfm (sch 2) hp2 (e := .leftClick 42 1) (by
    intro m i o hf ho
    rw [t1] at hf
    cases hf
    rw [t2] at ho
    cases ho)
  have sel3 := step_selection s3
  simp only [nextSelection, t1, t2, sel2'.2] at sel3
  have sel3' : a3.selectedNode = 1 ∧ a3.selectedState = 2 := Prod.mk.inj sel3
  refine ⟨a0, a3, Ex.pair_new, h0, ?_, ?_⟩
  · simp only [App.run, s1, ok_bind, s2, s3]
  · have e := congrArg (fun l => l[1]?) (step_names s3)
    simp only [List.getElem?_map, n2] at e
    cases hk : a3.nodes[1]? with
    | none => rw [hk] at e; cases e
    | some k =>
      rw [hk] at e
      have ek : k.var = q2.var := Option.some.inj e
      refine enter_panics (m := k) (by rw [sel3'.1]; decide) (by rw [sel3'.1]; exact hk) (by rw [ek, qv2]; decide) ?_
      rw [ek, qv2, sel3'.2]
      decide

end Bbn
