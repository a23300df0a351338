import Verif.Lemmas.TuiReady
import Verif.Props.NetQuery

/-!
# The terminal app starts, and its inputs do not crash it
-/

set_option autoImplicit false

namespace Bbn

variable {α : Type}

/-! ## Shown probabilities are between 0 and 1 -/

theorem data_nonneg [Zero α] [LE α] {f : Factor α} (hf : f.WF) (h : ∀ σ, Fits σ f.vars → 0 ≤ f.val σ) :
    ∀ x ∈ f.data, 0 ≤ x := by
  intro x hx
  obtain ⟨i, hi⟩ := List.getElem?_of_mem hx
  obtain ⟨hlt, _⟩ := List.getElem?_eq_some_iff.1 hi
  rw [hf.len] at hlt
  have ht : tupleOf f.vars (assignOf f.vars (outcomesOf f.vars i)) = outcomesOf f.vars i :=
    tupleOf_assignOf hf.nodup (outcomesOf_length _ _)
  have := h (assignOf f.vars (outcomesOf f.vars i)) (fits_of_inRange (by rw [ht]; exact outcomesOf_inRange hlt))
  unfold Factor.val at this
  rw [ht, flatIndex_outcomesOf hlt, List.getD_eq_getElem?_getD, hi] at this
  exact this

/-- Solved policies and chance tables are not negative. -/
theorem nonneg_solved [CommSemiring α] [LE α] {N : Net α} (h : N.PoliciesSolved)
    (ht : ∀ f ∈ N.chanceTables, ∀ x ∈ f.tab, 0 ≤ x) : N.Nonneg := by
  refine ⟨ht, fun p hp => ?_⟩
  obtain ⟨d, ⟨_, h1, _⟩, _⟩ := h.rows p hp
  exact data_nonneg (h.wf p hp) h1

theorem sumWorlds_mono [AddCommMonoid α] [PartialOrder α] [IsOrderedAddMonoid α] {F G : World → α} (h : ∀ w, F w ≤ G w) :
    ∀ (l : List NVar) (w : World), sumWorlds l F w ≤ sumWorlds l G w := by
  intro l
  induction l with
  | nil => intro w; exact h w
  | cons v l ih => intro w; exact Finset.sum_le_sum (fun k _ => ih _)

theorem mass_mono [Field α] [LinearOrder α] [IsStrictOrderedRing α] {n : Net α} (h : n.Nonneg)
    {pols : List (String × Factor α)} (hsub : ∀ p ∈ pols, p ∈ n.policies) (P Q : World → Prop) [DecidablePred P]
    [DecidablePred Q] (hPQ : ∀ w, P w → Q w) : n.mass pols P ≤ n.mass pols Q := by
  unfold Net.mass Net.total
  apply sumWorlds_mono
  intro w
  apply mul_le_mul_of_nonneg_left _ (joint_nonneg_world h hsub w)
  dsimp only
  by_cases hP : P w
  · rw [if_pos hP, if_pos (hPQ w hP)]
  · rw [if_neg hP]
    split_ifs
    · exact zero_le_one
    · exact le_refl _

theorem posterior_unit [Field α] [LinearOrder α] [IsStrictOrderedRing α] {n : Net α} (h : n.Nonneg)
    (evidence : List (String × String)) (ign : Bool) (q : String) : ∀ x ∈ n.posterior evidence ign q, 0 ≤ x ∧ x ≤ 1 := by
  intro x hx
  unfold Net.posterior at hx
  obtain ⟨k, _, rfl⟩ := List.mem_map.1 hx
  have h1 := mass_nonneg h (active_sub (n := n) (evidence := evidence) (ign := ign)) (n.Agrees evidence)
  exact ⟨div_nonneg (mass_nonneg h active_sub _) h1, div_le_one_of_le₀ (mass_mono h active_sub _ _ (fun w hw => hw.1)) h1⟩

/-! ## The app at any time of a session -/

/-- What holds of the app at all times. -/
structure App.Sound [Field α] [DecidableEq α] (N : Net α) (a : App α) : Prop where
  live : a.Live N
  placed : a.Placed
  vars : a.nodes.map TNode.var = N.variables
  factor : ∀ m ∈ a.nodes, ∃ f, m.factor = some f ∧ f.forVar = m.var.name
  byName : Indexed a.nodes a.byName
  node : 0 ≤ a.selectedNode ∧ a.selectedNode < a.nodes.length
  state : 0 ≤ a.selectedState

/-- What is shown can be drawn. -/
theorem App.Sound.drawable [Field α] [LinearOrder α] [IsStrictOrderedRing α] {N : Net α} (hN : N.AppNet) (hnn : N.Nonneg)
    {fm : Fmt α} (hfm : ∀ x, 0 ≤ x → x ≤ 1 → fm.Bar (some x)) {a : App α} (hl : a.Live N)
    (hv : a.nodes.map TNode.var = N.variables) (hp : Possible N a) :
    ∀ m ∈ a.nodes, m.Drawable fm ((mapGet a.marginals m.var.name).getD []) := by
  intro m hm
  have hmem : m.var ∈ N.variables := by rw [← hv]; exact List.mem_map_of_mem hm
  obtain ⟨s1, s2, s3, _⟩ := hl.shows_ hp
  unfold TNode.Drawable
  split_ifs with hu
  · by_cases ht : m.var.name = N.totalName
    · obtain ⟨i, hi⟩ := List.getElem?_of_mem hmem
      have htu := (totalName_iff hN.valid hi).1 ht
      obtain ⟨f, hf, e⟩ := hN.valid.hasTable m.var hmem (by rw [hu]; decide)
      rw [ht, s3 i htu f hf (e.trans ht)]
      have hc := (hN.total i htu f hf (e.trans ht)).2.1
      rw [← ht, count_eq hN.valid hmem] at hc
      simp only [Option.getD_some, List.length_append, List.length_map, List.length_singleton]
      omega
    · rw [s2 m.var (List.mem_filter.2 ⟨hmem, by simp [hu, ht]⟩)]
      simp
  · rw [s1 m.var (mem_stateVars.2 ⟨hmem, hu⟩)]
    refine ⟨?_, ?_⟩
    · simp [Net.posterior, count_eq hN.valid hmem]
    · intro p hpm
      simp only [Option.getD_some, List.mem_map] at hpm
      obtain ⟨x, hx, rfl⟩ := hpm
      obtain ⟨h0, h1⟩ := posterior_unit hnn _ _ _ x hx
      exact hfm x h0 h1

theorem App.Sound.congr [Field α] [DecidableEq α] {N : Net α} {a b : App α} (h : a.Sound N) (hl : b.Live N) (hp : b.Placed)
    (hn : b.nodes.map (fun n => (n.var, n.factor)) = a.nodes.map (fun n => (n.var, n.factor))) (hb : b.byName = a.byName)
    (hsel : 0 ≤ b.selectedNode ∧ b.selectedNode < b.nodes.length) (hst : 0 ≤ b.selectedState) : b.Sound N := by
  have hvars : b.nodes.map TNode.var = a.nodes.map TNode.var := by
    have := congrArg (List.map (fun p => p.1)) hn
    rw [List.map_map, List.map_map] at this
    exact this
  refine ⟨hl, hp, hvars.trans h.vars, ?_, ?_, hsel, hst⟩
  · intro m hm
    have : (m.var, m.factor) ∈ b.nodes.map (fun n => (n.var, n.factor)) := List.mem_map_of_mem hm
    rw [hn] at this
    obtain ⟨x, hx, e⟩ := List.mem_map.1 this
    simp only [Prod.mk.injEq] at e
    rw [← e.1, ← e.2]
    exact h.factor x hx
  · intro i m hm
    have : (b.nodes.map TNode.var)[i]? = some m.var := by rw [List.getElem?_map, hm]; rfl
    rw [hvars, List.getElem?_map] at this
    obtain ⟨x, hx, e⟩ := Option.map_eq_some_iff.1 this
    rw [hb, ← e]
    exact h.byName i x hx

/-- The node and the outcome selected after an event. -/
def nextSelection (a : App α) : Event → Int × Int
  | .tab => ((a.selectedNode + 1).tmod a.nodes.length, 0)
  | .backtab => (if a.selectedNode - 1 < 0 then (a.nodes.length : Int) - 1 else a.selectedNode - 1, 0)
  | .space => (a.selectedNode, match a.nodes[a.selectedNode.toNat]? with
    | some n => (a.selectedState + 1).tmod n.var.outcomes.length
    | none => a.selectedState)
  | .digit c => (a.selectedNode, match a.nodes[a.selectedNode.toNat]?, goAtoi (String.singleton c) with
    | some n, some i => if i - 1 ≥ 0 ∧ i - 1 < n.var.outcomes.length then i - 1 else a.selectedState
    | _, _ => a.selectedState)
  | .leftClick x y => match a.nodes.zipIdx.find? (fun p => p.1.bounds.contains x y) with
    | some (n, i) => ((i : Int), match n.selectedOutcome x y with
      | some o => (o : Int)
      | none => a.selectedState)
    | none => (a.selectedNode, a.selectedState)
  | .rightClick x y => match a.nodes.zipIdx.find? (fun p => p.1.bounds.contains x y) with
    | some (_, i) => ((i : Int), a.selectedState)
    | none => (a.selectedNode, a.selectedState)
  | _ => (a.selectedNode, a.selectedState)

theorem step_selection [Zero α] [One α] [Add α] [Mul α] [Div α] [DecidableEq α] {fm : Fmt α} {sch : Nat → NSched α}
    {a a' : App α} {e : Event} (h : a.step fm sch e = .ok a') : (a'.selectedNode, a'.selectedState) = nextSelection a e := by
  have key : ∀ {b c : App α}, SameApp b c → (c.selectedNode, c.selectedState) = (b.selectedNode, b.selectedState) :=
    fun hs => by rw [hs.selectedNode, hs.selectedState]
  cases e with
  | tab =>
    rw [App.step] at h
    split_ifs at h
    exact key (App.render_same h)
  | backtab =>
    rw [App.step] at h
    exact key (App.render_same h)
  | space =>
    rw [App.step] at h
    obtain ⟨n, hn, h⟩ := bind_inv h
    split_ifs at h
    rw [key (App.render_same h)]
    simp only [nextSelection, (goGetI_inv hn).2.2]
  | digit c =>
    rw [App.step, App.selectNodeOutcome] at h
    cases hg : goAtoi (String.singleton c) with
    | none => rw [hg] at h; cases h
    | some i =>
      rw [hg] at h
      obtain ⟨n, hn, h⟩ := bind_inv h
      simp only [nextSelection, (goGetI_inv hn).2.2, hg]
      split_ifs at h with hc
      · rw [key (App.render_same h), if_pos hc]
      · cases h; rw [if_neg hc]
  | enter =>
    rw [App.step] at h
    obtain ⟨b, hb, h⟩ := bind_inv h
    obtain ⟨n, _, _, _, e1, e2, _⟩ := inputEnter_inv hb
    rw [key (App.render_same h), e1, e2]
    rfl
  | showTable =>
    rw [App.step] at h
    obtain ⟨_, _, h⟩ := bind_inv h
    obtain ⟨_, _, h⟩ := bind_inv h
    cases h
    rfl
  | togglePolicies =>
    rw [App.step, App.toggleIgnorePolicy] at h
    obtain ⟨_, _, _, h1, h2, _⟩ := updateMarginals_same (sch := sch) { a with ignorePolicies := !a.ignorePolicies }
    rcases hs : App.updateMarginals sch { a with ignorePolicies := !a.ignorePolicies } with ⟨r, b⟩
    rw [hs] at h h1 h2
    dsimp only at h1 h2
    match r, h with
    | .ok (), h => rw [key (App.render_same h), h1, h2]; rfl
    | .error (.error _), h => rw [key (App.render_same h), h1, h2]; rfl
  | move key' =>
    rw [App.step] at h
    unfold App.moveNode at h
    obtain ⟨n, hn, h⟩ := bind_inv h
    obtain ⟨d, hd, h⟩ := bind_inv h
    split_ifs at h with hz
    · cases h; rfl
    obtain ⟨v, hv, h⟩ := bind_inv h
    obtain ⟨ns, hns, h⟩ := bind_inv h
    obtain ⟨vs, hvs, h⟩ := bind_inv h
    obtain ⟨g, hg, h⟩ := bind_inv h
    rw [key (App.render_same h)]
    rfl
  | leftClick x y =>
    rw [App.step, App.leftClick] at h
    simp only [nextSelection]
    split at h
    · rename_i hf
      cases h; rw [hf]
    · rename_i n i hf
      rw [hf]
      dsimp only
      obtain ⟨b, hb, h⟩ := bind_inv h
      rw [key (App.render_same h)]
      cases ho : n.selectedOutcome x y with
      | some o =>
        rw [ho] at hb
        obtain ⟨_, _, _, _, e1, e2, _⟩ := inputEnter_inv hb
        rw [e1, e2]
      | none => rw [ho] at hb; cases hb; rfl
  | rightClick x y =>
    rw [App.step, App.rightClick] at h
    simp only [nextSelection]
    split at h
    · rename_i hf
      cases h; rw [hf]
    · rename_i n i hf
      rw [hf]
      obtain ⟨b, hb, h⟩ := bind_inv h
      obtain ⟨_, _, h⟩ := bind_inv h
      obtain ⟨_, _, h⟩ := bind_inv h
      cases h
      rw [key (App.render_same hb)]

theorem find_lt {l : List (TNode α)} {p : TNode α × Nat → Bool} {m : TNode α} {i : Nat} (h : l.zipIdx.find? p = some (m, i)) :
    l[i]? = some m ∧ i < l.length := by
  have := List.mem_of_find?_eq_some h
  rw [List.mem_zipIdx_iff_getElem?] at this
  exact ⟨this, (List.getElem?_eq_some_iff.1 this).1⟩

theorem selectedOutcome_lt {n : TNode α} {x y : Int} {o : Nat} (h : n.selectedOutcome x y = some o) :
    o < n.var.outcomes.length := by
  unfold TNode.selectedOutcome at h
  split_ifs at h
  exact List.mem_range.1 (List.mem_of_find?_eq_some h)

/-- The node selected after an event exists, if there are nodes. -/
theorem nextSelection_range {a : App α} {e : Event} (hn : 0 ≤ a.selectedNode ∧ a.selectedNode < a.nodes.length)
    (hs : 0 ≤ a.selectedState) :
    (0 ≤ (nextSelection a e).1 ∧ (nextSelection a e).1 < a.nodes.length) ∧ 0 ≤ (nextSelection a e).2 := by
  obtain ⟨h0, h1⟩ := hn
  cases e with
  | tab =>
    simp only [nextSelection]
    have hpos : (0 : Int) < a.nodes.length := by omega
    rw [Int.tmod_eq_emod_of_nonneg (by omega)]
    exact ⟨⟨Int.emod_nonneg _ (by omega), Int.emod_lt_of_pos _ hpos⟩, le_refl _⟩
  | backtab =>
    simp only [nextSelection]
    split_ifs <;> omega
  | space =>
    simp only [nextSelection]
    refine ⟨⟨h0, h1⟩, ?_⟩
    split
    · exact Int.tmod_nonneg _ (by omega)
    · exact hs
  | digit c =>
    simp only [nextSelection]
    refine ⟨⟨h0, h1⟩, ?_⟩
    split
    · split_ifs with hc
      · exact hc.1
      · exact hs
    · exact hs
  | leftClick x y =>
    simp only [nextSelection]
    split
    · rename_i n i hf
      have := (find_lt hf).2
      refine ⟨⟨by simp, by simpa using this⟩, ?_⟩
      dsimp only
      split
      · simp
      · exact hs
    · exact ⟨⟨h0, h1⟩, hs⟩
  | rightClick x y =>
    simp only [nextSelection]
    split
    · rename_i n i hf
      have := (find_lt hf).2
      exact ⟨⟨by simp, by simpa using this⟩, hs⟩
    · exact ⟨⟨h0, h1⟩, hs⟩
  | enter => exact ⟨⟨h0, h1⟩, hs⟩
  | showTable => exact ⟨⟨h0, h1⟩, hs⟩
  | togglePolicies => exact ⟨⟨h0, h1⟩, hs⟩
  | move key => exact ⟨⟨h0, h1⟩, hs⟩

theorem App.Sound.step [Field α] [CharZero α] [DecidableEq α] {N : Net α} (hN : N.AppNet) {fm : Fmt α} {sch : Nat → NSched α}
    {a a' : App α} {e : Event} (hs : a.Sound N) (h : a.step fm sch e = .ok a') : a'.Sound N := by
  have hnode : ∀ m ∈ a.nodes, ∃ v ∈ N.variables, v.name = m.var.name ∧ v.nodeType = m.var.nodeType ∧ v.outcomes = m.var.outcomes :=
    fun m hm => ⟨m.var, by rw [← hs.vars]; exact List.mem_map_of_mem hm, rfl, rfl, rfl⟩
  obtain ⟨v1, v2⟩ := step_vars h
  have hn : a'.nodes.map (fun n => (n.var, n.factor)) = a.nodes.map (fun n => (n.var, n.factor)) := by
    have := congrArg (List.map (fun p => (p.1, p.2.1))) v1
    rw [List.map_map, List.map_map] at this
    exact this
  have hlen : a'.nodes.length = a.nodes.length := by simpa using congrArg List.length hn
  obtain ⟨r1, r2⟩ := nextSelection_range (e := e) hs.node hs.state
  rw [← step_selection h] at r1 r2
  exact hs.congr (hs.live.step hN hnode h) (hs.placed.step h) hn v2 (by rw [hlen]; exact r1) r2

/-! ## Inputs that do not crash the app -/

/-- Choosing outcome `s` of node `i` leaves the evidence possible; the outcome exists. -/
def App.ChoiceOK [Field α] [DecidableEq α] (N : Net α) (a : App α) (i s : Int) : Prop :=
  ∀ m, a.nodes[i.toNat]? = some m → m.var.nodeType ≠ .utility →
    ∃ value, 0 ≤ s ∧ m.var.outcomes[s.toNat]? = some value ∧
      N.mass (N.active (toggleEvidence a.evidence m.var.name value) a.ignorePolicies)
        (N.Agrees (toggleEvidence a.evidence m.var.name value)) ≠ 0

/-- Inputs that are not asking for trouble: digits are decimal, an outcome that is chosen exists, and the evidence stays
possible. -/
def App.Careful [Field α] [DecidableEq α] (N : Net α) (a : App α) : Event → Prop
  | .digit c => c.isDigit = true
  | .enter => a.ChoiceOK N a.selectedNode a.selectedState
  | .togglePolicies => N.mass (N.active a.evidence (!a.ignorePolicies)) (N.Agrees a.evidence) ≠ 0
  | .leftClick x y => ∀ m i o, a.nodes.zipIdx.find? (fun p => p.1.bounds.contains x y) = some (m, i) →
      m.selectedOutcome x y = some o → a.ChoiceOK N (i : Int) (o : Int)
  | _ => True

/-- All inputs of a session are careful at the time they are made. -/
def App.CarefulRun [Field α] [DecidableEq α] (fm : Fmt α) (sch : Nat → Nat → NSched α) (N : Net α) : Nat → List Event → App α → Prop
  | _, [], _ => True
  | k, e :: es, a => a.Careful N e ∧ ∀ a', a.step fm (sch k) e = .ok a' → App.CarefulRun fm sch N (k + 1) es a'

theorem mapM_exists {β γ : Type} {g : β → Except Fault γ} {l : List β} (hg : ∀ x ∈ l, ∃ y, g x = .ok y) :
    ∃ r, l.mapM g = .ok r := by
  induction l with
  | nil => exact ⟨[], rfl⟩
  | cons x l ih =>
    obtain ⟨y, hy⟩ := hg x (by simp)
    obtain ⟨r, hr⟩ := ih (fun z hz => hg z (by simp [hz]))
    exact ⟨y :: r, by rw [List.mapM_cons, hy, ok_bind, hr, ok_bind]; rfl⟩

theorem goAtoi_digit {c : Char} (h : c.isDigit = true) : ∃ i, goAtoi (String.singleton c) = some i := by
  have e : (String.singleton c).toList = [c] := by simp
  have hd : digitsValue [c] = some (0 * 10 + (c.toNat - 48)) := by
    unfold digitsValue
    rw [if_neg (by simp)]
    simp [h]
  have hb : c.toNat - 48 < 2 ^ 63 := by
    have h1 : c.toNat < 2 ^ 32 := c.val.toNat_lt
    omega
  unfold goAtoi
  rw [e]
  have h1 : c ≠ '-' := by rintro rfl; exact absurd h (by decide)
  have h2 : c ≠ '+' := by rintro rfl; exact absurd h (by decide)
  rw [atoiChars.eq_3 _ (by intro cs hh; simp only [List.cons.injEq] at hh; exact h1 hh.1)
    (by intro cs hh; simp only [List.cons.injEq] at hh; exact h2 hh.1), hd]
  simp only [Option.bind_some]
  rw [if_pos (by omega)]
  exact ⟨_, rfl⟩

section

variable [Field α] [LinearOrder α] [IsStrictOrderedRing α]

omit [IsStrictOrderedRing α] in
theorem App.Live.select {N : Net α} {a : App α} (hl : a.Live N) (i s : Int) :
    App.Live N { a with selectedNode := i, selectedState := s } :=
  ⟨hl.moved, hl.names, hl.nodes, hl.evidence, fun hp => ⟨(hl.shows_ hp).state, (hl.shows_ hp).utility, (hl.shows_ hp).total,
    (hl.shows_ hp).keys⟩⟩

theorem App.Sound.render_ok {N : Net α} (hN : N.AppNet) (hnn : N.Nonneg) {fm : Fmt α}
    (hfm : ∀ x, 0 ≤ x → x ≤ 1 → fm.Bar (some x)) {a : App α} (hs : a.Sound N) (hp : Possible N a) (u : Bool) :
    ∃ a', a.render fm u = .ok a' ∧ Possible N a' := by
  obtain ⟨a', h1, _, h2⟩ := hs.placed.render_ok (fun m hm => (hs.factor m hm).imp (fun f h => h.1))
    (App.Sound.drawable hN hnn hfm hs.live hs.vars hp) u
  refine ⟨a', h1, ?_⟩
  unfold Possible
  rw [h2.evidence, h2.ignorePolicies]
  exact hp

omit [IsStrictOrderedRing α] in
theorem App.Sound.select {N : Net α} {a : App α} (hs : a.Sound N) {i s : Int} (hi : 0 ≤ i ∧ i < a.nodes.length) (h0 : 0 ≤ s) :
    App.Sound N { a with selectedNode := i, selectedState := s } :=
  hs.congr (hs.live.select i s) (hs.placed.select i s) rfl rfl hi h0

omit [IsStrictOrderedRing α] in
theorem App.Sound.showTable_ok {N : Net α} (hN : N.AppNet) {a : App α} (hs : a.Sound N) : a.showTable = .ok a := by
  obtain ⟨m, h1, hm, h3⟩ := goGetI_in (l := a.nodes) hs.node.1 hs.node.2
  obtain ⟨f, h4, h5⟩ := hs.factor m hm
  have hderef : m.deref = .ok f := by unfold TNode.deref; rw [h4]
  have hidx : intGet a.byName f.forVar = a.selectedNode.toNat := by
    unfold intGet
    rw [h5, hs.byName _ _ h3]
    rfl
  have hg : goGet a.nodes (intGet a.byName f.forVar) = .ok m := by rw [hidx, goGet_eq]; exact h3
  have hout := (hN.valid.outcomes m.var (by rw [← hs.vars]; exact List.mem_map_of_mem hm)).1
  unfold App.showTable newTable
  rw [h1, ok_bind, hderef, ok_bind, hg, ok_bind]
  unfold TTable.rowCount
  simp only [pure, Except.pure, ok_bind]
  rw [h1, ok_bind, hderef, ok_bind, if_neg (by omega)]
  rfl

theorem App.Sound.choose_ok {N : Net α} (hN : N.AppNet) (sch : Nat → NSched α) {a : App α} (hs : a.Sound N) (hp : Possible N a)
    (hc : a.ChoiceOK N a.selectedNode a.selectedState) :
    ∃ a', a.inputEnter sch = .ok a' ∧ a'.Sound N ∧ Possible N a' := by
  obtain ⟨m, h1, hm, h3⟩ := goGetI_in (l := a.nodes) hs.node.1 hs.node.2
  unfold App.inputEnter
  rw [h1, ok_bind]
  split_ifs with hu
  · exact ⟨a, rfl, hs, hp⟩
  obtain ⟨value, s0, hv, hmass⟩ := hc m h3 hu
  have hget : goGetI m.var.outcomes a.selectedState = .ok value := by
    unfold goGetI
    rw [if_neg (by omega), goGet_eq]
    exact hv
  rw [hget, ok_bind]
  have hmem : m.var ∈ N.variables := by rw [← hs.vars]; exact List.mem_map_of_mem hm
  have hok := toggleEvidence_ok hs.live.evidence hmem hu (List.mem_of_getElem? hv)
  obtain ⟨k1, k2⟩ := updateMarginals_live sch hN (a := { a with evidence := toggleEvidence a.evidence m.var.name value })
    hs.live.moved hs.live.names hs.live.nodes hok
  have k2 := k2 hmass
  obtain ⟨u1, u2, u3, u4, u5, u6, u7⟩ := updateMarginals_same (sch := sch)
    { a with evidence := toggleEvidence a.evidence m.var.name value }
  have u8 := updateMarginals_vars sch { a with evidence := toggleEvidence a.evidence m.var.name value }
  rcases hr : App.updateMarginals sch { a with evidence := toggleEvidence a.evidence m.var.name value } with ⟨r, b⟩
  rw [hr] at k1 k2 u1 u2 u3 u4 u5 u6 u7 u8
  dsimp only at k1 k2 u1 u2 u3 u4 u5 u6 u7 u8
  subst k2
  refine ⟨b, rfl, hs.congr k1 (hs.placed.congr u1 u2 u7 u8) (by rw [u1]) u2 (by rw [u1, u4]; exact hs.node)
    (by rw [u5]; exact hs.state), ?_⟩
  unfold Possible
  rw [u3, u6]
  exact hmass

/-- Careful inputs do not crash the app. -/
theorem App.Sound.step_ok {N : Net α} (hN : N.AppNet) (hnn : N.Nonneg) {fm : Fmt α}
    (hfm : ∀ x, 0 ≤ x → x ≤ 1 → fm.Bar (some x)) (sch : Nat → NSched α) {a : App α} (hs : a.Sound N) (hp : Possible N a)
    {e : Event} (hc : a.Careful N e) : ∃ a', a.step fm sch e = .ok a' ∧ Possible N a' := by
  obtain ⟨m, g1, hm, g3⟩ := goGetI_in (l := a.nodes) hs.node.1 hs.node.2
  have hsel := nextSelection_range (e := e) hs.node hs.state
  have hrender : ∀ {i s : Int}, (i, s) = nextSelection a e →
      ∃ a', App.render fm { a with selectedNode := i, selectedState := s } true = .ok a' ∧ Possible N a' := by
    intro i s h
    rw [← h] at hsel
    exact (hs.select hsel.1 hsel.2).render_ok hN hnn hfm hp true
  cases e with
  | tab =>
    rw [App.step, if_neg (by have := hs.node; omega)]
    exact hrender rfl
  | backtab => rw [App.step]; exact hrender rfl
  | space =>
    have hout := (hN.valid.outcomes m.var (by rw [← hs.vars]; exact List.mem_map_of_mem hm)).1
    rw [App.step, g1, ok_bind, if_neg (by omega)]
    exact hrender (i := a.selectedNode) (by simp only [nextSelection, g3])
  | digit c =>
    obtain ⟨i, hi⟩ := goAtoi_digit hc
    rw [App.step, App.selectNodeOutcome, hi]
    dsimp only
    rw [g1, ok_bind]
    split_ifs with h
    · exact hrender (i := a.selectedNode) (by simp only [nextSelection, g3, hi, if_pos h])
    · exact ⟨a, rfl, hp⟩
  | enter =>
    obtain ⟨b, h1, h2, h3⟩ := hs.choose_ok hN sch hp hc
    rw [App.step, h1, ok_bind]
    exact h2.render_ok hN hnn hfm h3 true
  | showTable => rw [App.step, hs.showTable_ok hN]; exact ⟨a, rfl, hp⟩
  | togglePolicies =>
    obtain ⟨k1, k2⟩ := updateMarginals_live sch hN (a := { a with ignorePolicies := !a.ignorePolicies })
      hs.live.moved hs.live.names hs.live.nodes hs.live.evidence
    have k2 := k2 hc
    obtain ⟨u1, u2, u3, u4, u5, u6, u7⟩ := updateMarginals_same (sch := sch) { a with ignorePolicies := !a.ignorePolicies }
    have u8 := updateMarginals_vars sch { a with ignorePolicies := !a.ignorePolicies }
    rw [App.step, App.toggleIgnorePolicy]
    rcases hr : App.updateMarginals sch { a with ignorePolicies := !a.ignorePolicies } with ⟨r, b⟩
    rw [hr] at k1 k2 u1 u2 u3 u4 u5 u6 u7 u8
    dsimp only at k1 k2 u1 u2 u3 u4 u5 u6 u7 u8
    subst k2
    have hb : b.Sound N := hs.congr k1 (hs.placed.congr u1 u2 u7 u8) (by rw [u1]) u2 (by rw [u1, u4]; exact hs.node)
      (by rw [u5]; exact hs.state)
    refine hb.render_ok hN hnn hfm ?_ true
    unfold Possible
    rw [u3, u6]
    exact hc
  | move key =>
    obtain ⟨n, d, h1, h2, v, ns, vs, g, h3, h4, h5, h6⟩ := hs.placed.move_ok hs.node.1 hs.node.2 key
    have hpl := hs.placed.moved h1 h2 h3 h4 h5 h6 (bif d.2.2 then createColors g else a.colors)
    rw [App.step, App.moveNode, h1, ok_bind, h2, ok_bind]
    split_ifs with hz
    · exact ⟨a, rfl, hp⟩
    rw [h3, ok_bind, h4, ok_bind, h5, ok_bind, h6, ok_bind]
    have hns : ns.map (fun n => (n.var, n.factor)) = a.nodes.map (fun n => (n.var, n.factor)) := by
      obtain ⟨_, _, rfl⟩ := goSetI_inv h4
      exact List.map_set_congr (goGetI_inv h1).2.2 _ rfl
    have hvs : vs.map NVar.still = a.network.variables.map NVar.still := by
      obtain ⟨_, _, rfl⟩ := goSetI_inv h5
      exact List.map_set_congr (goGetI_inv h3).2.2 _ rfl
    have hl : App.Live N { a with
        nodes := ns, network := { a.network with «variables» := vs }, canvas := g
        colors := bif d.2.2 then createColors g else a.colors } :=
      hs.live.relocate hns hvs g _
    have hb : App.Sound N { a with
        nodes := ns, network := { a.network with «variables» := vs }, canvas := g
        colors := bif d.2.2 then createColors g else a.colors } := by
      have hlen : ns.length = a.nodes.length := by simpa using congrArg List.length hns
      exact hs.congr hl hpl hns rfl (by dsimp only; rw [hlen]; exact hs.node) hs.state
    exact hb.render_ok hN hnn hfm hp false
  | leftClick x y =>
    rw [App.step, App.leftClick]
    cases hf : a.nodes.zipIdx.find? (fun p => p.1.bounds.contains x y) with
    | none => exact ⟨a, rfl, hp⟩
    | some q =>
      obtain ⟨n, i⟩ := q
      obtain ⟨f1, f2⟩ := find_lt hf
      dsimp only
      cases ho : n.selectedOutcome x y with
      | none =>
        rw [show App.clickNode sch { a with selectedNode := (i : Int) } none = .ok { a with selectedNode := (i : Int) } from rfl,
          ok_bind]
        exact hrender (i := (i : Int)) (s := a.selectedState) (by simp only [nextSelection, hf, ho])
      | some o =>
        have hcc := hc n i o hf ho
        obtain ⟨b, h1, h2, h3⟩ := App.Sound.choose_ok hN sch (a := { a with selectedNode := (i : Int), selectedState := (o : Int) })
          (hs.select ⟨by simp, by simpa using f2⟩ (by simp)) hp hcc
        rw [show App.clickNode sch { a with selectedNode := (i : Int) } (some o) =
          App.inputEnter sch { a with selectedNode := (i : Int), selectedState := (o : Int) } from rfl, h1, ok_bind]
        exact h2.render_ok hN hnn hfm h3 true
  | rightClick x y =>
    rw [App.step, App.rightClick]
    cases hf : a.nodes.zipIdx.find? (fun p => p.1.bounds.contains x y) with
    | none => exact ⟨a, rfl, hp⟩
    | some q =>
      obtain ⟨n, i⟩ := q
      obtain ⟨f1, f2⟩ := find_lt hf
      dsimp only
      have hb : App.Sound N { a with selectedNode := (i : Int) } :=
        hs.select (s := a.selectedState) ⟨by simp, by simpa using f2⟩ hs.state
      obtain ⟨b, h1, h2⟩ := hb.render_ok hN hnn hfm hp true
      have hS := App.render_same h1
      have hpl := hb.placed.render h1
      have hbs : b.Sound N := by
        have hn : b.nodes.map (fun n => (n.var, n.factor)) = a.nodes.map (fun n => (n.var, n.factor)) := by
          have := congrArg (List.map (fun p : NVar × Option (NFactor α) × Bounds × Int => (p.1, p.2.1))) hS.nodes
          rw [List.map_map, List.map_map] at this
          exact this
        refine hb.congr (hb.live.same hS) hpl hn hS.byName ?_ (by rw [hS.selectedState]; exact hs.state)
        rw [hS.length, hS.selectedNode]
        exact hb.node
      rw [h1, ok_bind, hbs.showTable_ok hN]
      exact ⟨b, rfl, h2⟩

/-- Careful sessions do not crash the app. -/
theorem App.Sound.run_ok {N : Net α} (hN : N.AppNet) (hnn : N.Nonneg) {fm : Fmt α}
    (hfm : ∀ x, 0 ≤ x → x ≤ 1 → fm.Bar (some x)) (sch : Nat → Nat → NSched α) : ∀ (es : List Event) (k : Nat) (a : App α),
    a.Sound N → Possible N a → App.CarefulRun fm sch N k es a → ∃ a', App.run fm sch k es a = .ok a' ∧ a'.Sound N ∧ Possible N a' := by
  intro es
  induction es with
  | nil => intro k a hs hp _; exact ⟨a, rfl, hs, hp⟩
  | cons e es ih =>
    intro k a hs hp hc
    obtain ⟨b, h1, h2⟩ := hs.step_ok hN hnn hfm (sch k) hp hc.1
    obtain ⟨a', h3, h4⟩ := ih (k + 1) b (hs.step hN h1) h2 (hc.2 b h1)
    exact ⟨a', by rw [App.run, h1, ok_bind]; exact h3, h4⟩

/-! ## The start -/

/-- The app starts. -/
theorem startApp_ok {n : Net α} (hr : AppReady n) (hne : n.variables ≠ [])
    (hcol : ∀ v ∈ n.variables, v.color = "" ∨ ColorName v.color)
    (hpos : ∀ v ∈ n.variables, 0 ≤ v.position.1 ∧ 0 ≤ v.position.2)
    (htab : ∀ f ∈ n.chanceTables, ∀ x ∈ f.tab, 0 ≤ x) {fm : Fmt α} (hfm : ∀ x, 0 ≤ x → x ≤ 1 → fm.Bar (some x))
    (sch0 : NSched α) (sch : Nat → NSched α) {evidence : List (String × String)} (hev : n.EvidenceOK evidence)
    {N : Net α} (hN : N = (n.solvePolicies sch0 true).2)
    (possible : N.mass (N.active evidence false) (N.Agrees evidence) ≠ 0) :
    N.AppNet ∧ N.Nonneg ∧ ∃ a, startApp fm sch0 sch n evidence = .ok a ∧ a.Sound N ∧ Possible N a := by
  obtain ⟨tables, M, k1, k2, k3, kt, k4, k5, k6, vs, names, ps, k7⟩ := hr.solve sch0
  rw [k1] at hN
  dsimp only at hN
  subst hN
  have hNv : N.variables = n.variables := by rw [k7]
  have hnn : N.Nonneg := nonneg_solved k6 (by rw [k7]; exact htab)
  refine ⟨k4, hnn, ?_⟩
  suffices ∃ a, startApp fm sch0 sch n evidence = .ok a by
    obtain ⟨a, ha⟩ := this
    obtain ⟨st, _, hpl⟩ := startApp_inv ha
    have hl := startApp_live hr hev ha
    rw [k1] at hl
    have hfac := startApp_factor hr ha
    refine ⟨a, ha, ⟨hl, hpl, by rw [hNv]; exact st.vars, hfac, ?_, ?_, by rw [st.selectedState]⟩, ?_⟩
    · rw [st.byName]
      exact appNodes_indexed hr.valid st.vars
    · rw [st.selectedNode]
      refine ⟨le_refl _, ?_⟩
      have : a.nodes.length = n.variables.length := by rw [← st.vars, List.length_map]
      rw [this]
      have := List.length_pos_iff.2 hne
      omega
    · unfold Possible
      rw [st.evidence, st.ignorePolicies]
      exact possible
  obtain ⟨nodes, h1⟩ : ∃ nodes, appNodes n = .ok nodes := by
    unfold appNodes
    exact mapM_exists (fun v hv => (newNode_ok v _ (hcol v hv)).imp (fun m h => h.1))
  obtain ⟨n1, n2, n3, n4⟩ := appNodes_spec h1
  have hidx := appNodes_indexed hr.valid n1
  have hk : ∀ p ∈ tables, ∃ m ∈ nodes, m.var.name = p.1 := by
    intro p hp
    obtain ⟨v, hv, e, _⟩ := isKind_mem.1 ((k3 p.1).1 (List.mem_map_of_mem hp))
    rw [← n1] at hv
    obtain ⟨m, hm, rfl⟩ := List.mem_map.1 hv
    exact ⟨m, hm, e⟩
  obtain ⟨ns, h3⟩ : ∃ ns, usePolicies (nodes.zipIdx.foldl (fun m p => mapSet m p.1.var.name p.2) []) tables nodes = .ok ns :=
    ⟨_, usePolicies_map _ nodes hidx k2 hk⟩
  obtain ⟨hnodes, hvars, hfac⟩ := started_nodes hr h1 (by rw [k1]) h3
  rw [k1] at hnodes
  dsimp only at hnodes
  obtain ⟨m1, m2⟩ := updateMarginals_live sch k4 (a := ⟨ns, nodes.zipIdx.foldl (fun m p => mapSet m p.1.var.name p.2) [], N,
    evidence, [], 0, 0, false, [], [], ""⟩) (.refl N) k5 hnodes (by rw [k7]; exact ⟨hev.keys, hev.known⟩)
  have m2 := m2 possible
  obtain ⟨u1, u2, u3, u4, u5, u6, u7⟩ := updateMarginals_same (sch := sch) (⟨ns, nodes.zipIdx.foldl
    (fun m p => mapSet m p.1.var.name p.2) [], N, evidence, [], 0, 0, false, [], [], ""⟩ : App α)
  have u8 := updateMarginals_vars sch (⟨ns, nodes.zipIdx.foldl
    (fun m p => mapSet m p.1.var.name p.2) [], N, evidence, [], 0, 0, false, [], [], ""⟩ : App α)
  unfold startApp
  rw [h1, ok_bind, k1]
  dsimp only
  rw [ok_bind, h3, ok_bind]
  rcases hm : App.updateMarginals sch (⟨ns, nodes.zipIdx.foldl (fun m p => mapSet m p.1.var.name p.2) [], N, evidence, [],
    0, 0, false, [], [], ""⟩ : App α) with ⟨r, b⟩
  rw [hm] at m1 m2 u1 u2 u3 u4 u5 u6 u7 u8
  dsimp only at m1 m2 u1 u2 u3 u4 u5 u6 u7 u8
  subst m2
  simp only [hm]
  have hsame := usePolicies_same h3
  have s2 : ns.map TNode.bounds = nodes.map TNode.bounds := by
    have := congrArg (List.map (fun p => p.2.1)) hsame
    rw [List.map_map, List.map_map] at this
    exact this
  have s3 : ∀ m ∈ ns, m.Fits := by
    intro m hm
    have : (m.var, m.bounds, m.runes, m.barsX) ∈ ns.map (fun n => (n.var, n.bounds, n.runes, n.barsX)) :=
      List.mem_map_of_mem hm
    rw [hsame] at this
    obtain ⟨x, hx, e⟩ := List.mem_map.1 this
    simp only [Prod.mk.injEq] at e
    obtain ⟨f1, f2, f3, f4⟩ := n3 x hx
    obtain ⟨e1, e2, e3, e4⟩ := e
    exact ⟨by rw [← e1, ← e2]; exact f1, by rw [← e1, ← e2]; exact f2, by rw [← e1, ← e4]; exact f3,
      by rw [← e2, ← e3]; exact f4⟩
  have hbnd : ∀ m ∈ b.nodes, ∃ v ∈ n.variables, m.bounds = nodeBounds v := by
    intro m hm'
    have : m.bounds ∈ b.nodes.map TNode.bounds := List.mem_map_of_mem hm'
    rw [u1, s2, n2] at this
    obtain ⟨v, hv, e⟩ := List.mem_map.1 this
    exact ⟨v, hv, e.symm⟩
  obtain ⟨g, hh, w, c1, c2, c3, c4⟩ := createCanvas_inside (nodes := b.nodes) (by
    intro m hm'
    obtain ⟨v, hv, e⟩ := hbnd m hm'
    have hw := nodeBounds_w v
    have hh := nodeBounds_h v
    obtain ⟨q1, q2⟩ := hpos v hv
    rw [e]
    refine ⟨q1, q2, ?_, ?_⟩
    · split_ifs at hw <;> omega
    · split_ifs at hh <;> omega)
  rw [c1, ok_bind]
  have hfac' : ∀ m ∈ b.nodes, ∃ f, m.factor = some f := by
    rw [u1]; intro m hm; obtain ⟨f, hf, _⟩ := hfac m hm; exact ⟨f, hf⟩
  have hli : App.Live N { b with canvas := g, colors := createColors g } :=
    ⟨m1.moved, m1.names, m1.nodes, m1.evidence, fun hp => ⟨(m1.shows_ hp).state, (m1.shows_ hp).utility, (m1.shows_ hp).total,
      (m1.shows_ hp).keys⟩⟩
  have hdraw := App.Sound.drawable k4 hnn hfm hli (by dsimp only; rw [u1, hvars, hNv]) (by
    unfold Possible
    dsimp only
    rw [u3, u6]
    exact possible)
  have hbf : ∀ m ∈ b.nodes, m.Fits := by rw [u1]; exact s3
  have hbi : ∀ name, b.nodes ≠ [] → intGet b.byName name < b.nodes.length := by
    intro name hne
    have hlen : b.nodes.length = nodes.length := by
      rw [u1]
      have := congrArg List.length hsame
      rwa [List.length_map, List.length_map] at this
    rw [u2, hlen]
    unfold intGet
    have hlt := byName_lt nodes 0 [] nodes.length (by omega) (by intro name i h; cases h) name
    cases hq : mapGet (nodes.zipIdx.foldl (fun m p => mapSet m p.1.var.name p.2) []) name with
    | none =>
      rw [Option.getD_none, ← hlen]
      exact List.length_pos_iff.2 hne
    | some i => exact hlt i hq
  have hall : ∀ m ∈ b.nodes, m.Fits ∧ m.bounds.Inside hh w ∧
      m.Drawable fm ((mapGet (App.marginals { b with canvas := g, colors := createColors g }) m.var.name).getD []) :=
    fun m hm => ⟨hbf m hm, c4 m hm, hdraw m hm⟩
  obtain ⟨g1, e1, d1⟩ := renderEdges_ok (a := { b with canvas := g, colors := createColors g }) hbi hfac' c4 (clearCanvas_dims c2)
  obtain ⟨r', e2⟩ := renderNodes_ok (fm := fm) (a := { b with canvas := g, colors := createColors g }) b.nodes 0 g1 hall d1
  unfold App.render
  dsimp only
  rw [if_neg (by decide), e1, ok_bind, e2]
  exact ⟨_, rfl⟩

end

end Bbn
