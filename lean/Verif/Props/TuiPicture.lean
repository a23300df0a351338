import Verif.Lemmas.TuiArrow
import Verif.Lemmas.TuiPicture
import Verif.Props.TuiRun

/-!
# Properties of the drawing: C90, C91, C92
-/

set_option autoImplicit false

namespace Bbn

variable {α : Type}

/-! ## C90: a node's box -/

/-- Draw a node several times, one look after the other. -/
def TNode.renderAll (fm : Fmt α) (n : TNode α) (ls : List (Look α)) : Except Fault (TNode α) :=
  ls.foldlM (fun n l => n.render fm l.values l.selected l.state l.evidence) n

theorem renderAll_pic {fm : Fmt α} (v : NVar) (k : Nat) : ∀ (ls : List (Look α)) (l : Look α) (n : TNode α) (F : Int → Int → Char),
    n.var = v → n.Sized → Pictures n.runes (boxHeight v) (boxWidth v) F → Prepared (α := α) v k F →
    (∀ m ∈ ls ++ [l], m.values.length = k ∧ m.Fits fm v) →
    ∃ n', n.renderAll fm (ls ++ [l]) = .ok n' ∧ Pictures n'.runes (boxHeight v) (boxWidth v) (boxRune fm v l) := by
  intro ls
  induction ls with
  | nil =>
    rintro l n F rfl hn hp hF hl
    obtain ⟨h1, h2⟩ := hl l (by simp)
    obtain ⟨n', e, _, _, _, _, p⟩ := pic_render hn hp (h1 ▸ hF) h2
    refine ⟨n', ?_, p⟩
    unfold TNode.renderAll
    rw [List.nil_append, List.foldlM_cons, e, ok_bind]
    rfl
  | cons m ls ih =>
    rintro l n F rfl hn hp hF hl
    obtain ⟨h1, h2⟩ := hl m (by simp)
    obtain ⟨n', e, e1, e2, e3, _, p⟩ := pic_render hn hp (h1 ▸ hF) h2
    have hn' : n'.Sized := ⟨by rw [e1, e2]; exact hn.w, by rw [e1, e2]; exact hn.h, by rw [e1, e3]; exact hn.barsX⟩
    obtain ⟨n'', e', p'⟩ := ih l n' (boxRune fm n.var m) e1 hn' p (h1 ▸ prepared_again fm n.var m)
      (fun q hq => hl q (List.mem_cons_of_mem _ hq))
    refine ⟨n'', ?_, p'⟩
    unfold TNode.renderAll at e' ⊢
    rw [List.cons_append, List.foldlM_cons, e, ok_bind]
    exact e'

/-- **C90.** However often and in whatever way a node was drawn before, drawing it shows exactly its frame, its title, and for
each outcome its name, its bar, its number and its marks, and nothing is left of what was drawn before. -/
theorem C90_box {fm : Fmt α} {v : NVar} {f : Option (NFactor α)} {n : TNode α} (h : newNode v f = .ok n)
    (before : List (Look α)) (l : Look α)
    (hl : ∀ m ∈ before ++ [l], m.values.length = l.values.length ∧ m.Fits fm v) :
    ∃ n', n.renderAll fm (before ++ [l]) = .ok n' ∧ Pictures n'.runes (boxHeight v) (boxWidth v) (boxRune fm v l) := by
  obtain ⟨h1, h2, F, h3, h4⟩ := pic_newNode h l.values.length
  exact renderAll_pic v l.values.length before l n F h1 h2 h3 h4 hl

/-- Probabilities always fit. -/
theorem C90_probabilities [Field α] [LinearOrder α] [IsStrictOrderedRing α] [FloorRing α] {fm : Fmt α} (hb : fm.ExactBars)
    (ht : fm.ExactTexts) {v : NVar} (hv : v.nodeType ≠ .utility) {l : Look α} (hlen : l.values.length = v.outcomes.length)
    (hp : ∀ a, some a ∈ l.values → 0 ≤ a ∧ a ≤ 1) : l.Fits fm v := by
  unfold Look.Fits
  rw [if_neg hv]
  refine ⟨hlen, fun a ha => ?_⟩
  obtain ⟨h0, h1⟩ := hp a ha
  obtain ⟨b1, b2, b3⟩ := hb.bar h0 h1 a rfl
  exact ⟨ht.percent_length h0 h1, b1, b2, b3⟩

/-- Utilities fit unless they are very large. -/
theorem C90_utilities [Field α] [LinearOrder α] [IsStrictOrderedRing α] [FloorRing α] {fm : Fmt α}
    (ht : fm.ExactTexts) {v : NVar} (hv : v.nodeType = .utility) {l : Look α} (hlen : l.values.length ≤ v.outcomes.length + 1)
    (hp : ∀ a, some a ∈ l.values → |a| * 1000 < 9999999999) : l.Fits fm v := by
  unfold Look.Fits
  rw [if_pos hv]
  exact ⟨hlen, fun a ha => ht.utility_length (hp a ha)⟩

/-! ## C91: the canvas -/

section

variable [Field α] [LinearOrder α] [IsStrictOrderedRing α]

/-- The utilities shown are of less than ten million. -/
def App.Moderate (a : App α) : Prop :=
  ∀ m ∈ a.nodes, m.var.nodeType = .utility → ∀ x, some x ∈ (mapGet a.marginals m.var.name).getD [] → |x| * 1000 < 9999999999

/-- This holds at all times of a session. -/
def App.ModerateRun (fm : Fmt α) (sch : Nat → Nat → NSched α) : Nat → List Event → App α → Prop
  | _, [], a => a.Moderate
  | k, e :: es, a => a.Moderate ∧ ∀ a', a.step fm (sch k) e = .ok a' → App.ModerateRun fm sch (k + 1) es a'

theorem App.Moderate.short [FloorRing α] {fm : Fmt α} (ht : fm.ExactTexts) {a : App α} (h : a.Moderate) : a.Short fm :=
  fun m hm hu x hx => ht.utility_length (h m hm hu x hx)

theorem moderateRun_short [FloorRing α] {fm : Fmt α} (ht : fm.ExactTexts) {sch : Nat → Nat → NSched α} :
    ∀ (es : List Event) (k : Nat) (a : App α), App.ModerateRun fm sch k es a → App.ShortRun fm sch k es a := by
  intro es
  induction es with
  | nil => intro k a h; exact h.short ht
  | cons e es ih => intro k a h; exact ⟨h.1.short ht, fun a' h' => ih (k + 1) a' (h.2 a' h')⟩

omit [IsStrictOrderedRing α] in
/-- Without utility nodes. -/
theorem moderateRun_none {fm : Fmt α} {sch : Nat → Nat → NSched α} : ∀ (es : List Event) (k : Nat) (a : App α),
    (∀ v ∈ a.nodes.map TNode.var, v.nodeType ≠ .utility) → App.ModerateRun fm sch k es a := by
  intro es
  induction es with
  | nil => intro k a h m hm hu; exact absurd hu (h m.var (List.mem_map_of_mem hm))
  | cons e es ih =>
    intro k a h
    refine ⟨fun m hm hu => absurd hu (h m.var (List.mem_map_of_mem hm)), fun a' h' => ih (k + 1) a' ?_⟩
    rw [step_names h']
    exact h

/-- What holds of the canvas at any time of a session. -/
theorem canvas_session [FloorRing α] {n : Net α} (hr : AppReady n)
    (hne : n.variables ≠ []) (hcol : ∀ v ∈ n.variables, v.color = "" ∨ ColorName v.color)
    (hpos : ∀ v ∈ n.variables, 0 ≤ v.position.1 ∧ 0 ≤ v.position.2)
    (htab : ∀ f ∈ n.chanceTables, ∀ x ∈ f.tab, 0 ≤ x) {fm : Fmt α} (hfm : fm.ExactBars) (htx : fm.ExactTexts)
    (sch0 : NSched α) (sch1 : Nat → NSched α) (sch : Nat → Nat → NSched α) {evidence : List (String × String)}
    (hev : n.EvidenceOK evidence) {N : Net α} (hN : N = (n.solvePolicies sch0 true).2)
    (possible : N.mass (N.active evidence false) (N.Agrees evidence) ≠ 0) :
    ∃ a0, startApp fm sch0 sch1 n evidence = .ok a0 ∧
      ∀ es, App.CarefulRun fm sch N 0 es a0 → App.ModerateRun fm sch 0 es a0 →
        ∃ a, App.run fm sch 0 es a0 = .ok a ∧ a.Sound N ∧ a.Pictured fm N := by
  obtain ⟨hA, hnn, a0, h1, h2, h3⟩ := startApp_ok hr hne hcol hpos htab (fun x h0 h1 => hfm.bar h0 h1) sch0 sch1 hev hN possible
  refine ⟨a0, h1, fun es hc hm => ?_⟩
  have hs := moderateRun_short htx es 0 a0 hm
  have hs0 : a0.Short fm := by
    cases es with
    | nil => exact hs
    | cons e es => exact hs.1
  have hb : ∀ x, 0 ≤ x → x ≤ 1 → fm.Bar (some x) := fun x h0 h1 => hfm.bar h0 h1
  have ht : ∀ x, 0 ≤ x → x ≤ 1 → (fm.percent x).length = 7 := fun x h0 h1 => htx.percent_length h0 h1
  have hp := startApp_pictured hr hb ht h1 hA hnn h2 h3 hs0
  obtain ⟨a, r1, r2, _, r4⟩ := App.Pictured.run hA hnn hb ht sch es 0 a0 h2 h3 hp hc hs
  exact ⟨a, r1, r2, r4⟩

/-- **C91.** At any time of a session the canvas shows, at each place, the box that is there, with the numbers, the selection and
the evidence of this time, otherwise an edge between a node and its parent, otherwise a blank. -/
theorem C91_canvas [FloorRing α] {n : Net α} (hr : AppReady n)
    (hne : n.variables ≠ []) (hcol : ∀ v ∈ n.variables, v.color = "" ∨ ColorName v.color)
    (hpos : ∀ v ∈ n.variables, 0 ≤ v.position.1 ∧ 0 ≤ v.position.2)
    (htab : ∀ f ∈ n.chanceTables, ∀ x ∈ f.tab, 0 ≤ x) {fm : Fmt α} (hfm : fm.ExactBars) (htx : fm.ExactTexts)
    (sch0 : NSched α) (sch1 : Nat → NSched α) (sch : Nat → Nat → NSched α) {evidence : List (String × String)}
    (hev : n.EvidenceOK evidence) {N : Net α} (hN : N = (n.solvePolicies sch0 true).2)
    (possible : N.mass (N.active evidence false) (N.Agrees evidence) ≠ 0) :
    ∃ a0, startApp fm sch0 sch1 n evidence = .ok a0 ∧
      ∀ es, App.CarefulRun fm sch N 0 es a0 → App.ModerateRun fm sch 0 es a0 →
        ∃ a h w, App.run fm sch 0 es a0 = .ok a ∧ Pictures a.canvas h w (a.canvasRune fm) ∧ ∀ m ∈ a.nodes, m.bounds.Inside h w := by
  obtain ⟨a0, h1, h2⟩ := canvas_session hr hne hcol hpos htab hfm htx sch0 sch1 sch hev hN possible
  refine ⟨a0, h1, fun es hc hm => ?_⟩
  obtain ⟨a, r1, r2, r4⟩ := h2 es hc hm
  obtain ⟨h, w, d, _, i⟩ := r2.placed.canvas
  exact ⟨a, h, w, r1, r4.canvas h w d, i⟩

end

/-! ## C92: the edges -/

/-- **C92.** Between boxes with a gap between them the edge is one arrow, outside of both boxes, that starts at the parent and
points to the child. Missing for the full claim: boxes that touch or overlap. -/
theorem C92_arrow_partial {b c : Bounds} (bw : 1 ≤ b.w) (bh : 1 ≤ b.h) (cw : 1 ≤ c.w) (ch : 1 ≤ c.h)
    (gap : FreeRow b c ∨ ShareRow b c ∧ FreeColumn b c) : ∃ n f, IsArrow b c (edgeRune b c) n f := by
  by_cases hr : ShareRow b c
  · have hf : FreeColumn b c := by
      rcases gap with h | h
      · unfold FreeRow at h
        unfold ShareRow at hr
        omega
      · exact h.2
    have hc : ¬ ShareColumn b c := by
      unfold FreeColumn at hf
      unfold ShareColumn
      omega
    have e : edgeRune b c = straightAcross b c := by
      funext y x
      unfold edgeRune
      rw [if_neg hc, if_pos hr]
    rw [e]
    exact across_arrow hr hf bh ch bw cw
  · have hf : FreeRow b c := gap.resolve_right (fun h => hr h.1)
    by_cases hc : ShareColumn b c
    · have e : edgeRune b c = straightDown b c := by
        funext y x
        unfold edgeRune
        rw [if_pos hc, if_neg hr]
      rw [e]
      exact down_arrow hc hf bh ch bw cw
    · have e : edgeRune b c = cornerEdge b c := by
        funext y x
        unfold edgeRune
        rw [if_neg hc, if_neg hr]
      rw [e]
      exact corner_is_arrow hc hf bh ch bw cw

/-- A place of an edge that no box covers and no other edge crosses shows the edge. -/
theorem C92_shown_partial {fm : Fmt α} {a : App α} {e : Bounds × Bounds} (he : e ∈ a.edges) {y x : Int} {r : Char}
    (hr : edgeRune e.1 e.2 y x = some r) (hbox : ∀ m ∈ a.nodes, ¬ m.bounds.Covers (y, x))
    (hedge : ∀ e' ∈ a.edges, edgeRune e'.1 e'.2 y x ≠ none → e' = e) : a.canvasRune fm y x = r := by
  unfold App.canvasRune
  have h1 : a.nodes.zipIdx.reverse.find? (fun p => p.1.bounds.contains x y) = none := by
    rw [List.find?_eq_none]
    rintro ⟨m, i⟩ hm hc
    have hm' : m ∈ a.nodes := by
      have := List.mem_zipIdx' (List.mem_reverse.1 hm)
      rw [this.2]
      exact List.getElem_mem _
    refine hbox m hm' ?_
    rw [covers_iff]
    unfold Bounds.contains at hc
    simp only [Bool.and_eq_true, decide_eq_true_eq] at hc
    omega
  rw [h1]
  dsimp only
  unfold edgesRune
  cases hf : a.edges.reverse.findSome? (fun e => edgeRune e.1 e.2 y x) with
  | none =>
    rw [List.findSome?_eq_none_iff] at hf
    rw [hf e (List.mem_reverse.2 he)] at hr
    cases hr
  | some s =>
    obtain ⟨e', m1, m2⟩ := List.exists_of_findSome?_eq_some hf
    have := hedge e' (List.mem_reverse.1 m1) (by rw [m2]; simp)
    rw [this, hr] at m2
    cases m2
    rfl

/-- **C92 fails** for boxes that touch: all of the edge is covered by the parent's box, which is drawn over it. -/
theorem C92_refuted {b c : Bounds} (bw : 1 ≤ b.w) (bh : 1 ≤ b.h) (cw : 1 ≤ c.w) (ch : 1 ≤ c.h)
    (touch : ShareColumn b c ∧ (b.y + b.h = c.y ∨ c.y + c.h = b.y) ∨ ShareRow b c ∧ (b.x + b.w = c.x ∨ c.x + c.w = b.x)) :
    ∀ y x, edgeRune b c y x ≠ none → b.Covers (y, x) := by
  intro y x h
  rw [covers_iff]
  unfold edgeRune at h
  rcases touch with ⟨s, t⟩ | ⟨s, t⟩
  · have hr : ¬ ShareRow b c := by unfold ShareRow; omega
    rw [if_pos s, if_neg hr] at h
    unfold ShareColumn at s
    obtain ⟨m1, m2⟩ := mid_between (a := max b.x c.x) (b := min (b.x + b.w) (c.x + c.w)) (by omega)
    unfold straightDown at h
    generalize (max b.x c.x + min (b.x + b.w) (c.x + c.w)) / 2 = m at m1 m2 h
    rcases ite_ne_none h with ⟨h1, h⟩ | ⟨_, h⟩
    · rcases ite_ne_none h with ⟨h2, h⟩ | ⟨h2, h⟩ <;> rcases ite_ne_none h with ⟨h3, h⟩ | ⟨h3, h⟩
      · omega
      · rcases ite_ne_none h with ⟨h4, h⟩ | ⟨h4, h⟩
        · omega
        · exact absurd rfl h
      · omega
      · rcases ite_ne_none h with ⟨h4, h⟩ | ⟨h4, h⟩
        · omega
        · exact absurd rfl h
    · exact absurd rfl h
  · have hr : ¬ ShareColumn b c := by unfold ShareColumn; omega
    rw [if_neg hr, if_pos s] at h
    unfold ShareRow at s
    obtain ⟨m1, m2⟩ := mid_between (a := max b.y c.y) (b := min (b.y + b.h) (c.y + c.h)) (by omega)
    unfold straightAcross at h
    generalize (max b.y c.y + min (b.y + b.h) (c.y + c.h)) / 2 = m at m1 m2 h
    rcases ite_ne_none h with ⟨h1, h⟩ | ⟨_, h⟩
    · rcases ite_ne_none h with ⟨h2, h⟩ | ⟨h2, h⟩ <;> rcases ite_ne_none h with ⟨h3, h⟩ | ⟨h3, h⟩
      · omega
      · rcases ite_ne_none h with ⟨h4, h⟩ | ⟨h4, h⟩
        · omega
        · exact absurd rfl h
      · omega
      · rcases ite_ne_none h with ⟨h4, h⟩ | ⟨h4, h⟩
        · omega
        · exact absurd rfl h
    · exact absurd rfl h

/-! ## Examples -/

namespace Ex

/-- A node, drawn first as the selected one with evidence for its last outcome, then without. -/
def rainVar : NVar := ⟨"Rain", .chance, ["yes", "no"], (2, 3), "", some 0⟩

def rainLooks : List (Look ℚ) := [⟨[some 0, some 1], true, 1, true⟩, ⟨[some (1/4), none], false, 1, false⟩]


/-- What is drawn for it. -/
theorem rain_drawn : ∃ n : TNode ℚ, newNode rainVar none = .ok n ∧ (n.renderAll exactFm rainLooks).map TNode.runes = .ok
    ["┌────────────────────────┐".toList,
     "│ Rain                   │".toList,
     "│ yes ██▌░░░░░░░  25.000 │".toList,
     "│ no  ░░░░░░░░░░     ??? │".toList,
     "└────────────────────────┘".toList] := by
  refine ⟨_, rfl, ?_⟩
  decide +kernel

/-- It meets the conditions of C90. -/
example : ∀ m ∈ [(⟨[some 0, some 1], true, 1, true⟩ : Look ℚ)] ++ [⟨[some (1/4), none], false, 1, false⟩],
    m.values.length = 2 ∧ m.Fits exactFm rainVar := by
  intro m hm
  simp only [List.cons_append, List.nil_append, List.mem_cons, List.not_mem_nil, or_false] at hm
  rcases hm with rfl | rfl
  · refine ⟨rfl, C90_probabilities exactFm_bars exactFm_texts (by decide) rfl ?_⟩
    intro a ha
    simp only [List.mem_cons, Option.some.injEq, List.not_mem_nil, or_false] at ha
    rcases ha with rfl | rfl <;> norm_num
  · refine ⟨rfl, C90_probabilities exactFm_bars exactFm_texts (by decide) rfl ?_⟩
    intro a ha
    simp only [List.mem_cons, Option.some.injEq, List.not_mem_nil, or_false, reduceCtorEq] at ha
    subst ha
    norm_num

/-- A utility node. -/
def costVar : NVar := ⟨"Cost", .utility, ["cost"], (0, 0), "", some 0⟩

end Ex

/-- The condition on the size of utilities is needed: ten thousand million is written over the frame, and one digit of it
stays when the number gets smaller (the frame is drawn again, but not the place before it). -/
theorem C90_wide : ∃ n : TNode ℚ, newNode Ex.costVar none = .ok n ∧
    (n.renderAll Ex.exactFm [⟨[some 1234567890], false, 0, false⟩]).map (fun m => m.runes[2]?) =
      .ok (some "│ cost  1234567890.000".toList) ∧
    (n.renderAll Ex.exactFm [⟨[some 1234567890], false, 0, false⟩, ⟨[some 1], false, 0, false⟩]).map (fun m => m.runes[2]?) =
      .ok (some "│ cost         1.0000│".toList) := by
  refine ⟨_, rfl, ?_, ?_⟩ <;> decide +kernel

namespace Ex

/-- The conditions of C91 hold for a session with `pair`. -/
example (sch0 : NSched ℚ) (sch1 : Nat → NSched ℚ) (sch : Nat → Nat → NSched ℚ) : ∃ a0 a h w,
    startApp exactFm sch0 sch1 pair [] = .ok a0 ∧ App.run exactFm sch 0 [.tab, .space, .showTable] a0 = .ok a ∧
      Pictures a.canvas h w (a.canvasRune exactFm) ∧ ∀ m ∈ a.nodes, m.bounds.Inside h w := by
  obtain ⟨vs, names, hN⟩ := solved_chance pair_ready (by decide) sch0
  obtain ⟨a0, h1, h2⟩ := C91_canvas pair_ready (by decide) (by decide) (by decide) (by decide +kernel) exactFm_bars exactFm_texts
    sch0 sch1 sch (evidence := []) ⟨by simp, by simp⟩ hN.symm (by
      have : pair.mass [] (pair.Agrees []) ≠ 0 := by decide +kernel
      exact this)
  obtain ⟨st, _, _⟩ := startApp_inv h1
  obtain ⟨a, h, w, r1, r2, r3⟩ := h2 [.tab, .space, .showTable] ⟨trivial, fun _ _ => ⟨trivial, fun _ _ => ⟨trivial, fun _ _ => trivial⟩⟩⟩
    (moderateRun_none _ _ _ (by
      rw [st.vars]
      decide))
  exact ⟨a0, a, h, w, h1, r1, r2, r3⟩

/-- An arrow with a corner: three places to the right, the corner, one place down, the head. -/
example : ∃ n f, IsArrow ⟨0, 0, 4, 3⟩ ⟨7, 5, 4, 3⟩ (edgeRune ⟨0, 0, 4, 3⟩ ⟨7, 5, 4, 3⟩) n f :=
  C92_arrow_partial (by decide) (by decide) (by decide) (by decide) (.inl (.inl (by decide)))

example : ((List.range 8).map (fun y => String.ofList ((List.range 8).map (fun x =>
    (edgeRune ⟨0, 0, 4, 3⟩ ⟨7, 5, 4, 3⟩ (y : Int) (x : Int)).getD ' ')))) =
    ["        ", "        ", "    ───┐", "       │", "       v", "        ", "        ", "        "] := by decide +kernel

/-- Two boxes, one right below the other: no part of the edge is outside of the upper one. -/
example : ∀ y x, edgeRune ⟨0, 0, 4, 3⟩ ⟨0, 3, 4, 3⟩ y x ≠ none → (⟨0, 0, 4, 3⟩ : Bounds).Covers (y, x) :=
  C92_refuted (by decide) (by decide) (by decide) (by decide) (.inl ⟨by decide, .inl (by decide)⟩)

end Ex

end Bbn
