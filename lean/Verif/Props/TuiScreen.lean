import Verif.Lemmas.TuiColor
import Verif.Props.TuiPicture

/-!
# Properties of what the graph widget shows: C102, C103
-/

set_option autoImplicit false

namespace Bbn

variable {α : Type}

/-- Lines are given by their characters and the whole. -/
theorem joinLines_inj : ∀ {l m : List (List (Char × Color))}, l.map (fun r => r.map Prod.fst) = m.map (fun r => r.map Prod.fst) →
    joinLines l = joinLines m → l = m := by
  intro l
  induction l with
  | nil => intro m h _; cases m with
    | nil => rfl
    | cons _ _ => cases h
  | cons r l ih =>
    intro m h hj
    cases m with
    | nil => cases h
    | cons s m =>
      rw [List.map_cons, List.map_cons] at h
      injection h with h1 h2
      have hlen : r.length = s.length := by
        have := congrArg List.length h1
        simpa using this
      unfold joinLines at hj ih
      cases l with
      | nil =>
        cases m with
        | nil => simpa [List.intercalate] using hj
        | cons _ _ => cases h2
      | cons r' l =>
        cases m with
        | nil => cases h2
        | cons s' m =>
          have e : ∀ (a b : List (Char × Color)) l, List.intercalate [('\n', Color.white)] (a :: b :: l) =
              a ++ ('\n', .white) :: List.intercalate [('\n', .white)] (b :: l) := by
            intro a b l; simp [List.intercalate]
          rw [e, e] at hj
          obtain ⟨k1, k2⟩ := List.append_inj hj hlen
          injection k2 with _ k3
          rw [k1, ih h2 k3]

section

variable [Zero α] [One α] [Add α] [Mul α] [Div α] [DecidableEq α] [NatCast α] [LE α] [DecidableLE α] [LT α] [DecidableLT α]

/-- The lines of the canvas with their colours, as the program keeps them. -/
def App.lines (a : App α) : List (List (Char × Color)) := List.zipWith List.zip a.canvas a.colors

theorem screen_lines {fm : Fmt α} {sch0 : NSched α} {sch1 : Nat → NSched α} {sch : Nat → Nat → NSched α} {n : Net α}
    {evidence : List (String × String)} {a0 a : App α} (h0 : startApp fm sch0 sch1 n evidence = .ok a0) {es : List Event}
    (h : App.run fm sch 0 es a0 = .ok a) : a.Placed ∧ a.Colored ∧ a.lines.map (fun l => l.map Prod.fst) = a.canvas ∧
      (∀ m ∈ a.nodes, m.var.color = "" ∨ ColorName m.var.color) ∧
      ∀ (y x : Nat) line q, a.lines[y]? = some line → line[x]? = some q → a.CellColor y x q.2 := by
  obtain ⟨st, _, hp0⟩ := startApp_inv h0
  obtain ⟨hp, hc⟩ := colored_run es 0 a0 a h hp0 (startApp_colored h0)
  have hcol : ∀ m ∈ a.nodes, m.var.color = "" ∨ ColorName m.var.color := by
    intro m hm
    refine st.colors m.var ?_
    rw [← st.vars, ← run_names h]
    exact List.mem_map_of_mem hm
  obtain ⟨hh, w, hd, _, _⟩ := hp.canvas
  have hpic := hc.colors hh w hd
  have hl : a.canvas.length = a.colors.length := by
    have := hd.1
    have := hpic.rows
    omega
  refine ⟨hp, hc, ?_, hcol, ?_⟩
  · apply List.ext_getElem?
    intro i
    unfold App.lines
    rw [List.getElem?_map, List.getElem?_zipWith]
    cases h1 : a.canvas[i]? with
    | none => rfl
    | some r =>
      have hi : i < a.colors.length := by rw [← hl]; exact (List.getElem?_eq_some_iff.1 h1).1
      obtain ⟨cs, h2⟩ : ∃ cs, a.colors[i]? = some cs := ⟨_, List.getElem?_eq_getElem hi⟩
      rw [h2]
      have e1 := hd.2 r (List.mem_of_getElem? h1)
      have e2 := hpic.columns cs (List.mem_of_getElem? h2)
      simp only [Option.map_some, Option.some.injEq]
      exact List.map_fst_zip (by omega)
  · intro y x line q h1 h2
    unfold App.lines at h1
    rw [List.getElem?_zipWith] at h1
    cases h3 : a.canvas[y]? with
    | none => rw [h3] at h1; cases h1
    | some r =>
      cases h4 : a.colors[y]? with
      | none => rw [h3, h4] at h1; cases h1
      | some cs =>
        rw [h3, h4] at h1
        cases h1
        obtain ⟨r', c'⟩ := q
        have h5 := (List.getElem?_zip_eq_some.1 h2).2
        have := hpic.cell y x cs c' h4 h5
        show a.CellColor y x c'
        unfold App.CellColor
        unfold App.paintAt at this
        cases hf : a.nodes.reverse.find? (fun n => n.bounds.contains (x : Int) (y : Int)) with
        | none => rw [hf] at this; exact this
        | some m =>
          rw [hf] at this
          dsimp only at this ⊢
          rw [this]
          exact paint_hasColor (hcol m (List.mem_reverse.1 (List.mem_of_find?_eq_some hf)))

omit [Zero α] [One α] [Add α] [Mul α] [Div α] [DecidableEq α] [NatCast α] [LE α] [DecidableLE α] [LT α] [DecidableLT α] in
theorem CellColor.unique {a : App α} {y x : Int} {c d : Color} (hc : a.CellColor y x c) (hd : a.CellColor y x d) : c = d := by
  unfold App.CellColor at hc hd
  cases hf : a.nodes.reverse.find? (fun n => n.bounds.contains x y) with
  | none => rw [hf] at hc hd; exact hc.trans hd.symm
  | some m => rw [hf] at hc hd; exact HasColor.unique hc hd

/-- What is shown. -/
theorem screen_shows {fm : Fmt α} {sch0 : NSched α} {sch1 : Nat → NSched α} {sch : Nat → Nat → NSched α} {n : Net α}
    {evidence : List (String × String)} {a0 a : App α} (h0 : startApp fm sch0 sch1 n evidence = .ok a0) {es : List Event}
    (h : App.run fm sch 0 es a0 = .ok a) (hn : ∀ row ∈ a.canvas, NoTag row) :
    a.Shows (readLines .black a.lines) ∧ (readLines .black a.lines).map (fun l => l.map Prod.fst) = a.canvas := by
  obtain ⟨_, hc, hch, _⟩ := screen_lines h0 h
  constructor
  · unfold App.Shows
    rw [hc.text]
    unfold canvasText
    rw [String.toList_ofList]
    refine reads_lines _ _ ?_
    intro row hr
    refine hn _ ?_
    rw [← hch]
    exact List.mem_map_of_mem hr
  · rw [← hch]
    have : ∀ (rows : List (List (Char × Color))) (p : Color),
        (readLines p rows).map (fun l => l.map Prod.fst) = rows.map (fun l => l.map Prod.fst) := by
      intro rows
      induction rows with
      | nil => intro _; rfl
      | cons r rows ih => intro p; rw [readLines, List.map_cons, List.map_cons, ih, readLine_chars]
    exact this _ _

/-! ## C102: the characters -/

/-- **C102 (partial).** At any time of a session the widget shows the characters of the canvas (`C91_canvas`), line by line.
Missing: a canvas in which some characters look like the tag of a colour (`C102_refuted`). -/
theorem C102_characters_partial {fm : Fmt α} {sch0 : NSched α} {sch1 : Nat → NSched α} {sch : Nat → Nat → NSched α} {n : Net α}
    {evidence : List (String × String)} {a0 a : App α} (h0 : startApp fm sch0 sch1 n evidence = .ok a0) {es : List Event}
    (h : App.run fm sch 0 es a0 = .ok a) (hn : ∀ row ∈ a.canvas, NoTag row) :
    ∃ lines, a.Shows lines ∧ lines.map (fun l => l.map Prod.fst) = a.canvas := by
  exact ⟨_, screen_shows h0 h hn⟩

/-! ## C103: the colours -/

/-- The colour that the line before line `y` ends with; black before the first line. -/
def App.ColorBefore (a : App α) (w y : Nat) (d : Color) : Prop :=
  if y = 0 then d = .black else a.CellColor ((y : Int) - 1) ((w : Int) - 1) d

/-- **C103 (partial).** At any time of a session the widget shows each place of the canvas in the colour of the box there,
and in white if there is none. Missing: the first places of a line if they all have the colour that the line before ends
with (`C103_refuted`), and characters that look like tags. -/
theorem C103_colors_partial {fm : Fmt α} {sch0 : NSched α} {sch1 : Nat → NSched α} {sch : Nat → Nat → NSched α} {n : Net α}
    {evidence : List (String × String)} {a0 a : App α} (h0 : startApp fm sch0 sch1 n evidence = .ok a0) {es : List Event}
    (h : App.run fm sch 0 es a0 = .ok a) (hn : ∀ row ∈ a.canvas, NoTag row) :
    ∃ lines, a.Shows lines ∧ lines.map (fun l => l.map Prod.fst) = a.canvas ∧
      ∀ (y x : Nat) line r c, lines[y]? = some line → line[x]? = some (r, c) →
        ((∃ x' : Nat, x' ≤ x ∧ ∀ d, a.ColorBefore line.length y d → ¬ a.CellColor y x' d) ∨ a.CellColor y x .white) →
        a.CellColor y x c := by
  obtain ⟨s1, s2⟩ := screen_shows h0 h hn
  obtain ⟨hp, hc, hch, hcol, hcell⟩ := screen_lines h0 h
  refine ⟨_, s1, s2, ?_⟩
  intro y x line r c hy hx hcond
  obtain ⟨hh, w, hd, _, _⟩ := hp.canvas
  have hlen : ∀ l ∈ a.lines, (l.length : Int) = w := by
    intro l hl
    have : l.map Prod.fst ∈ a.canvas := by rw [← hch]; exact List.mem_map_of_mem hl
    have := hd.2 _ this
    rwa [List.length_map] at this
  have hyl : y < a.lines.length := by
    rw [← readLines_length a.lines .black]
    exact (List.getElem?_eq_some_iff.1 hy).1
  obtain ⟨row, hrow⟩ : ∃ row, a.lines[y]? = some row := ⟨_, List.getElem?_eq_getElem hyl⟩
  obtain ⟨p, p1, p2, p3⟩ := readLines_get a.lines .black y row hrow
  rw [p1] at hy
  cases hy
  have hll : (readLine .white p row).length = row.length := by
    have := congrArg List.length (readLine_chars row .white p)
    simpa using this
  have hxl : x < row.length := by
    rw [← hll]
    exact (List.getElem?_eq_some_iff.1 hx).1
  obtain ⟨q, hq⟩ : ∃ q, row[x]? = some q := ⟨_, List.getElem?_eq_getElem hxl⟩
  have hwr := hlen row (List.mem_of_getElem? hrow)
  have hright : (readLine .white p row)[x]? = some q := by
    refine readLine_right row .white p x q hq ?_
    rcases hcond with ⟨x', hx', hne⟩ | hw
    · left
      obtain ⟨q', hq'⟩ : ∃ q', row[x']? = some q' := ⟨_, List.getElem?_eq_getElem (by omega)⟩
      refine ⟨x', hx', q', hq', ?_⟩
      rintro rfl
      refine hne q'.2 ?_ (hcell y x' row q' hrow hq')
      unfold App.ColorBefore
      rw [hll]
      cases y with
      | zero => rw [if_pos rfl]; exact p2 rfl
      | succ y =>
        rw [if_neg (by omega)]
        obtain ⟨row', hrow'⟩ : ∃ row', a.lines[y]? = some row' := ⟨_, List.getElem?_eq_getElem (by omega)⟩
        have hwr' := hlen row' (List.mem_of_getElem? hrow')
        obtain ⟨z, hz⟩ : ∃ z, row'[row'.length - 1]? = some z := ⟨_, List.getElem?_eq_getElem (by omega)⟩
        have hlast : row'.getLast? = some z := by rw [List.getLast?_eq_getElem?]; exact hz
        rw [p3 y row' z rfl hrow' hlast]
        have := hcell y (row'.length - 1) row' z hrow' hz
        have e1 : ((row'.length - 1 : Nat) : Int) = (row.length : Int) - 1 := by omega
        rw [e1] at this
        push_cast
        rw [Int.add_sub_cancel]
        exact this
    · right
      exact CellColor.unique (hcell y x row q hrow hq) hw
  rw [hright] at hx
  cases hx
  exact hcell y x row _ hrow hq

/-- The places missing in C103 are wrong: the first place of a line is white if its colour is the one that the line before
ends with. -/
theorem C103_lost {fm : Fmt α} {sch0 : NSched α} {sch1 : Nat → NSched α} {sch : Nat → Nat → NSched α} {n : Net α}
    {evidence : List (String × String)} {a0 a : App α} (h0 : startApp fm sch0 sch1 n evidence = .ok a0) {es : List Event}
    (h : App.run fm sch 0 es a0 = .ok a) (hn : ∀ row ∈ a.canvas, NoTag row) {lines : List (List (Char × Color))}
    (hs : a.Shows lines) (hch : lines.map (fun l => l.map Prod.fst) = a.canvas) {y : Nat} {line : List (Char × Color)} {r : Char}
    {c d : Color} (hy : lines[y]? = some line) (hx : line[0]? = some (r, c)) (hb : a.ColorBefore line.length y d)
    (hd : a.CellColor y 0 d) : c = .white := by
  obtain ⟨s1, s2⟩ := screen_shows h0 h hn
  have := joinLines_inj (hch.trans s2.symm) (Reads.unique hs s1)
  subst this
  obtain ⟨hp, _, hch', _, hcell⟩ := screen_lines h0 h
  obtain ⟨hh, w, hdim, _, _⟩ := hp.canvas
  have hlen : ∀ l ∈ a.lines, (l.length : Int) = w := by
    intro l hl
    have : l.map Prod.fst ∈ a.canvas := by rw [← hch']; exact List.mem_map_of_mem hl
    have := hdim.2 _ this
    rwa [List.length_map] at this
  have hyl : y < a.lines.length := by
    rw [← readLines_length a.lines .black]
    exact (List.getElem?_eq_some_iff.1 hy).1
  obtain ⟨row, hrow⟩ : ∃ row, a.lines[y]? = some row := ⟨_, List.getElem?_eq_getElem hyl⟩
  obtain ⟨p, p1, p2, p3⟩ := readLines_get a.lines .black y row hrow
  rw [p1] at hy
  cases hy
  have hll : (readLine .white p row).length = row.length := by
    have := congrArg List.length (readLine_chars row .white p)
    simpa using this
  have hwr := hlen row (List.mem_of_getElem? hrow)
  have hpd : p = d := by
    unfold App.ColorBefore at hb
    rw [hll] at hb
    cases y with
    | zero => rw [if_pos rfl] at hb; rw [hb]; exact p2 rfl
    | succ y =>
      rw [if_neg (by omega)] at hb
      obtain ⟨row', hrow'⟩ : ∃ row', a.lines[y]? = some row' := ⟨_, List.getElem?_eq_getElem (by omega)⟩
      have hwr' := hlen row' (List.mem_of_getElem? hrow')
      have hpos : 0 < row.length := by rw [← hll]; exact (List.getElem?_eq_some_iff.1 hx).1
      obtain ⟨z, hz⟩ : ∃ z, row'[row'.length - 1]? = some z := ⟨_, List.getElem?_eq_getElem (by omega)⟩
      have hlast : row'.getLast? = some z := by rw [List.getLast?_eq_getElem?]; exact hz
      rw [p3 y row' z rfl hrow' hlast]
      have := hcell y (row'.length - 1) row' z hrow' hz
      have e1 : ((row'.length - 1 : Nat) : Int) = (row.length : Int) - 1 := by omega
      rw [e1] at this
      push_cast at hb
      rw [Int.add_sub_cancel] at hb
      exact CellColor.unique this hb
  cases row with
  | nil => rw [readLine] at hx; cases hx
  | cons q row =>
    obtain ⟨r', c'⟩ := q
    have hc' : c' = d := CellColor.unique (hcell y 0 _ (r', c') hrow rfl) hd
    rw [readLine, hc', hpd] at hx
    simp only [ne_eq, not_true_eq_false, if_false, List.getElem?_cons_zero, Option.some.injEq, Prod.mk.injEq] at hx
    exact hx.2.symm

/-- **C103 (partial).** All colours are right while the boxes at the left margin, if any, are white. -/
theorem C103_margin_partial {fm : Fmt α} {sch0 : NSched α} {sch1 : Nat → NSched α} {sch : Nat → Nat → NSched α} {n : Net α}
    {evidence : List (String × String)} {a0 a : App α} (h0 : startApp fm sch0 sch1 n evidence = .ok a0) {es : List Event}
    (h : App.run fm sch 0 es a0 = .ok a) (hn : ∀ row ∈ a.canvas, NoTag row)
    (hm : ∀ m ∈ a.nodes, m.bounds.x = 0 → HasColor m.var .white) :
    ∃ lines, a.Shows lines ∧ lines.map (fun l => l.map Prod.fst) = a.canvas ∧
      ∀ (y x : Nat) line r c, lines[y]? = some line → line[x]? = some (r, c) → a.CellColor y x c := by
  obtain ⟨lines, h1, h2, h3⟩ := C103_colors_partial h0 h hn
  refine ⟨lines, h1, h2, ?_⟩
  intro y x line r c hy hx
  obtain ⟨hp, _⟩ := screen_lines h0 h
  obtain ⟨_, _, _, _, kb⟩ := hp.canvas
  have hwhite : a.CellColor y 0 .white := by
    unfold App.CellColor
    cases hf : a.nodes.reverse.find? (fun n => n.bounds.contains (0 : Int) (y : Int)) with
    | none => rfl
    | some m =>
      have hmem := List.mem_reverse.1 (List.mem_of_find?_eq_some hf)
      have hcon := List.find?_some hf
      have := (kb m hmem).x0
      unfold Bounds.contains at hcon
      simp only [ge_iff_le, Bool.and_eq_true, decide_eq_true_eq] at hcon
      exact hm m hmem (by omega)
  refine h3 y x line r c hy hx ?_
  by_cases hw : a.CellColor y x .white
  · exact .inr hw
  · left
    by_cases hb : a.ColorBefore line.length y .white
    · refine ⟨x, le_refl _, ?_⟩
      intro d hd hcd
      have : d = .white := by
        unfold App.ColorBefore at hb hd
        split_ifs at hb hd
        exact CellColor.unique hd hb
      rw [this] at hcd
      exact hw hcd
    · refine ⟨0, by omega, ?_⟩
      intro d hd hcd
      rw [CellColor.unique hcd hwhite] at hd
      exact hb hd

end

/-! ## C102 for networks -/

/-- Every tag ends like this. -/
theorem tag_end (d : Color) : ∃ front z, d.mark = front ++ [z, ']'] ∧ (z.isLower = true ∨ z = '-') := by
  cases d
  · exact ⟨"[blac".toList, 'k', by decide, by decide⟩
  · exact ⟨"[maroo".toList, 'n', by decide, by decide⟩
  · exact ⟨"[gree".toList, 'n', by decide, by decide⟩
  · exact ⟨"[oliv".toList, 'e', by decide, by decide⟩
  · exact ⟨"[nav".toList, 'y', by decide, by decide⟩
  · exact ⟨"[purpl".toList, 'e', by decide, by decide⟩
  · exact ⟨"[tea".toList, 'l', by decide, by decide⟩
  · exact ⟨"[silve".toList, 'r', by decide, by decide⟩
  · exact ⟨"[gra".toList, 'y', by decide, by decide⟩
  · exact ⟨"[re".toList, 'd', by decide, by decide⟩
  · exact ⟨"[lim".toList, 'e', by decide, by decide⟩
  · exact ⟨"[yello".toList, 'w', by decide, by decide⟩
  · exact ⟨"[blu".toList, 'e', by decide, by decide⟩
  · exact ⟨"[fuchsi".toList, 'a', by decide, by decide⟩
  · exact ⟨"[aqu".toList, 'a', by decide, by decide⟩
  · exact ⟨"[".toList, '-', by decide, by decide⟩

/-- A row without a closing bracket after such a character has no tag. -/
theorem noTag_of_end {row : List Char} (h : ∀ (x : Nat) z, row[x]? = some z → row[x + 1]? = some ']' → ¬ (z.isLower = true ∨ z = '-')) :
    NoTag row := by
  rintro d ⟨s, t, e⟩
  obtain ⟨front, z, e1, e2⟩ := tag_end d
  rw [e1] at e
  refine h (s ++ front).length z ?_ ?_ e2
  · rw [← e]
    simp
  · rw [← e, show s ++ (front ++ [z, ']']) ++ t = (s ++ front ++ [z]) ++ ']' :: t by simp,
      List.getElem?_append_right (by simp; omega)]
    rw [show (s ++ front).length + 1 - (s ++ front ++ [z]).length = 0 by simp; omega]
    rfl

/-- A character that is no closing bracket. -/
theorem letter_ne {s : String} (h : ']' ∉ s.toList) (k : Int) : letter s k ≠ ']' := by
  unfold letter
  split_ifs
  · decide
  · rw [List.getD_eq_getElem?_getD]
    cases hk : s.toList[k.toNat]? with
    | none => decide
    | some c =>
      rintro rfl
      exact h (List.mem_of_getElem? hk)

theorem edgeRune_ne (b c : Bounds) (y x : Int) : edgeRune b c y x ≠ some ']' := by
  unfold edgeRune straightDown straightAcross cornerEdge
  dsimp only
  split_ifs <;> decide

theorem edgesRune_ne (es : List (Bounds × Bounds)) (y x : Int) : edgesRune es y x ≠ ']' := by
  unfold edgesRune
  cases h : es.reverse.findSome? (fun e => edgeRune e.1 e.2 y x) with
  | none => decide
  | some c =>
    rintro rfl
    obtain ⟨_, e, _, _, he, _⟩ := List.findSome?_eq_some_iff.1 h
    exact edgeRune_ne _ _ _ _ he

theorem frameRune_plain (s : Bool) (h w y x : Int) :
    frameRune s h w y x ≠ ']' ∧ ¬ ((frameRune s h w y x).isLower = true ∨ frameRune s h w y x = '-') := by
  unfold frameRune
  split_ifs <;> decide

section

variable [Field α] [LinearOrder α] [IsStrictOrderedRing α] [FloorRing α]

omit [IsStrictOrderedRing α] in
theorem fixedText_chars (W : Nat) (x : α) : ∀ c ∈ (fixedText W x).toList, c.isDigit = true ∨ c = ' ' ∨ c = '-' ∨ c = '.' := by
  intro c hc
  unfold fixedText thousandthsText at hc
  rw [String.toList_ofList] at hc
  simp only [List.mem_append, List.mem_replicate, List.mem_cons, List.not_mem_nil, or_false] at hc
  have hdig : ∀ n : Nat, n < 10 → (Nat.digitChar n).isDigit = true := by decide
  rcases hc with ⟨_, h⟩ | h | h | h | h | h | h
  · exact .inr (.inl h)
  · split_ifs at h
    · simp only [List.mem_cons, List.not_mem_nil, or_false] at h
      exact .inr (.inr (.inl h))
    · cases h
  · exact .inl (Nat.isDigit_of_mem_toDigits (by decide) (by decide) h)
  · exact .inr (.inr (.inr h))
  · rw [h]; exact .inl (hdig _ (Nat.mod_lt _ (by decide)))
  · rw [h]; exact .inl (hdig _ (Nat.mod_lt _ (by decide)))
  · rw [h]; exact .inl (hdig _ (Nat.mod_lt _ (by decide)))

omit [IsStrictOrderedRing α] in
theorem fixedText_no_bracket (W : Nat) (x : α) : ']' ∉ (fixedText W x).toList := by
  intro h
  rcases fixedText_chars W x _ h with h | h | h | h <;> exact absurd h (by decide)

omit [LinearOrder α] [IsStrictOrderedRing α] [FloorRing α] [Field α] in
theorem thousandths_chars (t : Nat) : (∀ c ∈ thousandthsText t, c.isDigit = true ∨ c = '.') ∧ 5 ≤ (thousandthsText t).length := by
  unfold thousandthsText
  have hdig : ∀ n : Nat, n < 10 → (Nat.digitChar n).isDigit = true := by decide
  constructor
  · intro c hc
    simp only [List.mem_append, List.mem_cons, List.not_mem_nil, or_false] at hc
    rcases hc with h | h | h | h | h
    · exact .inl (Nat.isDigit_of_mem_toDigits (by decide) (by decide) h)
    · exact .inr h
    · rw [h]; exact .inl (hdig _ (Nat.mod_lt _ (by decide)))
    · rw [h]; exact .inl (hdig _ (Nat.mod_lt _ (by decide)))
    · rw [h]; exact .inl (hdig _ (Nat.mod_lt _ (by decide)))
  · have : (Nat.toDigits 10 (t / 1000)).length ≠ 0 := by
      rw [Ne, List.length_eq_zero_iff]
      exact Nat.toDigits_ne_nil
    simp only [List.length_append, List.length_cons, List.length_nil]
    omega

omit [IsStrictOrderedRing α] in
/-- The seventh character of a number in percent. -/
theorem percent_end (x : α) : ¬ ((letter (fixedText 7 x) 6).isLower = true ∨ letter (fixedText 7 x) 6 = '-') := by
  unfold letter
  rw [if_neg (by omega)]
  have e : (fixedText 7 x).toList.getD (6 : Int).toNat ' ' = ((fixedText 7 x).toList[6]?).getD ' ' := by
    rw [List.getD_eq_getElem?_getD]; rfl
  rw [e]
  cases h : (fixedText 7 x).toList[6]? with
  | none => decide
  | some c =>
    have hd : c.isDigit = true ∨ c = '.' ∨ c = ' ' := by
      unfold fixedText at h
      rw [String.toList_ofList] at h
      obtain ⟨t1, t2⟩ := thousandths_chars (roundEven (|x| * 1000)).toNat
      generalize thousandthsText (roundEven (|x| * 1000)).toNat = t at *
      rw [List.getElem?_append] at h
      split_ifs at h with h1 h2 h2
      all_goals simp only [List.length_replicate, List.length_append, List.length_cons, List.length_nil] at *
      · rw [List.getElem?_replicate] at h
        split_ifs at h
        cases h
        exact .inr (.inr rfl)
      · rw [List.getElem?_append_right (by simp only [List.length_cons, List.length_nil]; omega)] at h
        have := t1 c (List.mem_of_getElem? h)
        tauto
      · rw [List.getElem?_replicate] at h
        split_ifs at h
        cases h
        exact .inr (.inr rfl)
      · rw [List.nil_append] at h
        have := t1 c (List.mem_of_getElem? h)
        tauto
    rw [Option.getD_some]
    rcases hd with h | rfl | rfl
    · rintro (h' | rfl)
      · unfold Char.isDigit at h
        unfold Char.isLower at h'
        simp only [ge_iff_le, Bool.and_eq_true, decide_eq_true_eq] at h h'
        have a1 := UInt32.le_iff_toNat_le.1 h.2
        have a2 := UInt32.le_iff_toNat_le.1 h'.1
        revert a1 a2
        generalize c.val.toNat = m
        intro a1 a2
        have b1 : m ≤ 57 := a1
        have b2 : 97 ≤ m := a2
        omega
      · exact absurd h (by decide)
    · decide
    · decide

omit [Field α] [LinearOrder α] [IsStrictOrderedRing α] [FloorRing α] in
theorem barRune_ne (fm : Fmt α) (p : Option α) (j : Int) : barRune fm p j ≠ ']' := by
  unfold barRune
  cases p with
  | none => exact show '░' ≠ ']' by decide
  | some a =>
    dsimp only
    split_ifs
    · decide
    · rw [List.getD_eq_getElem?_getD]
      cases h : ['▏', '▎', '▍', '▌', '▋', '▊', '▉'][(fm.fracIdx a).toNat]? with
      | none => decide
      | some c =>
        rintro rfl
        exact absurd (List.mem_of_getElem? h) (by decide)
    · decide

/-- Names without closing brackets. -/
def NVar.NoBracket (v : NVar) : Prop := ']' ∉ v.name.toList ∧ ∀ o ∈ v.outcomes, ']' ∉ o.toList

omit [IsStrictOrderedRing α] in
/-- Where boxes have closing brackets. -/
theorem boxRune_bracket {fm : Fmt α} (ht : fm.ExactTexts) {v : NVar} (hv : v.NoBracket) {l : Look α} {y x : Int}
    (h : boxRune fm v l y x = ']') : x = boxWidth v - 2 ∧
      ¬ ((boxRune fm v l y (x - 1)).isLower = true ∨ boxRune fm v l y (x - 1) = '-') := by
  unfold boxRune at h
  split_ifs at h with h1 h2
  · exact absurd h (frameRune_plain ..).1
  · exfalso
    unfold titleRune at h
    split_ifs at h
    · exact absurd h (by decide)
    · exact absurd h (by decide)
    · exact letter_ne hv.1 _ h
    · exact absurd h (by decide)
  · have hlab : ']' ∉ (lineLabel v (y - 2).toNat).toList := by
      unfold lineLabel
      cases ho : v.outcomes[(y - 2).toNat]? with
      | none => rw [Option.getD_none]; decide
      | some o => exact hv.2 o (List.mem_of_getElem? ho)
    unfold lineRune at h
    rw [ite_eq_iff] at h
    rcases h with ⟨_, h⟩ | ⟨hx, h⟩
    · exact absurd h (letter_ne hlab _)
    · cases hl : l.values[(y - 2).toNat]? with
      | none => rw [hl] at h; exact absurd (show ' ' = ']' from h) (by decide)
      | some p =>
        rw [hl] at h
        dsimp only at h
        by_cases hu : v.nodeType = .utility
        · exfalso
          rw [if_pos hu] at h
          split_ifs at h
          · refine letter_ne ?_ _ h
            cases p with
            | none => exact show ']' ∉ "         ???".toList by decide
            | some a => show ']' ∉ (fm.utility a).toList; rw [ht.utility]; exact fixedText_no_bracket _ _
          · exact absurd h (by decide)
        · rw [if_neg hu] at h
          have hx2 : x = boxWidth v - 2 := by
            by_contra hx2
            rw [if_neg hx2] at h
            split_ifs at h
            · unfold markRune at h
              split_ifs at h <;> exact absurd h (by decide)
            · exact barRune_ne _ _ _ h
            · refine letter_ne ?_ _ h
              cases p with
              | none => exact show ']' ∉ "    ???".toList by decide
              | some a => show ']' ∉ (fm.percent a).toList; rw [ht.percent]; exact fixedText_no_bracket _ _
            · exact absurd h (by decide)
          refine ⟨hx2, ?_⟩
          have hw : labelWidth v + 23 ≤ boxWidth v := by
            unfold boxWidth
            rw [if_neg hu]
            omega
          have hw0 : 0 ≤ labelWidth v := by
            unfold labelWidth
            omega
          unfold boxRune
          rw [if_neg (by omega), if_neg h2]
          unfold lineRune
          rw [if_neg (by unfold barsColumn; omega), hl]
          dsimp only
          rw [if_neg hu, if_neg (by omega), if_neg (by omega), if_neg (by unfold barsColumn; omega)]
          split_ifs with h3
          · have : x - 1 - (barsColumn v + 11) = 6 := by
              unfold barsColumn at h3 ⊢
              omega
            rw [this]
            cases p with
            | none => exact show ¬ ((letter "    ???" 6).isLower = true ∨ letter "    ???" 6 = '-') by decide
            | some a => show ¬ ((letter (fm.percent a) 6).isLower = true ∨ letter (fm.percent a) 6 = '-'); rw [ht.percent]; exact percent_end _
          · decide

omit [Field α] [LinearOrder α] [IsStrictOrderedRing α] [FloorRing α] in
theorem find?_next {β : Type} {p q : β → Bool} : ∀ {l : List β} {a : β}, l.find? p = some a → q a = true →
    ∃ b, l.find? q = some b ∧ (b = a ∨ p b = false) := by
  intro l
  induction l with
  | nil => intro a h _; cases h
  | cons c l ih =>
    intro a h hq
    rw [List.find?_cons] at h
    by_cases hc : p c = true
    · rw [hc] at h
      cases h
      exact ⟨c, by rw [List.find?_cons, hq], .inl rfl⟩
    · rw [Bool.not_eq_true] at hc
      rw [hc] at h
      by_cases hqc : q c = true
      · exact ⟨c, by rw [List.find?_cons, hqc], .inr hc⟩
      · rw [Bool.not_eq_true] at hqc
        obtain ⟨b, h1, h2⟩ := ih h hq
        exact ⟨b, by rw [List.find?_cons, hqc]; exact h1, h2⟩

omit [IsStrictOrderedRing α] in
/-- A canvas of names without closing brackets. -/
theorem canvas_noTag {fm : Fmt α} (ht : fm.ExactTexts) {a : App α} {h w : Int} (hp : Pictures a.canvas h w (a.canvasRune fm))
    (hs : ∀ m ∈ a.nodes, m.Sized) (hv : ∀ m ∈ a.nodes, m.var.NoBracket) : ∀ row ∈ a.canvas, NoTag row := by
  intro row hrow
  obtain ⟨y, hy⟩ := List.getElem?_of_mem hrow
  refine noTag_of_end ?_
  intro x z hz hb
  have e1 := hp.cell y x row z hy hz
  have e2 := hp.cell y (x + 1) row ']' hy hb
  rw [e1]
  unfold App.canvasRune at e2
  cases hf : a.nodes.zipIdx.reverse.find? (fun p => p.1.bounds.contains ((x + 1 : Nat) : Int) (y : Int)) with
  | none => rw [hf] at e2; exact absurd e2.symm (edgesRune_ne _ _ _)
  | some p =>
    obtain ⟨m, i⟩ := p
    rw [hf] at e2
    dsimp only at e2
    have hm : m ∈ a.nodes := by
      have := List.mem_reverse.1 (List.mem_of_find?_eq_some hf)
      exact (List.mem_zipIdx_iff_getElem?.1 this |> List.mem_of_getElem?)
    obtain ⟨k1, k2⟩ := boxRune_bracket ht (hv m hm) e2.symm
    have hcon := List.find?_some hf
    unfold Bounds.contains at hcon
    simp only [ge_iff_le, Bool.and_eq_true, decide_eq_true_eq] at hcon
    have hw : 4 ≤ boxWidth m.var := by
      unfold boxWidth labelWidth
      split_ifs <;> omega
    have sw := (hs m hm).w
    push_cast at hcon k1 k2
    obtain ⟨q, q1, q2⟩ := find?_next (q := fun p : TNode α × Nat => p.1.bounds.contains (x : Int) (y : Int)) hf (by
      unfold Bounds.contains
      simp only [ge_iff_le, Bool.and_eq_true, decide_eq_true_eq]
      omega)
    unfold App.canvasRune
    rw [q1]
    obtain ⟨m', i'⟩ := q
    dsimp only
    rcases q2 with h' | h'
    · cases h'
      rw [show (x : Int) + 1 - m.bounds.x - 1 = x - m.bounds.x by ring] at k2
      exact k2
    · have hm' : m' ∈ a.nodes := by
        have := List.mem_reverse.1 (List.mem_of_find?_eq_some q1)
        exact (List.mem_zipIdx_iff_getElem?.1 this |> List.mem_of_getElem?)
      have hcon' := List.find?_some q1
      unfold Bounds.contains at hcon' h'
      simp only [ge_iff_le, Bool.and_eq_true, decide_eq_true_eq, Bool.and_eq_false_iff, decide_eq_false_iff_not] at hcon' h'
      push_cast at h'
      have sw' := (hs m' hm').w
      unfold boxRune
      rw [if_pos (by omega)]
      exact (frameRune_plain ..).2

/-- **C102 (partial).** With names of variables and outcomes that have no closing brackets, the widget shows the canvas at any
time of a session: the boxes, the edges and the blanks between them (as in `C91_canvas`). Missing: names with brackets
(`C102_refuted`). -/
theorem C102_names_partial {n : Net α} (hr : AppReady n)
    (hne : n.variables ≠ []) (hcol : ∀ v ∈ n.variables, v.color = "" ∨ ColorName v.color)
    (hpos : ∀ v ∈ n.variables, 0 ≤ v.position.1 ∧ 0 ≤ v.position.2)
    (htab : ∀ f ∈ n.chanceTables, ∀ x ∈ f.tab, 0 ≤ x) {fm : Fmt α} (hfm : fm.ExactBars) (htx : fm.ExactTexts)
    (sch0 : NSched α) (sch1 : Nat → NSched α) (sch : Nat → Nat → NSched α) {evidence : List (String × String)}
    (hev : n.EvidenceOK evidence) {N : Net α} (hN : N = (n.solvePolicies sch0 true).2)
    (possible : N.mass (N.active evidence false) (N.Agrees evidence) ≠ 0)
    (brackets : ∀ v ∈ n.variables, ']' ∉ v.name.toList ∧ ∀ o ∈ v.outcomes, ']' ∉ o.toList) :
    ∃ a0, startApp fm sch0 sch1 n evidence = .ok a0 ∧
      ∀ es, App.CarefulRun fm sch N 0 es a0 → App.ModerateRun fm sch 0 es a0 →
        ∃ a lines h w, App.run fm sch 0 es a0 = .ok a ∧ a.Shows lines ∧
          lines.map (fun l => l.map Prod.fst) = a.canvas ∧ Pictures a.canvas h w (a.canvasRune fm) ∧
          ∀ row ∈ a.canvas, NoTag row := by
  obtain ⟨a0, h1, h2⟩ := canvas_session hr hne hcol hpos htab hfm htx sch0 sch1 sch hev hN possible
  refine ⟨a0, h1, fun es hc hm => ?_⟩
  obtain ⟨a, r1, r2, r3⟩ := h2 es hc hm
  obtain ⟨h, w, d, _, _⟩ := r2.placed.canvas
  have hpic := r3.canvas h w d
  obtain ⟨st, _, _⟩ := startApp_inv h1
  have hn : ∀ row ∈ a.canvas, NoTag row := by
    refine canvas_noTag htx hpic (fun m hm => (r3.nodes m hm).1) ?_
    intro m hm
    refine brackets m.var ?_
    rw [← st.vars, ← run_names r1]
    exact List.mem_map_of_mem hm
  obtain ⟨lines, s1, s2⟩ := C102_characters_partial h1 r1 hn
  exact ⟨a, lines, h, w, r1, s1, s2, hpic, hn⟩

end

/-! ## Where the claims fail, and examples -/

/-- Reading up to a tag. -/
theorem Reads.skip {d : Color} {rest : List Char} : ∀ {pre : List Char} {c : Color} {shown : List (Char × Color)},
    '[' ∉ pre → Reads c (pre ++ (d.mark ++ rest)) shown →
    ∃ shown', shown = pre.map (fun r => (r, c)) ++ shown' ∧ Reads d rest shown' := by
  intro pre
  induction pre with
  | nil =>
    intro c shown _ h
    rw [List.nil_append] at h
    generalize hx : d.mark ++ rest = x at h
    cases h with
    | done =>
      obtain ⟨body, hb, _⟩ := tag_shape d
      rw [hb] at hx
      cases hx
    | tag _ e text' shown' h' =>
      obtain ⟨e1, e2⟩ := Color.tag_inj hx
      subst e1 e2
      exact ⟨shown, rfl, h'⟩
    | char _ r text' shown' hno h' => exact absurd ⟨rest, hx⟩ (hno d)
  | cons r pre ih =>
    intro c shown hp h
    rw [List.mem_cons, not_or] at hp
    generalize hx : r :: pre ++ (d.mark ++ rest) = x at h
    cases h with
    | done => cases hx
    | tag _ e text' shown' h' =>
      obtain ⟨body, hb, _⟩ := tag_shape e
      rw [hb, List.cons_append, List.cons_append] at hx
      injection hx with e1
      exact absurd e1.symm hp.1
    | char _ r' text' shown' hno h' =>
      rw [List.cons_append] at hx
      injection hx with e1 e2
      subst e1 e2
      obtain ⟨s, k1, k2⟩ := ih hp.2 h'
      exact ⟨s, by rw [k1]; rfl, k2⟩

theorem Reads.next {c : Color} {r : Char} {rest : List Char} {shown : List (Char × Color)} (hr : r ≠ '[')
    (h : Reads c (r :: rest) shown) : ∃ shown', shown = (r, c) :: shown' := by
  generalize hx : r :: rest = x at h
  cases h with
  | done => cases hx
  | tag _ e text' shown' h' =>
    obtain ⟨body, hb, _⟩ := tag_shape e
    rw [hb, List.cons_append] at hx
    injection hx with e1
    exact absurd e1 hr
  | char _ r' text' shown' hno h' =>
    injection hx with e1 e2
    exact ⟨shown', by rw [e1]⟩

theorem lineText_white : ∀ (row : List (Char × Color)), (∀ q ∈ row, q.2 = .white) →
    lineText .white row = (row.map Prod.fst, .white) := by
  intro row
  induction row with
  | nil => intro _; rfl
  | cons q row ih =>
    intro h
    obtain ⟨r, c⟩ := q
    have hc : c = .white := h (r, c) (List.mem_cons_self ..)
    subst hc
    rw [lineText, ih (fun q hq => h q (List.mem_cons_of_mem _ hq))]
    simp

namespace Ex

/-- One variable with two outcomes: with the name `[red]`, or with a plain name, in blue. -/
def single (b : Bool) : Net ℚ where
  name := "single"
  info := ""
  «variables» := [⟨bif b then "[red]" else "A", .chance, ["x", "y"], (0, 0), bif b then "" else "blue", some 0⟩]
  factors := [⟨bif b then "[red]" else "A", [], some [1, 1], [], 2⟩]
  policies := []
  vs := none
  names := []
  totalUtility := none

theorem single_new (b : Bool) : newNet "single" "" [⟨bif b then "[red]" else "A", .chance, ["x", "y"], (0, 0), bif b then "" else "blue", none⟩]
    [⟨bif b then "[red]" else "A", [], some [(1 : ℚ), 1], [], 0⟩] = .ok (single b) := by
  cases b <;> rfl

theorem single_ready (b : Bool) : AppReady (single b) where
  valid :=
  { names := by cases b <;> decide
    named := by cases b <;> decide
    few := by cases b <;> decide
    outcomes := by cases b <;> decide
    tables := by cases b <;> decide
    hasTable := by cases b <;> decide
    known := by cases b <;> decide
    dims := by cases b <;> decide
    parents := by cases b <;> decide
    size := by
      intro f hf _ _
      have : ∀ b, ∀ f ∈ (single b).factors, f.tab.length = (f.dims.map (single b).count).prod ∧ f.table = some f.tab := by decide +kernel
      exact ⟨f.tab, (this b f hf).2, (this b f hf).1⟩
    single := by cases b <;> decide
    weights := by intro i h; cases h }
  solvable := by
    rintro ⟨s, hs⟩
    obtain ⟨v, hv, _, h⟩ := isKind_mem.1 hs
    have : ∀ b, ∀ v ∈ (single b).variables, v.nodeType ≠ .decision := by decide
    exact absurd h (this b v hv)
  total := by intro i h; cases h
  linked := by
    intro v hv _
    have : v = ⟨bif b then "[red]" else "A", .chance, ["x", "y"], (0, 0), bif b then "" else "blue", some 0⟩ := by
      simpa [single] using hv
    subst this
    exact ⟨0, _, rfl, rfl, rfl⟩

/-- What is known of its one node. -/
theorem single_start (b : Bool) (sch0 : NSched ℚ) (sch1 : Nat → NSched ℚ) : ∃ a0 m, startApp exactFm sch0 sch1 (single b) [] = .ok a0 ∧
    a0.nodes = [m] ∧ m.var = ⟨bif b then "[red]" else "A", .chance, ["x", "y"], (0, 0), bif b then "" else "blue", some 0⟩ ∧
    m.bounds = ⟨0, 0, 24, 5⟩ ∧ Pictures a0.canvas 5 24 (a0.canvasRune exactFm) ∧ m.Sized := by
  obtain ⟨vs, names, hN⟩ := solved_chance (single_ready b) (by cases b <;> decide) sch0
  obtain ⟨a0, h1, h2⟩ := canvas_session (single_ready b) (by cases b <;> decide) (by cases b <;> decide) (by cases b <;> decide)
    (by cases b <;> decide +kernel) exactFm_bars exactFm_texts sch0 sch1 (fun _ => sch1) (evidence := []) ⟨by simp, by simp⟩ hN.symm (by
      have : (single b).mass [] ((single b).Agrees []) ≠ 0 := by cases b <;> decide +kernel
      exact this)
  obtain ⟨st, _, _⟩ := startApp_inv h1
  obtain ⟨a, r1, r2, r3⟩ := h2 [] trivial (moderateRun_none _ _ _ (by rw [st.vars]; cases b <;> decide))
  cases r1
  have hv := st.vars
  have hb := st.bounds
  have hl : a0.nodes.length = 1 := by
    have := congrArg List.length hv
    simpa [single] using this
  obtain ⟨m, hm⟩ := List.length_eq_one_iff.1 hl
  rw [hm] at hv hb
  have hbm : m.bounds = ⟨0, 0, 24, 5⟩ := by
    have : ∀ b, (single b).variables.map nodeBounds = [⟨0, 0, 24, 5⟩] := by decide
    rw [this b] at hb
    simpa using hb
  refine ⟨a0, m, h1, hm, ?_, hbm, ?_, (r3.nodes m (by rw [hm]; simp)).1⟩
  · simpa [single] using hv
  · obtain ⟨_, nodes, g, hh, w, e1, e2, e3, e4⟩ := startApp_canvas h1
    have hg : g = List.replicate 5 (List.replicate 24 (Char.ofNat 0)) := by
      unfold createCanvas at e2
      have hf : nodes.foldl (fun (b : Bounds) n => b.extend n.bounds) ⟨0, 0, 1, 1⟩ =
          (nodes.map TNode.bounds).foldl Bounds.extend ⟨0, 0, 1, 1⟩ := by rw [List.foldl_map]
      rw [hf, e1, hm, List.map_cons, List.map_nil, hbm] at e2
      have : List.foldl Bounds.extend ⟨0, 0, 1, 1⟩ [⟨0, 0, 24, 5⟩] = ⟨0, 0, 24, 5⟩ := by decide
      rw [this] at e2
      cases e2
      rfl
    have h5 : hh = 5 := by rw [← e3.1, hg]; rfl
    have h24 : w = 24 := by rw [← e3.2 (List.replicate 24 (Char.ofNat 0)) (by rw [hg]; exact List.mem_cons_self ..)]; rfl
    subst h5 h24
    exact r3.canvas _ _ e4

end Ex

/-- **C102 fails**: a variable named `[red]` loses its name; the widget does not show the canvas. -/
theorem C102_refuted (sch0 : NSched ℚ) (sch1 : Nat → NSched ℚ) :
    ∃ n a0, newNet "single" "" [⟨"[red]", .chance, ["x", "y"], (0, 0), "", none⟩] [⟨"[red]", [], some [(1 : ℚ), 1], [], 0⟩] = .ok n ∧
      startApp Ex.exactFm sch0 sch1 n [] = .ok a0 ∧ ¬ ∃ lines, a0.Shows lines ∧ lines.map (fun l => l.map Prod.fst) = a0.canvas := by
  obtain ⟨a0, m, h1, h2, h3, h4, h5, _⟩ := Ex.single_start true sch0 sch1
  refine ⟨_, a0, Ex.single_new true, h1, ?_⟩
  rintro ⟨lines, s1, s2⟩
  obtain ⟨_, hc, hch, _, hcell⟩ := screen_lines (sch := fun _ => sch1) h1 (es := []) rfl
  have hwhite : ∀ line ∈ a0.lines, ∀ q ∈ line, q.2 = .white := by
    intro line hl q hq
    obtain ⟨y, hy⟩ := List.getElem?_of_mem hl
    obtain ⟨x, hx⟩ := List.getElem?_of_mem hq
    have := hcell y x line q hy hx
    unfold App.CellColor at this
    rw [h2] at this
    cases hf : [m].reverse.find? (fun n => n.bounds.contains (x : Int) (y : Int)) with
    | none => rw [hf] at this; exact this
    | some m' =>
      rw [hf] at this
      have hm' := List.mem_of_find?_eq_some hf
      simp only [List.reverse_cons, List.reverse_nil, List.nil_append, List.mem_cons, List.not_mem_nil, or_false] at hm'
      subst hm'
      dsimp only at this
      rw [h3] at this
      exact this
  -- the first two lines
  have hlen := h5.rows
  obtain ⟨r0, hr0⟩ : ∃ r, a0.canvas[0]? = some r := ⟨_, List.getElem?_eq_getElem (by omega)⟩
  obtain ⟨r1, hr1⟩ : ∃ r, a0.canvas[1]? = some r := ⟨_, List.getElem?_eq_getElem (by omega)⟩
  have w0 := h5.columns r0 (List.mem_of_getElem? hr0)
  have w1 := h5.columns r1 (List.mem_of_getElem? hr1)
  have hbox : ∀ y x : Int, 0 ≤ y → y < 5 → 0 ≤ x → x < 24 →
      a0.canvasRune Ex.exactFm y x = boxRune Ex.exactFm m.var (a0.look 0 m) y x := by
    intro y x y0 y5 x0 x24
    unfold App.canvasRune
    rw [h2]
    have : m.bounds.contains x y = true := by
      rw [h4]
      unfold Bounds.contains
      simp only [ge_iff_le, Bool.and_eq_true, decide_eq_true_eq]
      omega
    simp only [List.zipIdx_cons, List.zipIdx_nil, List.reverse_cons, List.reverse_nil, List.nil_append, List.find?_cons, this]
    rw [h4]
    simp
  have hno : '[' ∉ r0 := by
    intro hmem
    obtain ⟨x, hx⟩ := List.getElem?_of_mem hmem
    have hxl : x < r0.length := (List.getElem?_eq_some_iff.1 hx).1
    have e := h5.cell 0 x r0 _ hr0 hx
    rw [Nat.cast_zero, hbox 0 x (by omega) (by omega) (by omega) (by omega)] at e
    unfold boxRune at e
    rw [if_pos (.inl rfl)] at e
    unfold frameRune at e
    split_ifs at e <;> exact absurd e (by decide)
  have hcells : ∀ x : Nat, x < 8 → r1[x]? = some (boxRune Ex.exactFm m.var (a0.look 0 m) 1 x) := by
    intro x hx
    obtain ⟨c, hcx⟩ : ∃ c, r1[x]? = some c := ⟨_, List.getElem?_eq_getElem (by omega)⟩
    have e := h5.cell 1 x r1 c hr1 hcx
    rw [Nat.cast_one, hbox 1 x (by omega) (by omega) (by omega) (by omega)] at e
    rw [hcx, e]
  have htitle : ∀ x : Nat, 0 < x → x < 8 → r1[x]? = some (titleRune (⟨"[red]", .chance, ["x", "y"], (0, 0), "", some 0⟩ : NVar) x) := by
    intro x x0 x8
    rw [hcells x x8, h3]
    unfold boxRune
    have hw : boxWidth (⟨"[red]", .chance, ["x", "y"], (0, 0), "", some 0⟩ : NVar) = 24 := by decide
    have hh : boxHeight (⟨"[red]", .chance, ["x", "y"], (0, 0), "", some 0⟩ : NVar) = 5 := by decide
    simp only [cond_true]
    rw [hw, hh, if_neg (by omega), if_pos trivial]
  obtain ⟨c0, hc0, hc0'⟩ : ∃ c0, r1[0]? = some c0 ∧ c0 ≠ '[' := by
    refine ⟨_, hcells 0 (by omega), ?_⟩
    unfold boxRune
    rw [if_pos (.inr (.inr (.inl (by rfl))))]
    unfold frameRune
    split_ifs <;> decide
  have ht : r1 = [c0, ' '] ++ (Color.red.mark ++ ' ' :: r1.drop 8) := by
    apply List.ext_getElem?
    intro x
    by_cases hx : x < 8
    · have : x = 0 ∨ x = 1 ∨ x = 2 ∨ x = 3 ∨ x = 4 ∨ x = 5 ∨ x = 6 ∨ x = 7 := by omega
      rcases this with rfl | rfl | rfl | rfl | rfl | rfl | rfl | rfl
      · exact hc0
      all_goals
        rw [htitle _ (by omega) (by omega)]
        exact show some (titleRune _ _) = some _ from congrArg some (by decide)
    · rw [show x = 8 + (x - 8) by omega, ← List.getElem?_drop]
      show _ = ([c0, ' ', '[', 'r', 'e', 'd', ']', ' '] ++ r1.drop 8)[8 + (x - 8)]?
      rw [List.getElem?_append_right (by simp)]
      simp
  -- the text
  obtain ⟨l0, l1, rest, hl, e0, e1⟩ : ∃ l0 l1 rest, a0.lines = l0 :: l1 :: rest ∧ l0.map Prod.fst = r0 ∧ l1.map Prod.fst = r1 := by
    rw [← hch] at hr0 hr1
    match hlx : a0.lines with
    | [] => rw [hlx] at hr0; cases hr0
    | [_] => rw [hlx] at hr1; cases hr1
    | l0 :: l1 :: rest =>
      rw [hlx] at hr0 hr1
      exact ⟨l0, l1, rest, rfl, by simpa using hr0, by simpa using hr1⟩
  have t1 := lineText_white l1 (hwhite l1 (by rw [hl]; simp))
  have t0 : lineText .black l0 = (Color.white.mark ++ r0, .white) := by
    have hw0 := hwhite l0 (by rw [hl]; simp)
    rw [← e0]
    cases l0 with
    | nil => rw [← e0] at w0; cases w0
    | cons q l =>
      obtain ⟨r, c⟩ := q
      have hcw : c = .white := hw0 (r, c) (List.mem_cons_self ..)
      subst hcw
      rw [lineText, lineText_white l (fun q hq => hw0 q (List.mem_cons_of_mem _ hq))]
      rfl
  have hread := s1
  unfold App.Shows at hread
  obtain ⟨T, hT⟩ : ∃ T, a0.text.toList = [] ++ (Color.white.mark ++ (r0 ++ (Color.white.mark ++
      (['\n', c0, ' '] ++ (Color.red.mark ++ ' ' :: T))))) := by
    rw [hc.text]
    unfold canvasText
    rw [String.toList_ofList]
    show ∃ T, linesText .black a0.lines = _
    rw [hl, linesText, t0, linesText, t1, e1, if_neg (by simp)]
    refine ⟨r1.drop 8 ++ (Color.white.mark ++ ((if rest = [] then [] else ['\n']) ++ linesText .white rest)), ?_⟩
    dsimp only
    generalize r1.drop 8 = D at ht ⊢
    rw [ht]
    simp [tag_mark]
  rw [hT] at hread
  obtain ⟨k1, q1, hread⟩ := hread.skip (by simp)
  obtain ⟨k2, q2, hread⟩ := hread.skip hno
  obtain ⟨k3, q3, hread⟩ := hread.skip (by simp [hc0'.symm])
  obtain ⟨k4, q4⟩ := hread.next (by decide)
  -- against the canvas
  match lines, s2 with
  | [], s2 => rw [← s2] at hr0; cases hr0
  | [_], s2 => rw [← s2] at hr1; cases hr1
  | m0 :: m1 :: rest', s2 =>
    rw [← s2] at hr0 hr1
    have f0 : m0.map Prod.fst = r0 := by simpa using hr0
    have f1 : m1.map Prod.fst = r1 := by simpa using hr1
    obtain ⟨Y, hY⟩ : ∃ Y, joinLines (m0 :: m1 :: rest') = m0 ++ ('\n', .white) :: (m1 ++ Y) := by
      unfold joinLines
      cases rest' with
      | nil => exact ⟨[], by simp [List.intercalate]⟩
      | cons m2 rest' => exact ⟨('\n', .white) :: List.intercalate [('\n', .white)] (m2 :: rest'), by simp [List.intercalate]⟩
    rw [hY, q2, q3, q4, List.map_nil, List.nil_append] at q1
    obtain ⟨_, q5⟩ := List.append_inj q1 (by
      have := congrArg List.length f0
      simpa using this)
    have hg : (m1 ++ Y)[2]? = some (' ', Color.red) := by
      rw [List.map_cons, List.cons_append] at q5
      injection q5 with _ q6
      rw [q6]
      rfl
    have h2' : r1[2]? = some '[' := by rw [ht]; rfl
    have hl2 : 2 < m1.length := by
      have := (List.getElem?_eq_some_iff.1 h2').1
      rwa [← f1, List.length_map] at this
    rw [List.getElem?_append_left hl2] at hg
    rw [← f1, List.getElem?_map, hg] at h2'
    exact absurd h2' (by decide)

/-- **C103 fails**: of a blue box at the left margin that is as wide as the canvas, the left side is white from the second line on. -/
theorem C103_refuted (sch0 : NSched ℚ) (sch1 : Nat → NSched ℚ) :
    ∃ n a0, newNet "single" "" [⟨"A", .chance, ["x", "y"], (0, 0), "blue", none⟩] [⟨"A", [], some [(1 : ℚ), 1], [], 0⟩] = .ok n ∧
      startApp Ex.exactFm sch0 sch1 n [] = .ok a0 ∧ (∃ lines, a0.Shows lines ∧ lines.map (fun l => l.map Prod.fst) = a0.canvas) ∧
      ¬ ∃ lines, a0.Shows lines ∧ lines.map (fun l => l.map Prod.fst) = a0.canvas ∧
        ∀ (y x : Nat) line r c, lines[y]? = some line → line[x]? = some (r, c) → a0.CellColor y x c := by
  obtain ⟨a0, m, h1, h2, h3, h4, h5, h6⟩ := Ex.single_start false sch0 sch1
  have hn : ∀ row ∈ a0.canvas, NoTag row := by
    refine canvas_noTag Ex.exactFm_texts h5 ?_ ?_
    · rw [h2]; simpa using h6
    · rw [h2]
      intro m' hm'
      rw [List.mem_singleton] at hm'
      rw [hm', h3]
      unfold NVar.NoBracket
      decide
  refine ⟨_, a0, Ex.single_new false, h1, C102_characters_partial (sch := fun _ => sch1) h1 (es := []) rfl hn, ?_⟩
  rintro ⟨lines, s1, s2, s3⟩
  have hblue : ∀ y x : Int, 0 ≤ y → y < 5 → 0 ≤ x → x < 24 → a0.CellColor y x .blue := by
    intro y x y0 y5 x0 x24
    unfold App.CellColor
    have : m.bounds.contains x y = true := by
      rw [h4]
      unfold Bounds.contains
      simp only [ge_iff_le, Bool.and_eq_true, decide_eq_true_eq]
      omega
    rw [h2]
    simp only [List.reverse_cons, List.reverse_nil, List.nil_append, List.find?_cons, this]
    rw [h3]
    exact (by unfold HasColor; decide : HasColor ⟨"A", .chance, ["x", "y"], (0, 0), "blue", some 0⟩ .blue)
  have hlen : lines.length = 5 := by
    have := h5.rows
    rw [← s2, List.length_map] at this
    omega
  obtain ⟨line, hl⟩ : ∃ l, lines[1]? = some l := ⟨_, List.getElem?_eq_getElem (by omega)⟩
  have hw : line.length = 24 := by
    have := h5.columns (line.map Prod.fst) (by rw [← s2]; exact List.mem_map_of_mem (List.mem_of_getElem? hl))
    rw [List.length_map] at this
    omega
  obtain ⟨⟨r, c⟩, hx⟩ : ∃ q, line[0]? = some q := ⟨_, List.getElem?_eq_getElem (by omega)⟩
  have e := C103_lost (sch := fun _ => sch1) h1 (es := []) rfl hn s1 s2 hl hx (d := .blue) (by
    unfold App.ColorBefore
    rw [if_neg (by decide), hw]
    exact hblue _ _ (by decide) (by decide) (by decide) (by decide)) (hblue _ _ (by decide) (by decide) (by decide) (by decide))
  have := CellColor.unique (s3 1 0 line r c hl hx) (hblue _ _ (by decide) (by decide) (by decide) (by decide))
  rw [e] at this
  cases this

namespace Ex

/-- The conditions of C102 and C103 hold for a session with `pair`, whose boxes are white. -/
example (sch0 : NSched ℚ) (sch1 : Nat → NSched ℚ) (sch : Nat → Nat → NSched ℚ) : ∃ a0 a lines h w,
    startApp exactFm sch0 sch1 pair [] = .ok a0 ∧ App.run exactFm sch 0 [.tab, .space, .showTable] a0 = .ok a ∧ a.Shows lines ∧
      Pictures (lines.map (fun l => l.map Prod.fst)) h w (a.canvasRune exactFm) ∧
      ∀ (y x : Nat) line r c, lines[y]? = some line → line[x]? = some (r, c) → a.CellColor y x c := by
  obtain ⟨vs, names, hN⟩ := solved_chance pair_ready (by decide) sch0
  obtain ⟨a0, h1, h2⟩ := C102_names_partial pair_ready (by decide) (by decide) (by decide) (by decide +kernel) exactFm_bars exactFm_texts
    sch0 sch1 sch (evidence := []) ⟨by simp, by simp⟩ hN.symm (by
      have : pair.mass [] (pair.Agrees []) ≠ 0 := by decide +kernel
      exact this) (by decide)
  obtain ⟨st, _, _⟩ := startApp_inv h1
  obtain ⟨a, _, h, w, r1, _, _, r3, r4⟩ := h2 [.tab, .space, .showTable]
    ⟨trivial, fun _ _ => ⟨trivial, fun _ _ => ⟨trivial, fun _ _ => trivial⟩⟩⟩ (moderateRun_none _ _ _ (by
      rw [st.vars]
      decide))
  obtain ⟨lines', k1, k2, k3⟩ := C103_margin_partial h1 r1 r4 (by
    intro m hm _
    have : m.var ∈ pair.variables := by
      rw [← st.vars, ← run_names r1]
      exact List.mem_map_of_mem hm
    have all : ∀ v ∈ pair.variables, HasColor v .white := by unfold HasColor; decide
    exact all m.var this)
  exact ⟨a0, a, lines', h, w, h1, r1, k1, by rw [k2]; exact r3, k3⟩

end Ex

end Bbn
