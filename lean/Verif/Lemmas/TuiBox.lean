import Verif.Lemmas.TuiCells

/-!
# What a node's grid shows
-/

set_option autoImplicit false

namespace Bbn

variable {α : Type}

theorem borderRune_eq (s : Bool) : borderRune s 0 = (if s then '╔' else '┌') ∧ borderRune s 1 = (if s then '╗' else '┐') ∧
    borderRune s 2 = (if s then '╚' else '└') ∧ borderRune s 3 = (if s then '╝' else '┘') ∧
    borderRune s 4 = (if s then '═' else '─') ∧ borderRune s 5 = (if s then '║' else '│') := by
  cases s <;> exact ⟨rfl, rfl, rfl, rfl, rfl, rfl⟩

theorem letter_eq (s : String) {x a : Int} (h : a ≤ x) : letter s (x - a) = s.toList.getD (x - a).toNat ' ' := by
  unfold letter
  rw [if_neg (by omega)]

/-- Beyond its end, a text is blank. -/
theorem letter_blank (s : String) {k : Int} (h : (s.toList.length : Int) ≤ k) : letter s k = ' ' := by
  unfold letter
  rw [if_neg (by omega), List.getD_eq_getElem?_getD, List.getElem?_eq_none (by omega)]
  rfl

theorem frame_cases (s : Bool) {h w y x : Int} (h2 : 2 ≤ h) (w2 : 2 ≤ w) (y0 : 0 ≤ y) (y1 : y < h) (x0 : 0 ≤ x) (x1 : x < w)
    (c : Char) :
    (if (x = 0 ∨ x = w - 1) ∧ 1 ≤ y ∧ y < h - 1 then (if s then '║' else '│')
      else if (y = 0 ∨ y = h - 1) ∧ 1 ≤ x ∧ x < w - 1 then (if s then '═' else '─')
      else if y = h - 1 ∧ x = w - 1 then (if s then '╝' else '┘')
      else if y = h - 1 ∧ x = 0 then (if s then '╚' else '└')
      else if y = 0 ∧ x = w - 1 then (if s then '╗' else '┐')
      else if y = 0 ∧ x = 0 then (if s then '╔' else '┌') else c) =
    if y = 0 ∨ y = h - 1 ∨ x = 0 ∨ x = w - 1 then frameRune s h w y x else c := by
  unfold frameRune
  by_cases a1 : y = 0
  · have n1 : ¬ (1 ≤ y ∧ y < h - 1) := by omega
    have n2 : ¬ y = h - 1 := by omega
    rw [if_neg (fun k => n1 k.2), if_pos (Or.inl a1), if_pos a1]
    by_cases b1 : x = 0
    · rw [if_neg (by omega), if_neg (by omega), if_neg (by omega), if_neg (by omega), if_pos ⟨a1, b1⟩, if_pos b1]
    · by_cases b2 : x = w - 1
      · rw [if_neg (by omega), if_neg (by omega), if_neg (by omega), if_pos ⟨a1, b2⟩, if_neg b1, if_pos b2]
      · rw [if_pos (by omega), if_neg b1, if_neg b2]
  · by_cases a2 : y = h - 1
    · have n1 : ¬ (1 ≤ y ∧ y < h - 1) := by omega
      rw [if_neg (fun k => n1 k.2), if_pos (c := y = 0 ∨ y = h - 1 ∨ x = 0 ∨ x = w - 1) (Or.inr (Or.inl a2)), if_neg a1, if_pos a2]
      by_cases b1 : x = 0
      · rw [if_neg (by omega), if_neg (by omega), if_pos ⟨a2, b1⟩, if_pos b1]
      · by_cases b2 : x = w - 1
        · rw [if_neg (by omega), if_pos ⟨a2, b2⟩, if_neg b1, if_pos b2]
        · rw [if_pos (by omega), if_neg b1, if_neg b2]
    · rw [if_neg a1, if_neg a2]
      by_cases b : x = 0 ∨ x = w - 1
      · rw [if_pos ⟨b, by omega, by omega⟩, if_pos (Or.inr (Or.inr b))]
      · rw [if_neg (by omega), if_neg (by omega), if_neg (by omega), if_neg (by omega), if_neg (by omega), if_neg (by omega),
          if_neg (by omega)]

theorem pic_border {b : Bounds} {g : Grid} {F : Int → Int → Char} (s : Bool) (hs : Pictures g b.h b.w F) (h2 : 2 ≤ b.h)
    (w2 : 2 ≤ b.w) : ∃ g', drawBorder b s g = .ok g' ∧ Pictures g' b.h b.w (fun y x =>
      if y = 0 ∨ y = b.h - 1 ∨ x = 0 ∨ x = b.w - 1 then frameRune s b.h b.w y x else F y x) := by
  classical
  obtain ⟨r0, r1, r2, r3, r4, r5⟩ := borderRune_eq s
  unfold drawBorder
  rw [r0, r1, r2, r3, r4, r5]
  obtain ⟨g1, e1, s1⟩ := pic_set hs (if s then '╔' else '┌') (y := 0) (x := 0) (by omega) (by omega) (by omega) (by omega)
  obtain ⟨g2, e2, s2⟩ := pic_set s1 (if s then '╗' else '┐') (y := 0) (x := b.w - 1) (by omega) (by omega) (by omega) (by omega)
  obtain ⟨g3, e3, s3⟩ := pic_set s2 (if s then '╚' else '└') (y := b.h - 1) (x := 0) (by omega) (by omega) (by omega) (by omega)
  obtain ⟨g4, e4, s4⟩ := pic_set s3 (if s then '╝' else '┘') (y := b.h - 1) (x := b.w - 1) (by omega) (by omega) (by omega)
    (by omega)
  rw [e1, ok_bind, e2, ok_bind, e3, ok_bind, e4, ok_bind]
  obtain ⟨g5, e5, s5⟩ := pic_loop (h := b.h) (w := b.w) (fun (g : Grid) (i : Int) => do
      let g ← gridSet g 0 i (if s then '═' else '─')
      gridSet g (b.h - 1) i (if s then '═' else '─'))
    (fun i y x => (y = 0 ∨ y = b.h - 1) ∧ x = i) (fun _ _ => if s then '═' else '─') (intRange 1 (b.w - 1)) g4 _ s4 (by
      intro i hi g F hs
      rw [intRange_spec] at hi
      obtain ⟨a1, b1, c1⟩ := pic_set hs (if s then '═' else '─') (y := 0) (x := i) (by omega) (by omega) (by omega) (by omega)
      obtain ⟨a2, b2, c2⟩ := pic_set c1 (if s then '═' else '─') (y := b.h - 1) (x := i) (by omega) (by omega) (by omega) (by omega)
      refine ⟨a2, by rw [b1, ok_bind, b2], c2.congr ?_⟩
      intro y x _ _ _ _
      split_ifs <;> first | rfl | (exfalso; omega))
  rw [e5, ok_bind]
  obtain ⟨g6, e6, s6⟩ := pic_loop (h := b.h) (w := b.w) (fun (g : Grid) (i : Int) => do
      let g ← gridSet g i 0 (if s then '║' else '│')
      gridSet g i (b.w - 1) (if s then '║' else '│'))
    (fun i y x => (x = 0 ∨ x = b.w - 1) ∧ y = i) (fun _ _ => if s then '║' else '│') (intRange 1 (b.h - 1)) g5 _ s5 (by
      intro i hi g F hs
      rw [intRange_spec] at hi
      obtain ⟨a1, b1, c1⟩ := pic_set hs (if s then '║' else '│') (y := i) (x := 0) (by omega) (by omega) (by omega) (by omega)
      obtain ⟨a2, b2, c2⟩ := pic_set c1 (if s then '║' else '│') (y := i) (x := b.w - 1) (by omega) (by omega) (by omega) (by omega)
      refine ⟨a2, by rw [b1, ok_bind, b2], c2.congr ?_⟩
      intro y x _ _ _ _
      split_ifs <;> first | rfl | (exfalso; omega))
  refine ⟨g6, e6, s6.congr ?_⟩
  intro y x y0 y1 x0 x1
  have hv : (∃ i ∈ intRange 1 (b.h - 1), (x = 0 ∨ x = b.w - 1) ∧ y = i) ↔
      (x = 0 ∨ x = b.w - 1) ∧ 1 ≤ y ∧ y < b.h - 1 := by
    constructor
    · rintro ⟨i, hi, h1, rfl⟩
      rw [intRange_spec] at hi
      exact ⟨h1, by omega, by omega⟩
    · rintro ⟨h1, h2, h3⟩
      exact ⟨y, by rw [intRange_spec]; omega, h1, rfl⟩
  have hh : (∃ i ∈ intRange 1 (b.w - 1), (y = 0 ∨ y = b.h - 1) ∧ x = i) ↔
      (y = 0 ∨ y = b.h - 1) ∧ 1 ≤ x ∧ x < b.w - 1 := by
    constructor
    · rintro ⟨i, hi, h1, rfl⟩
      rw [intRange_spec] at hi
      exact ⟨h1, by omega, by omega⟩
    · rintro ⟨h1, h2, h3⟩
      exact ⟨x, by rw [intRange_spec]; omega, h1, rfl⟩
  simp only [hv, hh]
  exact frame_cases s h2 w2 y0 y1 x0 x1 _

theorem labelWidth_eq (v : NVar) : (stateLength v : Int) = labelWidth v := by
  have key : ∀ (l : List String) (m : Nat), l.foldl (fun m s => if s.length > m then s.length else m) m =
      max m ((l.map String.length).foldr max 0) := by
    intro l
    induction l with
    | nil => intro m; simp
    | cons s l ih =>
      intro m
      rw [List.foldl_cons, ih, List.map_cons, List.foldr_cons]
      split_ifs <;> omega
  unfold stateLength labelWidth
  rw [key]
  omega

theorem boxSize_eq (v : NVar) : (nodeBounds v).w = boxWidth v ∧ (nodeBounds v).h = boxHeight v := by
  unfold nodeBounds boxWidth boxHeight
  rw [← labelWidth_eq]
  constructor
  · split_ifs <;> push_cast <;> omega
  · rfl

/-- Writing a text that has room. -/
theorem withText_letter {F : Int → Int → Char} {y a b k : Int} {s : String} (hk : (s.toList.length : Int) = k) (hb : a + k ≤ b)
    (y' x' : Int) : withText F y a b s.toList y' x' =
      if y' = y ∧ a ≤ x' ∧ x' < a + k then letter s (x' - a) else F y' x' := by
  unfold withText
  by_cases h : y' = y ∧ a ≤ x' ∧ x' < a + k
  · rw [if_pos h, if_pos ⟨h.1, h.2.1, by omega, by omega⟩, letter_eq s h.2.1]
  · rw [if_neg h, if_neg (by omega)]

theorem pic_bar {fm : Fmt α} {g : Grid} {h w barsX : Int} {F : Int → Int → Char} {i : Nat} {p : Option α}
    (hs : Pictures g h w F) (hb : fm.Bar p) (ht : (percentText fm p).length = 7) (hi : (i : Int) + 2 < h) (b0 : 0 ≤ barsX)
    (b1 : barsX + 18 ≤ w) : ∃ g', drawBar fm barsX g i p = .ok g' ∧ Pictures g' h w (fun y x =>
      if y = (i : Int) + 2 ∧ barsX ≤ x ∧ x < barsX + 10 then barRune fm p (x - barsX)
      else if y = (i : Int) + 2 ∧ barsX + 11 ≤ x ∧ x < barsX + 18 then letter (percentText fm p) (x - (barsX + 11))
      else F y x) := by
  have key : ∀ full frac : Int, 0 ≤ full → frac ≤ 6 → (full < 10 ∨ (full = 10 ∧ frac ≤ 0)) →
      (∀ j, 0 ≤ j → j < 10 → barRune fm p j = if j < full then '█' else if j = full ∧ 0 < frac
        then partialRunes.getD frac.toNat ' ' else '░') →
      ∃ g', (do
        let g ← (intRange 0 full).foldlM (fun g j => gridSet g (i + 2) (barsX + j) '█') g
        let (g, full) ← (if frac > 0 then do
          let c ← goGetI partialRunes frac
          let g ← gridSet g (i + 2) (barsX + full) c
          return (g, full + 1)
        else return (g, full) : Except Fault (Grid × Int))
        let g ← (intRange full 10).foldlM (fun g j => gridSet g (i + 2) (barsX + j) '░') g
        gridCopyFrom g (i + 2) (barsX + 10 + 1) (percentText fm p).toList) = .ok g' ∧ Pictures g' h w (fun y x =>
      if y = (i : Int) + 2 ∧ barsX ≤ x ∧ x < barsX + 10 then barRune fm p (x - barsX)
      else if y = (i : Int) + 2 ∧ barsX + 11 ≤ x ∧ x < barsX + 18 then letter (percentText fm p) (x - (barsX + 11))
      else F y x) := by
    intro full frac f0 f6 hf hbar
    obtain ⟨g1, e1, s1⟩ := pic_run (x0 := barsX) (lo := 0) (hi := full) hs '█' (y := (i : Int) + 2) (by omega) (by omega)
      (by omega) (by omega)
    rw [e1, ok_bind]
    have tail : ∀ (g2 : Grid) (full' : Int) (G : Int → Int → Char), Pictures g2 h w G → 0 ≤ full' → full' ≤ 10 →
        (∀ y x, ¬ (y = (i : Int) + 2 ∧ barsX ≤ x ∧ x < barsX + 10) → G y x = F y x) →
        (∀ x, barsX ≤ x → x < barsX + full' → G ((i : Int) + 2) x = barRune fm p (x - barsX)) →
        (∀ x, barsX + full' ≤ x → x < barsX + 10 → barRune fm p (x - barsX) = '░') →
        ∃ g', (do
          let g ← (intRange full' 10).foldlM (fun g j => gridSet g (i + 2) (barsX + j) '░') g2
          gridCopyFrom g (i + 2) (barsX + 10 + 1) (percentText fm p).toList) = .ok g' ∧ Pictures g' h w (fun y x =>
            if y = (i : Int) + 2 ∧ barsX ≤ x ∧ x < barsX + 10 then barRune fm p (x - barsX)
            else if y = (i : Int) + 2 ∧ barsX + 11 ≤ x ∧ x < barsX + 18 then letter (percentText fm p) (x - (barsX + 11))
            else F y x) := by
      intro g2 full' G s2 f0 f10 hout hin hrest
      obtain ⟨g3, e3, s3⟩ := pic_run (x0 := barsX) (lo := full') (hi := 10) s2 '░' (y := (i : Int) + 2) (by omega) (by omega)
        (by omega) (by omega)
      obtain ⟨g4, e4, s4⟩ := pic_copyFrom (y := (i : Int) + 2) (a := barsX + 10 + 1) s3 (percentText fm p).toList (by omega) (by omega)
        (by omega) (by omega)
      refine ⟨g4, by rw [e3, ok_bind, e4], s4.congr ?_⟩
      intro y x _ _ _ _
      rw [withText_letter (k := 7) (by rw [String.length_toList, ht]; rfl) (by omega)]
      by_cases c1 : y = (i : Int) + 2 ∧ barsX ≤ x ∧ x < barsX + 10
      · rw [if_pos c1, if_neg (by omega)]
        by_cases c2 : x < barsX + full'
        · rw [if_neg (by omega), c1.1]
          exact hin x c1.2.1 c2
        · rw [if_pos ⟨c1.1, by omega, c1.2.2⟩, hrest x (by omega) c1.2.2]
      · rw [if_neg c1]
        by_cases c3 : y = (i : Int) + 2 ∧ barsX + 11 ≤ x ∧ x < barsX + 18
        · rw [if_pos c3, if_pos ⟨c3.1, by omega, by omega⟩]
          congr 1
          omega
        · rw [if_neg c3, if_neg (by omega), if_neg (by omega)]
          exact hout y x c1
    by_cases hz : frac > 0
    · obtain ⟨c, hc, _, hc'⟩ := goGetI_in (l := partialRunes) (i := frac) (by omega) (by show frac < (7 : Nat); omega)
      have hcD : partialRunes.getD frac.toNat ' ' = c := by rw [List.getD_eq_getElem?_getD, hc']; rfl
      obtain ⟨g2, e2, s2⟩ := pic_set s1 c (y := (i : Int) + 2) (x := barsX + full) (by omega) (by omega) (by omega) (by omega)
      obtain ⟨g3, e3, d3⟩ := tail g2 (full + 1) _ s2 (by omega) (by omega) (by
          intro y x hn
          rw [if_neg (by omega), if_neg (by omega)]) (by
          intro x x0 x1
          rw [hbar _ (by omega) (by omega)]
          by_cases hx : x - barsX < full
          · rw [if_neg (by omega), if_pos ⟨rfl, by omega, by omega⟩, if_pos hx]
          · rw [if_pos ⟨rfl, by omega⟩, if_neg hx, if_pos ⟨by omega, hz⟩, hcD]) (by
          intro x x0 x1
          rw [hbar _ (by omega) (by omega), if_neg (by omega), if_neg (by omega)])
      refine ⟨g3, ?_, d3⟩
      rw [if_pos hz, hc, ok_bind, e2, ok_bind]
      exact e3
    · obtain ⟨g3, e3, d3⟩ := tail g1 full _ s1 (by omega) (by omega) (by
          intro y x hn
          rw [if_neg (by omega)]) (by
          intro x x0 x1
          rw [hbar _ (by omega) (by omega), if_pos ⟨rfl, by omega, by omega⟩, if_pos (by omega)]) (by
          intro x x0 x1
          rw [hbar _ (by omega) (by omega), if_neg (by omega), if_neg (by omega)])
      refine ⟨g3, ?_, d3⟩
      rw [if_neg hz]
      exact e3
  cases p with
  | none =>
    exact key 0 0 (by omega) (by omega) (by omega) (by
      intro j j0 _
      rw [if_neg (by omega), if_neg (by omega)]
      rfl)
  | some x =>
    obtain ⟨h1, h2, h3⟩ := hb x rfl
    exact key _ _ h1 h2 h3 (fun j _ _ => rfl)

theorem pic_marks {b : Bounds} {g : Grid} {h : Int} {F : Int → Int → Char} {i : Nat} (l : Look α) (hs : Pictures g h b.w F)
    (hi : (i : Int) + 2 < h) (hw : 4 ≤ b.w) : ∃ g', drawMarks b l.selected l.state l.evidence g i = .ok g' ∧
      Pictures g' h b.w (fun y x => if y = (i : Int) + 2 ∧ x = 1 then markRune l i '['
        else if y = (i : Int) + 2 ∧ x = b.w - 2 then markRune l i ']' else F y x) := by
  have key : ∀ c d : Char, ∃ g', (do
      let g ← gridSet g (i + 2) 1 c
      gridSet g (i + 2) (b.w - 2) d) = .ok g' ∧ Pictures g' h b.w (fun y x => if y = (i : Int) + 2 ∧ x = 1 then c
        else if y = (i : Int) + 2 ∧ x = b.w - 2 then d else F y x) := by
    intro c d
    obtain ⟨g1, e1, s1⟩ := pic_set hs c (y := (i : Int) + 2) (x := 1) (by omega) (by omega) (by omega) (by omega)
    obtain ⟨g2, e2, s2⟩ := pic_set s1 d (y := (i : Int) + 2) (x := b.w - 2) (by omega) (by omega) (by omega) (by omega)
    refine ⟨g2, by rw [e1, ok_bind, e2], s2.congr ?_⟩
    intro y x _ _ _ _
    by_cases h1 : y = (i : Int) + 2 ∧ x = 1
    · rw [if_neg (by omega), if_pos h1, if_pos h1]
    · rw [if_neg h1, if_neg h1]
  unfold drawMarks
  have hc : ∀ sel : Char, markRune l i sel = (if l.selected && l.state == (i : Int) then sel else if l.evidence then '+' else ' ') := by
    intro sel
    unfold markRune
    simp only [Bool.and_eq_true, beq_iff_eq]
  rw [hc, hc]
  by_cases h1 : (l.selected && l.state == (i : Int)) = true
  · simp only [h1, if_true]; exact key _ _
  · by_cases h2 : l.evidence = true
    · simp only [h1, h2]; exact key _ _
    · simp only [h1, h2]; exact key _ _

/-! ## A whole box -/

/-- The cells of line `i` that hold a number, a bar or a mark. -/
def LineCell (v : NVar) (x : Int) : Prop :=
  if v.nodeType = .utility then barsColumn v + 1 ≤ x ∧ x < barsColumn v + 13
  else x = 1 ∨ x = boxWidth v - 2 ∨ (barsColumn v ≤ x ∧ x < barsColumn v + 10) ∨
    (barsColumn v + 11 ≤ x ∧ x < barsColumn v + 18)

/-- The cells that show the node's numbers and marks, if there are `k` numbers. -/
def NumberCell (v : NVar) (k : Nat) (y x : Int) : Prop := 2 ≤ y ∧ y < (k : Int) + 2 ∧ LineCell v x

/-- The cells of the frame. -/
def FrameCell (v : NVar) (y x : Int) : Prop := y = 0 ∨ y = boxHeight v - 1 ∨ x = 0 ∨ x = boxWidth v - 1

theorem boxWidth_ge (v : NVar) : 0 ≤ labelWidth v ∧
    boxWidth v ≥ labelWidth v + (if v.nodeType = .utility then 18 else 23) := by
  refine ⟨by unfold labelWidth; omega, ?_⟩
  unfold boxWidth
  split_ifs <;> omega

open Classical in
theorem pic_bars {fm : Fmt α} {n : TNode α} {g : Grid} {l : Look α} {F : Int → Int → Char}
    (hu : n.var.nodeType ≠ .utility) (hw : n.bounds.w = boxWidth n.var) (hB : n.barsX = barsColumn n.var)
    (hs : Pictures g (boxHeight n.var) (boxWidth n.var) F) (hf : l.Fits fm n.var) :
    ∃ g', n.drawBars fm l.values l.selected l.state l.evidence g = .ok g' ∧
      Pictures g' (boxHeight n.var) (boxWidth n.var) (fun y x =>
        if NumberCell n.var l.values.length y x then lineRune fm n.var l (y - 2).toNat x else F y x) := by
  unfold Look.Fits at hf
  rw [if_neg hu] at hf
  obtain ⟨hlen, htext⟩ := hf
  obtain ⟨w0, w1⟩ := boxWidth_ge n.var
  rw [if_neg hu] at w1
  have hBd : barsColumn n.var = labelWidth n.var + 3 := rfl
  have hH : boxHeight n.var = n.var.outcomes.length + 3 := by unfold boxHeight; rw [if_neg hu]; omega
  unfold TNode.drawBars
  obtain ⟨g', e, s⟩ := pic_loop (h := boxHeight n.var) (w := boxWidth n.var) (fun (g : Grid) (p : Option α × Nat) => do
      let g ← drawBar fm n.barsX g p.2 p.1
      drawMarks n.bounds l.selected l.state l.evidence g p.2)
    (fun p y x => y = (p.2 : Int) + 2 ∧ LineCell n.var x) (fun y x => lineRune fm n.var l (y - 2).toNat x) l.values.zipIdx g F hs (by
      intro p hm g F hs
      have hp : l.values[p.2]? = some p.1 := List.mem_zipIdx_iff_getElem?.1 hm
      have hlt := (List.getElem?_eq_some_iff.1 hp).1
      have hpm : p.1 ∈ l.values := List.mem_of_getElem? hp
      obtain ⟨g1, e1, s1⟩ := pic_bar (fm := fm) (i := p.2) (p := p.1) (barsX := n.barsX) hs
        (by intro a ha; exact (htext a (ha ▸ hpm)).2)
        (by
          rcases hq : p.1 with _ | a
          · show ("    ???" : String).length = 7
            decide
          · exact (htext a (hq ▸ hpm)).1)
        (by omega) (by omega) (by omega)
      rw [← hw] at s1
      obtain ⟨g2, e2, s2⟩ := pic_marks (i := p.2) l s1 (by omega) (by omega)
      rw [hw] at s2
      refine ⟨g2, by rw [e1, ok_bind, e2], s2.congr ?_⟩
      intro y x _ _ _ _
      rw [hB]
      unfold LineCell
      rw [if_neg hu]
      by_cases hy : y = (p.2 : Int) + 2
      · have hi : (y - 2).toNat = p.2 := by omega
        rw [hi]
        unfold lineRune
        rw [hp]
        dsimp only
        rw [if_neg hu]
        by_cases c1 : x = 1
        · rw [if_pos ⟨hy, c1⟩, if_pos ⟨hy, .inl c1⟩, if_neg (by omega), if_pos c1]
        · rw [if_neg (by omega)]
          by_cases c2 : x = boxWidth n.var - 2
          · rw [if_pos ⟨hy, c2⟩, if_pos ⟨hy, .inr (.inl c2)⟩, if_neg (by omega), if_neg c1, if_pos c2]
          · rw [if_neg (by omega)]
            by_cases c3 : barsColumn n.var ≤ x ∧ x < barsColumn n.var + 10
            · rw [if_pos ⟨hy, c3⟩, if_pos ⟨hy, .inr (.inr (.inl c3))⟩, if_neg (by omega), if_neg c1, if_neg c2, if_pos c3]
            · rw [if_neg (by omega)]
              by_cases c4 : barsColumn n.var + 11 ≤ x ∧ x < barsColumn n.var + 18
              · rw [if_pos ⟨hy, c4⟩, if_pos ⟨hy, .inr (.inr (.inr c4))⟩, if_neg (by omega), if_neg c1, if_neg c2, if_neg c3, if_pos c4]
              · rw [if_neg (by omega), if_neg (by omega)]
      · rw [if_neg (by omega), if_neg (by omega), if_neg (by omega), if_neg (by omega), if_neg (by omega)])
  refine ⟨g', e, s.congr ?_⟩
  intro y x _ _ _ _
  have : (∃ p ∈ l.values.zipIdx, y = (p.2 : Int) + 2 ∧ LineCell n.var x) ↔ NumberCell n.var l.values.length y x := by
    unfold NumberCell
    constructor
    · rintro ⟨p, hm, hy, hx⟩
      have := List.snd_lt_of_mem_zipIdx hm
      exact ⟨by omega, by omega, hx⟩
    · rintro ⟨h1, h2, hx⟩
      have hlt : (y - 2).toNat < l.values.length := by omega
      exact ⟨(l.values[(y - 2).toNat], (y - 2).toNat), List.mem_zipIdx_iff_getElem?.2 (List.getElem?_eq_getElem hlt),
        by dsimp only; omega, hx⟩
  by_cases hc : NumberCell n.var l.values.length y x
  · rw [if_pos hc, if_pos (this.2 hc)]
  · rw [if_neg hc, if_neg (fun k => hc (this.1 k))]

open Classical in
theorem pic_utility {fm : Fmt α} {n : TNode α} {g : Grid} {l : Look α} {F : Int → Int → Char}
    (hu : n.var.nodeType = .utility) (hB : n.barsX = barsColumn n.var)
    (hs : Pictures g (boxHeight n.var) (boxWidth n.var) F) (hf : l.Fits fm n.var) :
    ∃ g', n.drawUtility fm l.values g = .ok g' ∧
      Pictures g' (boxHeight n.var) (boxWidth n.var) (fun y x =>
        if NumberCell n.var l.values.length y x then lineRune fm n.var l (y - 2).toNat x else F y x) := by
  unfold Look.Fits at hf
  rw [if_pos hu] at hf
  obtain ⟨hlen, htext⟩ := hf
  obtain ⟨w0, w1⟩ := boxWidth_ge n.var
  rw [if_pos hu] at w1
  have hBd : barsColumn n.var = labelWidth n.var + 3 := rfl
  have hH : boxHeight n.var = n.var.outcomes.length + 4 := by unfold boxHeight; rw [if_pos hu]; omega
  unfold TNode.drawUtility
  obtain ⟨g', e, s⟩ := pic_loop (h := boxHeight n.var) (w := boxWidth n.var) (fun (g : Grid) (p : Option α × Nat) =>
      gridCopyFrom g (p.2 + 2) (n.barsX + 1) ((p.1.map fm.utility).getD "         ???").toList)
    (fun p y x => y = (p.2 : Int) + 2 ∧ LineCell n.var x) (fun y x => lineRune fm n.var l (y - 2).toNat x) l.values.zipIdx g F hs (by
      intro p hm g F hs
      have hp : l.values[p.2]? = some p.1 := List.mem_zipIdx_iff_getElem?.1 hm
      have hlt := (List.getElem?_eq_some_iff.1 hp).1
      have hpm : p.1 ∈ l.values := List.mem_of_getElem? hp
      have ht : (p.1.map fm.utility).getD "         ???" = utilityText fm p.1 := by cases p.1 <;> rfl
      have hl12 : (utilityText fm p.1).length = 12 := by
        rcases hq : p.1 with _ | a
        · show ("         ???" : String).length = 12
          decide
        · exact htext a (hq ▸ hpm)
      rw [ht, hB]
      obtain ⟨g1, e1, s1⟩ := pic_copyFrom (y := (p.2 : Int) + 2) (a := barsColumn n.var + 1) hs (utilityText fm p.1).toList
        (by omega) (by omega) (by omega) (by omega)
      refine ⟨g1, e1, s1.congr ?_⟩
      intro y x _ _ _ _
      rw [withText_letter (k := 12) (by rw [String.length_toList, hl12]; rfl) (by omega)]
      unfold LineCell
      rw [if_pos hu]
      by_cases hc : y = (p.2 : Int) + 2 ∧ barsColumn n.var + 1 ≤ x ∧ x < barsColumn n.var + 13
      · have hi : (y - 2).toNat = p.2 := by omega
        rw [if_pos hc, if_pos ⟨hc.1, hc.2.1, by omega⟩, hi]
        unfold lineRune
        rw [hp]
        dsimp only
        rw [if_pos hu, if_neg (by omega), if_pos hc.2]
      · rw [if_neg hc, if_neg (by omega)])
  refine ⟨g', e, s.congr ?_⟩
  intro y x _ _ _ _
  have : (∃ p ∈ l.values.zipIdx, y = (p.2 : Int) + 2 ∧ LineCell n.var x) ↔ NumberCell n.var l.values.length y x := by
    unfold NumberCell
    constructor
    · rintro ⟨p, hm, hy, hx⟩
      have := List.snd_lt_of_mem_zipIdx hm
      exact ⟨by omega, by omega, hx⟩
    · rintro ⟨h1, h2, hx⟩
      have hlt : (y - 2).toNat < l.values.length := by omega
      exact ⟨(l.values[(y - 2).toNat], (y - 2).toNat), List.mem_zipIdx_iff_getElem?.2 (List.getElem?_eq_getElem hlt),
        by dsimp only; omega, hx⟩
  by_cases hc : NumberCell n.var l.values.length y x
  · rw [if_pos hc, if_pos (this.2 hc)]
  · rw [if_neg hc, if_neg (fun k => hc (this.1 k))]

/-- The cells that are drawn once, when the node is made, are right, for a node with `k` numbers. -/
def Prepared (v : NVar) (k : Nat) (F : Int → Int → Char) : Prop :=
  ∀ (fm : Fmt α) (l : Look α), l.values.length = k → ∀ y x, 0 < y → y < boxHeight v - 1 → 0 < x → x < boxWidth v - 1 →
    ¬ NumberCell v k y x → F y x = boxRune fm v l y x

/-- A node's sizes are those of its box. -/
structure TNode.Sized (n : TNode α) : Prop where
  w : n.bounds.w = boxWidth n.var
  h : n.bounds.h = boxHeight n.var
  barsX : n.barsX = barsColumn n.var

theorem boxRune_inside {fm : Fmt α} {v : NVar} {l : Look α} {y x : Int} (y2 : 2 ≤ y) (h : ¬ FrameCell v y x) :
    boxRune fm v l y x = lineRune fm v l (y - 2).toNat x := by
  unfold boxRune
  unfold FrameCell at h
  rw [if_neg h, if_neg (by omega)]

theorem pic_render {fm : Fmt α} {n : TNode α} {l : Look α} {F : Int → Int → Char} (hn : n.Sized)
    (hs : Pictures n.runes (boxHeight n.var) (boxWidth n.var) F) (hF : Prepared (α := α) n.var l.values.length F)
    (hf : l.Fits fm n.var) :
    ∃ n', n.render fm l.values l.selected l.state l.evidence = .ok n' ∧ n'.var = n.var ∧ n'.bounds = n.bounds ∧
      n'.barsX = n.barsX ∧ n'.factor = n.factor ∧
      Pictures n'.runes (boxHeight n.var) (boxWidth n.var) (boxRune fm n.var l) := by
  classical
  obtain ⟨w0, w1⟩ := boxWidth_ge n.var
  have hw : boxWidth n.var ≥ labelWidth n.var + 18 := by split_ifs at w1 <;> omega
  have hh : boxHeight n.var ≥ 3 := by unfold boxHeight; split_ifs <;> omega
  have hk : (l.values.length : Int) + 3 ≤ boxHeight n.var := by
    unfold Look.Fits at hf
    unfold boxHeight
    split_ifs at hf ⊢ <;> omega
  have hs' := hs
  rw [← hn.w, ← hn.h] at hs'
  unfold TNode.render
  obtain ⟨g1, e1, s1⟩ := pic_border l.selected hs' (by rw [hn.h]; omega) (by rw [hn.w]; omega)
  rw [hn.w, hn.h] at s1
  rw [e1, ok_bind]
  have fin : ∀ {g2 : Grid}, Pictures g2 (boxHeight n.var) (boxWidth n.var) (fun y x =>
      if NumberCell n.var l.values.length y x then lineRune fm n.var l (y - 2).toNat x else
        if y = 0 ∨ y = boxHeight n.var - 1 ∨ x = 0 ∨ x = boxWidth n.var - 1 then
          frameRune l.selected (boxHeight n.var) (boxWidth n.var) y x else F y x) →
      Pictures g2 (boxHeight n.var) (boxWidth n.var) (boxRune fm n.var l) := by
    intro g2 s2
    refine s2.congr ?_
    intro y x y0 y1 x0 x1
    by_cases c1 : NumberCell n.var l.values.length y x
    · rw [if_pos c1]
      obtain ⟨d1, d2, d3⟩ := c1
      refine (boxRune_inside d1 ?_).symm
      have hBd : barsColumn n.var = labelWidth n.var + 3 := rfl
      unfold FrameCell
      unfold LineCell at d3
      split_ifs at d3 w1 <;> omega
    · rw [if_neg c1]
      by_cases c2 : y = 0 ∨ y = boxHeight n.var - 1 ∨ x = 0 ∨ x = boxWidth n.var - 1
      · rw [if_pos c2]
        unfold boxRune
        rw [if_pos c2]
      · rw [if_neg c2]
        exact hF fm l rfl y x (by omega) (by omega) (by omega) (by omega) c1
  dsimp only
  split_ifs with hu
  · obtain ⟨g2, e2, s2⟩ := pic_utility hu hn.barsX s1 hf
    exact ⟨{ n with runes := g2 }, by rw [e2]; rfl, rfl, rfl, rfl, rfl, fin s2⟩
  · obtain ⟨g2, e2, s2⟩ := pic_bars hu hn.w hn.barsX s1 hf
    exact ⟨{ n with runes := g2 }, by rw [e2]; rfl, rfl, rfl, rfl, rfl, fin s2⟩

/-- A box that was drawn is prepared for being drawn again, with as many numbers. -/
theorem prepared_again (fm : Fmt α) (v : NVar) (l : Look α) : Prepared (α := α) v l.values.length (boxRune fm v l) := by
  intro fm' l' hl y x y0 y1 x0 x1 hc
  unfold boxRune
  have hfr : ¬ (y = 0 ∨ y = boxHeight v - 1 ∨ x = 0 ∨ x = boxWidth v - 1) := by omega
  rw [if_neg hfr, if_neg hfr]
  by_cases c1 : y = 1
  · rw [if_pos c1, if_pos c1]
  · rw [if_neg c1, if_neg c1]
    unfold lineRune
    by_cases c2 : 2 ≤ x ∧ x < barsColumn v - 1
    · rw [if_pos c2, if_pos c2]
    · rw [if_neg c2, if_neg c2]
      by_cases hlt : (y - 2).toNat < l.values.length
      · have hx : ¬ LineCell v x := fun hx => hc ⟨by omega, by omega, hx⟩
        rw [List.getElem?_eq_getElem hlt, List.getElem?_eq_getElem (by omega)]
        dsimp only
        unfold LineCell at hx
        split_ifs at hx ⊢ <;> first | rfl | (exfalso; omega)
      · rw [List.getElem?_eq_none (by omega), List.getElem?_eq_none (by omega)]

theorem pic_blank (h w : Int) (c : Char) (h0 : 0 ≤ h) (w0 : 0 ≤ w) :
    Pictures (List.replicate h.toNat (List.replicate w.toNat c)) h w (fun _ _ => c) := by
  obtain ⟨h1, h2⟩ := hasDims_replicate h w c h0 w0
  refine ⟨h1, h2, ?_⟩
  intro y x row d hy hx
  have hr := List.eq_of_mem_replicate (List.mem_of_getElem? hy)
  subst hr
  exact List.eq_of_mem_replicate (List.mem_of_getElem? hx)

theorem pic_newNode {v : NVar} {f : Option (NFactor α)} {n : TNode α} (h : newNode v f = .ok n) (k : Nat) :
    n.var = v ∧ n.Sized ∧ ∃ F, Pictures n.runes (boxHeight v) (boxWidth v) F ∧ Prepared (α := α) v k F := by
  classical
  obtain ⟨hbw, hbh⟩ := boxSize_eq v
  obtain ⟨w0, w1⟩ := boxWidth_ge v
  have hw : boxWidth v ≥ labelWidth v + 18 := by split_ifs at w1 <;> omega
  have hh : boxHeight v ≥ v.outcomes.length + 3 := by unfold boxHeight; split_ifs <;> omega
  have hBd : barsColumn v = labelWidth v + 3 := rfl
  unfold newNode at h
  split_ifs at h
  dsimp only at h
  rw [hbw, hbh, labelWidth_eq] at h
  obtain ⟨g1, e1, s1⟩ := pic_border (b := nodeBounds v) false (by
    rw [hbw, hbh]; exact pic_blank (boxHeight v) (boxWidth v) ' ' (by omega) (by omega)) (by omega) (by omega)
  rw [e1, ok_bind] at h
  rw [hbw, hbh] at s1
  obtain ⟨g2, e2, s2⟩ : ∃ g2, drawTitle v (nodeBounds v) g1 = .ok g2 ∧ Pictures g2 (boxHeight v) (boxWidth v) (fun y x =>
      if y = 1 ∧ 0 < x ∧ x < boxWidth v - 1 then titleRune v x else
        if y = 0 ∨ y = boxHeight v - 1 ∨ x = 0 ∨ x = boxWidth v - 1 then
          frameRune false (boxHeight v) (boxWidth v) y x else ' ') := by
    obtain ⟨a1, b1, c1⟩ := pic_copy (y := 1) (a := 2) (b := boxWidth v - 2) s1 v.name.toList (by omega) (by omega) (by omega)
      (by omega) (by omega)
    have base : ∀ y x, 0 ≤ y → 0 ≤ x → x < boxWidth v → withText (fun y x => 
        if y = 0 ∨ y = boxHeight v - 1 ∨ x = 0 ∨ x = boxWidth v - 1 then
          frameRune false (boxHeight v) (boxWidth v) y x else ' ') 1 2 (boxWidth v - 2) v.name.toList y x =
        if y = 1 ∧ 0 < x ∧ x < boxWidth v - 1 then (if 2 ≤ x ∧ x < boxWidth v - 2 then letter v.name (x - 2) else ' ') else
        if y = 0 ∨ y = boxHeight v - 1 ∨ x = 0 ∨ x = boxWidth v - 1 then
          frameRune false (boxHeight v) (boxWidth v) y x else ' ' := by
      intro y x y0 x0 x1
      unfold withText
      beta_reduce
      by_cases c1 : y = 1 ∧ 0 < x ∧ x < boxWidth v - 1
      · rw [if_pos c1]
        by_cases c2 : 2 ≤ x ∧ x < boxWidth v - 2
        · rw [if_pos c2]
          by_cases c3 : x < 2 + (v.name.toList.length : Int)
          · rw [if_pos ⟨c1.1, c2.1, c2.2, c3⟩, letter_eq _ c2.1]
          · rw [if_neg (by omega), if_neg (by omega), letter_blank _ (by omega)]
        · rw [if_neg (by omega), if_neg (by omega), if_neg c2]
      · rw [if_neg (by omega), if_neg c1]
    unfold drawTitle
    rw [hbw, b1, ok_bind]
    cases hk : v.nodeType with
    | chance =>
      refine ⟨a1, rfl, c1.congr ?_⟩
      intro y x y0 y1 x0 x1
      rw [base y x y0 x0 x1]
      unfold titleRune
      rw [hk]
      simp
    | decision =>
      obtain ⟨a2, b2, c2⟩ := pic_set c1 '!' (y := 1) (x := boxWidth v - 3) (by omega) (by omega) (by omega) (by omega)
      refine ⟨a2, b2, c2.congr ?_⟩
      intro y x y0 y1 x0 x1
      rw [base y x y0 x0 x1]
      unfold titleRune
      rw [hk]
      by_cases d1 : y = 1 ∧ x = boxWidth v - 3
      · rw [if_pos d1, if_pos (by omega), if_pos ⟨d1.2, rfl⟩]
      · rw [if_neg d1]
        by_cases d2 : y = 1 ∧ 0 < x ∧ x < boxWidth v - 1
        · have n1 : ¬ (x = boxWidth v - 3 ∧ NodeType.decision = .decision) := by rintro ⟨k, _⟩; omega
          have n2 : ¬ (x = boxWidth v - 3 ∧ NodeType.decision = .utility) := by rintro ⟨k, _⟩; omega
          rw [if_pos d2, if_pos d2, if_neg n1, if_neg n2]
        · rw [if_neg d2, if_neg d2]
    | utility =>
      obtain ⟨a2, b2, c2⟩ := pic_set c1 '$' (y := 1) (x := boxWidth v - 3) (by omega) (by omega) (by omega) (by omega)
      refine ⟨a2, b2, c2.congr ?_⟩
      intro y x y0 y1 x0 x1
      rw [base y x y0 x0 x1]
      unfold titleRune
      rw [hk]
      by_cases d1 : y = 1 ∧ x = boxWidth v - 3
      · rw [if_pos d1, if_pos (by omega), if_neg (by simp), if_pos ⟨d1.2, rfl⟩]
      · rw [if_neg d1]
        by_cases d2 : y = 1 ∧ 0 < x ∧ x < boxWidth v - 1
        · have n1 : ¬ (x = boxWidth v - 3 ∧ NodeType.utility = .decision) := by rintro ⟨k, _⟩; omega
          have n2 : ¬ (x = boxWidth v - 3 ∧ NodeType.utility = .utility) := by rintro ⟨k, _⟩; omega
          rw [if_pos d2, if_pos d2, if_neg n1, if_neg n2]
        · rw [if_neg d2, if_neg d2]
  rw [e2, ok_bind] at h
  obtain ⟨g3, e3, G, s3, hG⟩ : ∃ g3, drawStateLabels v (labelWidth v + 3) g2 = .ok g3 ∧ ∃ G, Pictures g3 (boxHeight v) (boxWidth v) G ∧
      ∀ y x, 0 < y → y < boxHeight v - 1 → 0 < x → x < boxWidth v - 1 → G y x =
        if y = 1 then titleRune v x else if 2 ≤ x ∧ x < barsColumn v - 1 then letter (lineLabel v (y - 2).toNat) (x - 2) else ' ' := by
    unfold drawStateLabels
    rw [← hBd]
    obtain ⟨a1, b1, c1⟩ := pic_loop (h := boxHeight v) (w := boxWidth v)
      (fun (g : Grid) (p : String × Nat) => gridCopy g (p.2 + 2) 2 (barsColumn v - 1) p.1.toList)
      (fun p y x => y = (p.2 : Int) + 2 ∧ 2 ≤ x ∧ x < barsColumn v - 1 ∧ x < 2 + (p.1.toList.length : Int))
      (fun y x => letter (lineLabel v (y - 2).toNat) (x - 2)) v.outcomes.zipIdx g2 _ s2 (by
        intro p hm g F hs
        have hp : v.outcomes[p.2]? = some p.1 := List.mem_zipIdx_iff_getElem?.1 hm
        have hlt := (List.getElem?_eq_some_iff.1 hp).1
        obtain ⟨a, b, c⟩ := pic_copy (y := (p.2 : Int) + 2) (a := 2) (b := barsColumn v - 1) hs p.1.toList (by omega) (by omega)
          (by omega) (by omega) (by omega)
        refine ⟨a, b, c.congr ?_⟩
        intro y x _ _ _ _
        unfold withText
        by_cases d : y = (p.2 : Int) + 2 ∧ 2 ≤ x ∧ x < barsColumn v - 1 ∧ x < 2 + (p.1.toList.length : Int)
        · rw [if_pos d, if_pos d]
          have hi : (y - 2).toNat = p.2 := by omega
          have hll : lineLabel v (y - 2).toNat = p.1 := by unfold lineLabel; rw [hi, hp]; rfl
          rw [hll, letter_eq _ d.2.1]
        · rw [if_neg d, if_neg d])
    rw [b1, ok_bind]
    have hwrite : ∀ y x, (∃ p ∈ v.outcomes.zipIdx, y = (p.2 : Int) + 2 ∧ 2 ≤ x ∧ x < barsColumn v - 1 ∧
        x < 2 + (p.1.toList.length : Int)) → ∃ i : Nat, y = (i : Int) + 2 ∧ i < v.outcomes.length ∧ 2 ≤ x ∧ x < barsColumn v - 1 := by
      rintro y x ⟨p, hm, h1, h2, h3, _⟩
      exact ⟨p.2, h1, by have := List.snd_lt_of_mem_zipIdx hm; omega, h2, h3⟩
    have hmiss : ∀ y x, 2 ≤ y → y < (v.outcomes.length : Int) + 2 → 2 ≤ x → x < barsColumn v - 1 →
        ¬ (∃ p ∈ v.outcomes.zipIdx, y = (p.2 : Int) + 2 ∧ 2 ≤ x ∧ x < barsColumn v - 1 ∧ x < 2 + (p.1.toList.length : Int)) →
        letter (lineLabel v (y - 2).toNat) (x - 2) = ' ' := by
      intro y x y0 y1 x0 x1 hn
      have hlt : (y - 2).toNat < v.outcomes.length := by omega
      apply letter_blank
      by_contra hc
      refine hn ⟨(v.outcomes[(y - 2).toNat], (y - 2).toNat), List.mem_zipIdx_iff_getElem?.2 (List.getElem?_eq_getElem hlt), ?_,
        x0, x1, ?_⟩
      · dsimp only; omega
      · have : lineLabel v (y - 2).toNat = v.outcomes[(y - 2).toNat] := by
          unfold lineLabel; rw [List.getElem?_eq_getElem hlt]; rfl
        rw [this] at hc
        dsimp only
        omega
    have first : ∀ y x, 0 < y → y < (v.outcomes.length : Int) + 2 → 0 < x → x < boxWidth v - 1 →
        (if ∃ p ∈ v.outcomes.zipIdx, y = (p.2 : Int) + 2 ∧ 2 ≤ x ∧ x < barsColumn v - 1 ∧ x < 2 + (p.1.toList.length : Int)
          then letter (lineLabel v (y - 2).toNat) (x - 2)
          else if y = 1 ∧ 0 < x ∧ x < boxWidth v - 1 then titleRune v x else
            if y = 0 ∨ y = boxHeight v - 1 ∨ x = 0 ∨ x = boxWidth v - 1 then
            frameRune false (boxHeight v) (boxWidth v) y x else ' ') =
        if y = 1 then titleRune v x else if 2 ≤ x ∧ x < barsColumn v - 1 then letter (lineLabel v (y - 2).toNat) (x - 2) else ' ' := by
      intro y x y0 y1 x0 x1
      by_cases d : ∃ p ∈ v.outcomes.zipIdx, y = (p.2 : Int) + 2 ∧ 2 ≤ x ∧ x < barsColumn v - 1 ∧ x < 2 + (p.1.toList.length : Int)
      · obtain ⟨i, h1, h2, h3, h4⟩ := hwrite y x d
        rw [if_pos d, if_neg (by omega), if_pos ⟨h3, h4⟩]
      · rw [if_neg d]
        by_cases d2 : y = 1
        · rw [if_pos ⟨d2, x0, x1⟩, if_pos d2]
        · rw [if_neg (by omega), if_neg d2, if_neg (by omega)]
          by_cases d3 : 2 ≤ x ∧ x < barsColumn v - 1
          · rw [if_pos d3, hmiss y x (by omega) y1 d3.1 d3.2 d]
          · rw [if_neg d3]
    by_cases hu : v.nodeType = .utility
    · have hH : boxHeight v = v.outcomes.length + 4 := by unfold boxHeight; rw [if_pos hu]; omega
      rw [if_pos hu]
      obtain ⟨a2, b2, c2⟩ := pic_copy (y := (v.outcomes.length : Int) + 2) (a := 2) (b := barsColumn v - 1) c1 "total".toList
        (by omega) (by omega) (by omega) (by omega) (by omega)
      refine ⟨a2, b2, _, c2, ?_⟩
      intro y x y0 y1 x0 x1
      unfold withText
      beta_reduce
      by_cases d : y = (v.outcomes.length : Int) + 2
      · have hn : ¬ ∃ p ∈ v.outcomes.zipIdx, y = (p.2 : Int) + 2 ∧ 2 ≤ x ∧ x < barsColumn v - 1 ∧
            x < 2 + (p.1.toList.length : Int) := by
          intro hc
          obtain ⟨i, h1, h2, _⟩ := hwrite y x hc
          omega
        have hll : lineLabel v (y - 2).toNat = "total" := by
          unfold lineLabel
          rw [List.getElem?_eq_none (by omega)]
          rfl
        rw [if_neg hn, if_neg (c := y = 1) (by omega), hll]
        by_cases d3 : 2 ≤ x ∧ x < barsColumn v - 1
        · rw [if_pos d3]
          by_cases d4 : x < 2 + ("total".toList.length : Int)
          · rw [if_pos ⟨d, d3.1, d3.2, d4⟩, letter_eq _ d3.1]
          · rw [if_neg (by omega), if_neg (by omega), if_neg (by omega), letter_blank _ (by omega)]
        · rw [if_neg (by omega), if_neg (by omega), if_neg (by omega), if_neg d3]
      · rw [if_neg (by omega)]
        convert first y x y0 (by omega) x0 x1
    · have hH : boxHeight v = v.outcomes.length + 3 := by unfold boxHeight; rw [if_neg hu]; omega
      rw [if_neg hu]
      exact ⟨a1, rfl, _, c1, fun y x y0 y1 x0 x1 => by convert first y x y0 (by omega) x0 x1⟩
  rw [e3, ok_bind] at h
  cases h
  refine ⟨rfl, ⟨hbw, hbh, rfl⟩, G, s3, ?_⟩
  intro fm l hl y x y0 y1 x0 x1 hc
  rw [hG y x y0 y1 x0 x1]
  unfold boxRune
  rw [if_neg (c := y = 0 ∨ _) (by omega)]
  by_cases d : y = 1
  · rw [if_pos d, if_pos d]
  · rw [if_neg d, if_neg d]
    unfold lineRune
    by_cases d3 : 2 ≤ x ∧ x < barsColumn v - 1
    · rw [if_pos d3, if_pos d3]
    · rw [if_neg d3, if_neg d3]
      by_cases hlt : (y - 2).toNat < l.values.length
      · have hx : ¬ LineCell v x := fun hx => hc ⟨by omega, by omega, hx⟩
        rw [List.getElem?_eq_getElem hlt]
        dsimp only
        unfold LineCell at hx
        split_ifs at hx ⊢ <;> first | rfl | (exfalso; omega)
      · rw [List.getElem?_eq_none (by omega)]

end Bbn
