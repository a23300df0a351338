import Verif.Spec.Box
import Verif.Lemmas.TuiGrid

/-!
# What a grid shows after drawing
-/

set_option autoImplicit false

namespace Bbn

variable {α : Type}

theorem Pictures.congr {g : Grid} {h w : Int} {F G : Int → Int → Char} (hs : Pictures g h w F)
    (he : ∀ y x, 0 ≤ y → y < h → 0 ≤ x → x < w → F y x = G y x) : Pictures g h w G := by
  refine ⟨hs.rows, hs.columns, ?_⟩
  intro y x row c hy hx
  rw [hs.cell y x row c hy hx]
  have h1 := (List.getElem?_eq_some_iff.1 hy).1
  have h2 := (List.getElem?_eq_some_iff.1 hx).1
  have h3 := hs.columns row (List.mem_of_getElem? hy)
  have h4 := hs.rows
  exact he _ _ (by omega) (by omega) (by omega) (by omega)

/-- Another row. -/
theorem Pictures.setRow {g : Grid} {h w : Int} {F G : Int → Int → Char} (hs : Pictures g h w F) {y : Int} (y0 : 0 ≤ y)
    {r : List Char} (hl : (r.length : Int) = w) (hr : ∀ (x : Nat) (c : Char), r[x]? = some c → c = G y x) (hlt : y < h) :
    ∃ g', goSetI g y r = .ok g' ∧ Pictures g' h w (fun y' x' => if y' = y then G y' x' else F y' x') := by
  refine ⟨g.set y.toNat r, goSetI_in _ y0 (by rw [hs.rows]; exact hlt), ?_, ?_, ?_⟩
  · rw [List.length_set]; exact hs.rows
  · intro row hm
    rcases List.mem_or_eq_of_mem_set hm with h1 | h1
    · exact hs.columns row h1
    · rw [h1]; exact hl
  · intro y' x row c hy hx
    by_cases e : (y' : Int) = y
    · rw [if_pos e]
      have : y' = y.toNat := by omega
      subst this
      have hlt' : y.toNat < g.length := by have := hs.rows; omega
      rw [List.getElem?_set_self hlt'] at hy
      cases hy
      rw [e]
      exact hr x c hx
    · rw [if_neg e]
      rw [List.getElem?_set_ne (by omega)] at hy
      exact hs.cell y' x row c hy hx

theorem pic_set {g : Grid} {h w y x : Int} {F : Int → Int → Char} (hs : Pictures g h w F) (c : Char) (y0 : 0 ≤ y)
    (y1 : y < h) (x0 : 0 ≤ x) (x1 : x < w) :
    ∃ g', gridSet g y x c = .ok g' ∧ Pictures g' h w (fun y' x' => if y' = y ∧ x' = x then c else F y' x') := by
  obtain ⟨row, hr, hm, hy⟩ := goGetI_in (l := g) y0 (by rw [hs.rows]; exact y1)
  have hw := hs.columns row hm
  obtain ⟨g', e, hs'⟩ := hs.setRow (r := row.set x.toNat c) (G := fun y' x' => if x' = x then c else F y' x') y0
    (by rw [List.length_set]; exact hw) (by
      intro k d hk
      by_cases e : (k : Int) = x
      · rw [if_pos e]
        have : k = x.toNat := by omega
        subst this
        rw [List.getElem?_set_self (by omega)] at hk
        exact (Option.some.inj hk).symm
      · rw [if_neg e]
        rw [List.getElem?_set_ne (by omega)] at hk
        have := hs.cell y.toNat k row d hy hk
        rwa [Int.toNat_of_nonneg y0] at this) y1
  refine ⟨g', ?_, hs'.congr ?_⟩
  · unfold gridSet
    rw [hr, ok_bind, goSetI_in c x0 (by rw [hw]; exact x1), ok_bind]
    exact e
  · intro y' x' _ _ _ _
    by_cases e1 : y' = y
    · simp [e1]
    · simp [e1]

theorem copyRange_cells {row : List Char} {a b : Int} {text : List Char} (h0 : 0 ≤ a) (h1 : a ≤ b) (h2 : b ≤ row.length) :
    ∃ r, copyRange row a b text = .ok r ∧ r.length = row.length ∧ ∀ (x : Nat) (c : Char), r[x]? = some c →
      (a ≤ (x : Int) ∧ (x : Int) < b ∧ (x : Int) < a + text.length → c = text.getD ((x : Int) - a).toNat ' ') ∧
      (¬ (a ≤ (x : Int) ∧ (x : Int) < b ∧ (x : Int) < a + text.length) → row[x]? = some c) := by
  obtain ⟨r, e, hl⟩ := copyRange_ok (row := row) text h0 h1 h2
  refine ⟨r, e, hl, ?_⟩
  unfold copyRange at e
  rw [if_neg (by omega)] at e
  cases e
  intro x c hx
  have hla : (row.take a.toNat).length = a.toNat := by rw [List.length_take]; omega
  have hlt : (text.take (b - a).toNat).length = min (b - a).toNat text.length := List.length_take
  rw [List.append_assoc] at hx
  constructor
  · rintro ⟨c1, c2, c3⟩
    rw [List.getElem?_append_right (by omega), List.getElem?_append_left (by omega), hla, List.getElem?_take] at hx
    split_ifs at hx
    have : ((x : Int) - a).toNat = x - a.toNat := by omega
    rw [this, List.getD_eq_getElem?_getD, hx]
    rfl
  · intro hc
    by_cases hxa : (x : Int) < a
    · rw [List.getElem?_append_left (by omega), List.getElem?_take] at hx
      split_ifs at hx
      exact hx
    · rw [List.getElem?_append_right (by omega), List.getElem?_append_right (by omega), List.getElem?_drop, hla, hlt] at hx
      rw [← hx]
      congr 1
      omega

/-- What is shown after a text is copied to a part of a row. -/
def withText (F : Int → Int → Char) (y a b : Int) (text : List Char) : Int → Int → Char :=
  fun y' x' => if y' = y ∧ a ≤ x' ∧ x' < b ∧ x' < a + text.length then text.getD (x' - a).toNat ' ' else F y' x'

theorem pic_copyRow {g : Grid} {h w y a b : Int} {F : Int → Int → Char} (hs : Pictures g h w F) (text : List Char)
    {row r : List Char} (hy : g[y.toNat]? = some row) (hm : row ∈ g) (y0 : 0 ≤ y) (y1 : y < h) 
    (hl : r.length = row.length)
    (hc : ∀ (x : Nat) (c : Char), r[x]? = some c →
      (a ≤ (x : Int) ∧ (x : Int) < b ∧ (x : Int) < a + text.length → c = text.getD ((x : Int) - a).toNat ' ') ∧
      (¬ (a ≤ (x : Int) ∧ (x : Int) < b ∧ (x : Int) < a + text.length) → row[x]? = some c)) :
    ∃ g', goSetI g y r = .ok g' ∧ Pictures g' h w (withText F y a b text) := by
  have hw := hs.columns row hm
  obtain ⟨g', e', hs'⟩ := hs.setRow (r := r)
    (G := fun y' x' => if a ≤ x' ∧ x' < b ∧ x' < a + text.length then text.getD (x' - a).toNat ' ' else F y' x') y0
    (by rw [hl]; exact hw) (by
      intro k d hk
      split_ifs with hcond
      · exact (hc k d hk).1 hcond
      · have := hs.cell y.toNat k row d hy ((hc k d hk).2 hcond)
        rwa [Int.toNat_of_nonneg y0] at this) y1
  refine ⟨g', e', hs'.congr ?_⟩
  intro y' x' _ _ _ _
  unfold withText
  by_cases e1 : y' = y
  · simp [e1]
  · simp [e1]

theorem pic_copy {g : Grid} {h w y a b : Int} {F : Int → Int → Char} (hs : Pictures g h w F) (text : List Char) (y0 : 0 ≤ y)
    (y1 : y < h) (h0 : 0 ≤ a) (h1 : a ≤ b) (h2 : b ≤ w) :
    ∃ g', gridCopy g y a b text = .ok g' ∧ Pictures g' h w (withText F y a b text) := by
  obtain ⟨row, hr, hm, hy⟩ := goGetI_in (l := g) y0 (by rw [hs.rows]; exact y1)
  obtain ⟨r, e, hl, hc⟩ := copyRange_cells (row := row) (text := text) h0 h1 (by rw [hs.columns row hm]; exact h2)
  obtain ⟨g', e', hs'⟩ := pic_copyRow hs text hy hm y0 y1 hl hc
  refine ⟨g', ?_, hs'⟩
  unfold gridCopy
  rw [hr, ok_bind, e, ok_bind]
  exact e'

theorem pic_copyFrom {g : Grid} {h w y a : Int} {F : Int → Int → Char} (hs : Pictures g h w F) (text : List Char) (y0 : 0 ≤ y)
    (y1 : y < h) (h0 : 0 ≤ a) (h1 : a ≤ w) :
    ∃ g', gridCopyFrom g y a text = .ok g' ∧ Pictures g' h w (withText F y a w text) := by
  obtain ⟨row, hr, hm, hy⟩ := goGetI_in (l := g) y0 (by rw [hs.rows]; exact y1)
  have hw := hs.columns row hm
  obtain ⟨r, e, hl, hc⟩ := copyRange_cells (row := row) (text := text) h0 (by rw [hw]; exact h1) (le_refl _)
  rw [hw] at hc
  obtain ⟨g', e', hs'⟩ := pic_copyRow hs text hy hm y0 y1 hl hc
  refine ⟨g', ?_, hs'⟩
  unfold gridCopyFrom
  rw [hr, ok_bind, e, ok_bind]
  exact e'

open Classical in
/-- A loop: each turn writes the cells of `Q`, with what `C` says. -/
theorem pic_loop {β : Type} {h w : Int} (f : Grid → β → Except Fault Grid) (Q : β → Int → Int → Prop)
    (C : Int → Int → Char) : ∀ (l : List β) (g : Grid) (F : Int → Int → Char), Pictures g h w F →
      (∀ b ∈ l, ∀ g F, Pictures g h w F →
        ∃ g', f g b = .ok g' ∧ Pictures g' h w (fun y x => if Q b y x then C y x else F y x)) →
      ∃ g', l.foldlM f g = .ok g' ∧ Pictures g' h w (fun y x => if ∃ b ∈ l, Q b y x then C y x else F y x) := by
  intro l
  induction l with
  | nil =>
    intro g F hs _
    exact ⟨g, rfl, hs.congr (fun _ _ _ _ _ _ => by simp)⟩
  | cons b l ih =>
    intro g F hs hf
    obtain ⟨g1, e1, s1⟩ := hf b (by simp) g F hs
    obtain ⟨g2, e2, s2⟩ := ih g1 _ s1 (fun c hc => hf c (List.mem_cons_of_mem _ hc))
    refine ⟨g2, by rw [List.foldlM_cons, e1]; exact e2, s2.congr ?_⟩
    intro y x _ _ _ _
    by_cases h1 : ∃ c ∈ l, Q c y x
    · obtain ⟨c, hc, hq⟩ := h1
      rw [if_pos ⟨c, hc, hq⟩, if_pos ⟨c, List.mem_cons_of_mem _ hc, hq⟩]
    · rw [if_neg h1]
      by_cases h2 : Q b y x
      · rw [if_pos h2, if_pos ⟨b, by simp, h2⟩]
      · rw [if_neg h2, if_neg]
        rintro ⟨c, hc, hq⟩
        rcases List.mem_cons.1 hc with rfl | hc
        · exact h2 hq
        · exact h1 ⟨c, hc, hq⟩

/-- A loop that writes one character in part of a row. -/
theorem pic_run {g : Grid} {h w y x0 lo hi : Int} {F : Int → Int → Char} (hs : Pictures g h w F) (c : Char) (y0 : 0 ≤ y)
    (y1 : y < h) (h0 : 0 ≤ x0 + lo) (h1 : x0 + hi ≤ w) :
    ∃ g', (intRange lo hi).foldlM (fun g j => gridSet g y (x0 + j) c) g = .ok g' ∧
      Pictures g' h w (fun y' x' => if y' = y ∧ x0 + lo ≤ x' ∧ x' < x0 + hi then c else F y' x') := by
  classical
  obtain ⟨g', e, s⟩ := pic_loop (h := h) (w := w) (fun g j => gridSet g y (x0 + j) c)
    (fun j y' x' => y' = y ∧ x' = x0 + j) (fun _ _ => c) (intRange lo hi) g F hs (by
      intro j hj g F hs
      rw [intRange_spec] at hj
      obtain ⟨g', e, s⟩ := pic_set hs c y0 y1 (x := x0 + j) (by omega) (by omega)
      refine ⟨g', e, s.congr ?_⟩
      intro y' x' _ _ _ _
      congr)
  refine ⟨g', e, s.congr ?_⟩
  intro y' x' _ _ _ _
  by_cases hc : y' = y ∧ x0 + lo ≤ x' ∧ x' < x0 + hi
  · rw [if_pos hc, if_pos ⟨x' - x0, by rw [intRange_spec]; omega, hc.1, by omega⟩]
  · rw [if_neg hc, if_neg]
    rintro ⟨j, hj, e1, e2⟩
    rw [intRange_spec] at hj
    exact hc ⟨e1, by omega, by omega⟩

end Bbn
