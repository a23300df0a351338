import Verif.Spec.Canvas
import Verif.Lemmas.TuiBox
import Verif.Lemmas.TuiOk

/-!
# What the canvas shows after drawing
-/

set_option autoImplicit false

namespace Bbn

variable {α : Type}

/-! ## Edges -/

open Classical in
theorem pic_drawAt {g : Grid} {h w : Int} {F : Int → Int → Char} (c : Char) (ps : List (Int × Int)) (hs : Pictures g h w F)
    (hp : ∀ p ∈ ps, 0 ≤ p.1 ∧ p.1 < h ∧ 0 ≤ p.2 ∧ p.2 < w) :
    ∃ g', drawAt c ps g = .ok g' ∧ Pictures g' h w (fun y x => if (y, x) ∈ ps then c else F y x) := by
  unfold drawAt
  obtain ⟨g', e, s⟩ := pic_loop (h := h) (w := w) (fun (g : Grid) (p : Int × Int) => gridSet g p.1 p.2 c)
    (fun p y x => y = p.1 ∧ x = p.2) (fun _ _ => c) ps g F hs (by
      intro p hm g F hs
      obtain ⟨h1, h2, h3, h4⟩ := hp p hm
      obtain ⟨g', e, s⟩ := pic_set hs c h1 h2 h3 h4
      refine ⟨g', e, s.congr ?_⟩
      intro y x _ _ _ _
      by_cases hc : y = p.1 ∧ x = p.2
      · rw [if_pos hc, if_pos hc]
      · rw [if_neg hc, if_neg hc])
  refine ⟨g', e, s.congr ?_⟩
  intro y x _ _ _ _
  have : (∃ b ∈ ps, y = b.1 ∧ x = b.2) ↔ (y, x) ∈ ps := by
    constructor
    · rintro ⟨b, hb, rfl, rfl⟩; exact hb
    · intro hm; exact ⟨_, hm, rfl, rfl⟩
  by_cases hc : (y, x) ∈ ps
  · rw [if_pos hc, if_pos (this.2 hc)]
  · rw [if_neg hc, if_neg (fun k => hc (this.1 k))]

open Classical in
theorem pic_drawThen {g : Grid} {h w y x : Int} {F : Int → Int → Char} (c c' : Char) (ps : List (Int × Int))
    (hs : Pictures g h w F) (hp : ∀ p ∈ ps, 0 ≤ p.1 ∧ p.1 < h ∧ 0 ≤ p.2 ∧ p.2 < w) (y0 : 0 ≤ y) (y1 : y < h) (x0 : 0 ≤ x)
    (x1 : x < w) : ∃ g', (do let g ← drawAt c ps g; gridSet g y x c') = .ok g' ∧
      Pictures g' h w (fun y' x' => if y' = y ∧ x' = x then c' else if (y', x') ∈ ps then c else F y' x') := by
  obtain ⟨g1, e1, s1⟩ := pic_drawAt c ps hs hp
  obtain ⟨g2, e2, s2⟩ := pic_set s1 c' y0 y1 x0 x1
  refine ⟨g2, by rw [e1, ok_bind, e2], s2.congr ?_⟩
  intro y' x' _ _ _ _
  rfl

theorem mem_column {lo hi m y x : Int} : (y, x) ∈ (intRange lo hi).map (fun y => (y, m)) ↔ lo ≤ y ∧ y < hi ∧ x = m := by
  simp only [List.mem_map, Prod.mk.injEq, intRange_spec]
  constructor
  · rintro ⟨a, ha, rfl, rfl⟩; exact ⟨ha.1, ha.2, rfl⟩
  · rintro ⟨h1, h2, rfl⟩; exact ⟨y, ⟨h1, h2⟩, rfl, rfl⟩

theorem mem_row {lo hi m y x : Int} : (y, x) ∈ (intRange lo hi).map (fun x => (m, x)) ↔ lo ≤ x ∧ x < hi ∧ y = m := by
  simp only [List.mem_map, Prod.mk.injEq, intRange_spec]
  constructor
  · rintro ⟨a, ha, rfl, rfl⟩; exact ⟨ha.1, ha.2, rfl⟩
  · rintro ⟨h1, h2, rfl⟩; exact ⟨x, ⟨h1, h2⟩, rfl, rfl⟩

theorem getD_ite {c : Prop} [Decidable c] (a b : Option Char) (d : Char) :
    (if c then a else b).getD d = if c then a.getD d else b.getD d := by
  split_ifs <;> rfl

theorem mem_rowRev {lo hi m y x : Int} :
    (y, x) ∈ ((intRange lo hi).reverse).map (fun x => (m, x)) ↔ lo ≤ x ∧ x < hi ∧ y = m := by
  rw [← mem_row, List.mem_map, List.mem_map]
  simp only [List.mem_reverse]

theorem mem_columnRev {lo hi m y x : Int} :
    (y, x) ∈ ((intRange lo hi).reverse).map (fun y => (y, m)) ↔ lo ≤ y ∧ y < hi ∧ x = m := by
  rw [← mem_column, List.mem_map, List.mem_map]
  simp only [List.mem_reverse]

theorem pic_corner {b1 b2 : Bounds} {g : Grid} {h w : Int} {F : Int → Int → Char} (i1 : b1.Inside h w) (i2 : b2.Inside h w)
    (hh : ¬ (b1.x + b1.w > b2.x ∧ b1.x < b2.x + b2.w)) (hv : ¬ (b1.y + b1.h > b2.y ∧ b1.y < b2.y + b2.h))
    (hs : Pictures g h w F) : ∃ g', edgeCorner b1 b2 g = .ok g' ∧
      Pictures g' h w (fun y x => (cornerEdge b1 b2 y x).getD (F y x)) := by
  classical
  obtain ⟨p1, p2, p3, p4, p5, p6⟩ := i1
  obtain ⟨q1, q2, q3, q4, q5, q6⟩ := i2
  unfold edgeCorner
  dsimp only
  by_cases hx : b1.x < b2.x
  · have hx' : b2.x > b1.x := hx
    rw [if_pos hx', if_pos hx']
    by_cases hy : b1.y < b2.y
    · have hy' : b2.y > b1.y := hy
      simp only [if_pos hy']
      obtain ⟨g1, e1, s1⟩ := pic_drawThen (y := b1.y + b1.h - 1) (x := b2.x) '─' '┐'
        ((intRange (b1.x + b1.w) b2.x).map (fun x => (b1.y + b1.h - 1, x))) hs (by
          intro p hp
          obtain ⟨y, x⟩ := p
          rw [mem_row] at hp
          dsimp only; omega) (by omega) (by omega) (by omega) (by omega)
      obtain ⟨g2, e2, s2⟩ := pic_drawThen (y := b2.y - 1) (x := b2.x) '│' 'v'
        ((intRange (b1.y + b1.h - 1 + 1) b2.y).map (fun y => (y, b2.x))) s1 (by
          intro p hp
          obtain ⟨y, x⟩ := p
          rw [mem_column] at hp
          dsimp only; omega) (by omega) (by omega) (by omega) (by omega)
      refine ⟨g2, ?_, s2.congr ?_⟩
      · obtain ⟨g0, e0, e1⟩ := bind_inv e1
        rw [e0, ok_bind, e1, ok_bind]
        exact e2
      · intro y x _ _ _ _
        unfold cornerEdge
        simp only [if_pos hx, mem_column, mem_row, getD_ite, Option.getD_some, Option.getD_none, hy, true_and, not_true,
          false_and, if_false]
        split_ifs <;> first | rfl | (exfalso; omega)
    · have hy' : ¬ b2.y > b1.y := hy
      simp only [if_neg hy']
      obtain ⟨g1, e1, s1⟩ := pic_drawThen (y := b1.y) (x := b2.x) '─' '┘'
        ((intRange (b1.x + b1.w) b2.x).map (fun x => (b1.y, x))) hs (by
          intro p hp
          obtain ⟨y, x⟩ := p
          rw [mem_row] at hp
          dsimp only; omega) (by omega) (by omega) (by omega) (by omega)
      obtain ⟨g2, e2, s2⟩ := pic_drawThen (y := b2.y + b2.h) (x := b2.x) '│' '^'
        (((intRange (b2.y + b2.h + 1) b1.y).reverse).map (fun y => (y, b2.x))) s1 (by
          intro p hp
          obtain ⟨y, x⟩ := p
          rw [mem_columnRev] at hp
          dsimp only; omega) (by omega) (by omega) (by omega) (by omega)
      refine ⟨g2, ?_, s2.congr ?_⟩
      · obtain ⟨g0, e0, e1⟩ := bind_inv e1
        rw [e0, ok_bind, e1, ok_bind]
        exact e2
      · intro y x _ _ _ _
        unfold cornerEdge
        simp only [if_pos hx, mem_columnRev, mem_row, getD_ite, Option.getD_some, Option.getD_none, hy, true_and, not_false_eq_true,
          false_and, if_false]
        split_ifs <;> first | rfl | (exfalso; omega)
  · have hx' : ¬ b2.x > b1.x := hx
    rw [if_neg hx', if_neg hx']
    by_cases hy : b1.y < b2.y
    · have hy' : b2.y > b1.y := hy
      simp only [if_pos hy']
      obtain ⟨g1, e1, s1⟩ := pic_drawThen (y := b1.y + b1.h - 1) (x := b2.x + b2.w - 1) '─' '┌'
        (((intRange (b2.x + b2.w) b1.x).reverse).map (fun x => (b1.y + b1.h - 1, x))) hs (by
          intro p hp
          obtain ⟨y, x⟩ := p
          rw [mem_rowRev] at hp
          dsimp only; omega) (by omega) (by omega) (by omega) (by omega)
      obtain ⟨g2, e2, s2⟩ := pic_drawThen (y := b2.y - 1) (x := b2.x + b2.w - 1) '│' 'v'
        ((intRange (b1.y + b1.h - 1 + 1) b2.y).map (fun y => (y, b2.x + b2.w - 1))) s1 (by
          intro p hp
          obtain ⟨y, x⟩ := p
          rw [mem_column] at hp
          dsimp only; omega) (by omega) (by omega) (by omega) (by omega)
      refine ⟨g2, ?_, s2.congr ?_⟩
      · obtain ⟨g0, e0, e1⟩ := bind_inv e1
        rw [e0, ok_bind, e1, ok_bind]
        exact e2
      · intro y x _ _ _ _
        unfold cornerEdge
        simp only [if_neg hx, mem_column, mem_rowRev, getD_ite, Option.getD_some, Option.getD_none, hy, true_and, not_true,
          false_and, if_false]
        split_ifs <;> first | rfl | (exfalso; omega)
    · have hy' : ¬ b2.y > b1.y := hy
      simp only [if_neg hy']
      obtain ⟨g1, e1, s1⟩ := pic_drawThen (y := b1.y) (x := b2.x + b2.w - 1) '─' '└'
        (((intRange (b2.x + b2.w) b1.x).reverse).map (fun x => (b1.y, x))) hs (by
          intro p hp
          obtain ⟨y, x⟩ := p
          rw [mem_rowRev] at hp
          dsimp only; omega) (by omega) (by omega) (by omega) (by omega)
      obtain ⟨g2, e2, s2⟩ := pic_drawThen (y := b2.y + b2.h) (x := b2.x + b2.w - 1) '│' '^'
        (((intRange (b2.y + b2.h + 1) b1.y).reverse).map (fun y => (y, b2.x + b2.w - 1))) s1 (by
          intro p hp
          obtain ⟨y, x⟩ := p
          rw [mem_columnRev] at hp
          dsimp only; omega) (by omega) (by omega) (by omega) (by omega)
      refine ⟨g2, ?_, s2.congr ?_⟩
      · obtain ⟨g0, e0, e1⟩ := bind_inv e1
        rw [e0, ok_bind, e1, ok_bind]
        exact e2
      · intro y x _ _ _ _
        unfold cornerEdge
        simp only [if_neg hx, mem_columnRev, mem_rowRev, getD_ite, Option.getD_some, Option.getD_none, hy, true_and,
          not_false_eq_true, false_and, if_false]
        split_ifs <;> first | rfl | (exfalso; omega)

theorem pic_edge {b1 b2 : Bounds} {g : Grid} {h w : Int} {F : Int → Int → Char} (i1 : b1.Inside h w) (i2 : b2.Inside h w)
    (hs : Pictures g h w F) : ∃ g', renderEdge b1 b2 g = .ok g' ∧
      Pictures g' h w (fun y x => (edgeRune b1 b2 y x).getD (F y x)) := by
  classical
  obtain ⟨p1, p2, p3, p4, p5, p6⟩ := i1
  obtain ⟨q1, q2, q3, q4, q5, q6⟩ := i2
  unfold renderEdge edgeRune
  dsimp only
  by_cases hh : ShareColumn b1 b2
  · have hh' : b1.x + b1.w > b2.x ∧ b1.x < b2.x + b2.w := hh
    rw [if_pos hh']
    simp only [if_pos hh]
    by_cases hv : ShareRow b1 b2
    · have hv' : b1.y + b1.h > b2.y ∧ b1.y < b2.y + b2.h := hv
      rw [if_pos hv']
      simp only [if_pos hv]
      exact ⟨g, rfl, hs⟩
    · have hv' : ¬ (b1.y + b1.h > b2.y ∧ b1.y < b2.y + b2.h) := hv
      rw [if_neg hv']
      simp only [if_neg hv]
      obtain ⟨m1, m2⟩ := tdiv_two_mid (a := max b1.x b2.x) (b := min (b1.x + b1.w) (b2.x + b2.w)) (by omega) (by omega)
      have hm : (max b1.x b2.x + min (b1.x + b1.w) (b2.x + b2.w)).tdiv 2 =
          (max b1.x b2.x + min (b1.x + b1.w) (b2.x + b2.w)) / 2 := Int.tdiv_eq_ediv_of_nonneg (by omega)
      unfold edgeVertical straightDown
      dsimp only
      rw [hm] at m1 m2 ⊢
      clear hm
      generalize (max b1.x b2.x + min (b1.x + b1.w) (b2.x + b2.w)) / 2 = m at m1 m2 ⊢
      by_cases hy : b1.y < b2.y
      · rw [if_pos hy]
        obtain ⟨g', e, s⟩ := pic_drawThen (y := b2.y - 1) (x := m) '│' 'v' ((intRange (b1.y + b1.h) b2.y).map (fun y => (y, m))) hs (by
          intro p hp
          obtain ⟨y, x⟩ := p
          rw [mem_column] at hp
          dsimp only; omega) (by omega) (by omega) (by omega) (by omega)
        refine ⟨g', e, s.congr ?_⟩
        intro y x _ _ _ _
        simp only [if_pos hy, mem_column, getD_ite, Option.getD_some, Option.getD_none]
        split_ifs <;> first | rfl | (exfalso; omega)
      · rw [if_neg hy]
        obtain ⟨g', e, s⟩ := pic_drawThen (y := b2.y + b2.h) (x := m) '│' '^' ((intRange (b2.y + b2.h) b1.y).map (fun y => (y, m))) hs (by
          intro p hp
          obtain ⟨y, x⟩ := p
          rw [mem_column] at hp
          dsimp only; omega) (by omega) (by omega) (by omega) (by omega)
        refine ⟨g', e, s.congr ?_⟩
        intro y x _ _ _ _
        simp only [if_neg hy, mem_column, getD_ite, Option.getD_some, Option.getD_none]
        split_ifs <;> first | rfl | (exfalso; omega)
  · have hh' : ¬ (b1.x + b1.w > b2.x ∧ b1.x < b2.x + b2.w) := hh
    rw [if_neg hh']
    simp only [if_neg hh]
    by_cases hv : ShareRow b1 b2
    · have hv' : b1.y + b1.h > b2.y ∧ b1.y < b2.y + b2.h := hv
      rw [if_pos hv']
      simp only [if_pos hv]
      obtain ⟨m1, m2⟩ := tdiv_two_mid (a := max b1.y b2.y) (b := min (b1.y + b1.h) (b2.y + b2.h)) (by omega) (by omega)
      have hm : (max b1.y b2.y + min (b1.y + b1.h) (b2.y + b2.h)).tdiv 2 =
          (max b1.y b2.y + min (b1.y + b1.h) (b2.y + b2.h)) / 2 := Int.tdiv_eq_ediv_of_nonneg (by omega)
      unfold edgeHorizontal straightAcross
      dsimp only
      rw [hm] at m1 m2 ⊢
      clear hm
      generalize (max b1.y b2.y + min (b1.y + b1.h) (b2.y + b2.h)) / 2 = m at m1 m2 ⊢
      by_cases hy : b1.x < b2.x
      · rw [if_pos hy]
        obtain ⟨g', e, s⟩ := pic_drawThen (y := m) (x := b2.x - 1) '─' '>' ((intRange (b1.x + b1.w) b2.x).map (fun x => (m, x))) hs (by
          intro p hp
          obtain ⟨y, x⟩ := p
          rw [mem_row] at hp
          dsimp only; omega) (by omega) (by omega) (by omega) (by omega)
        refine ⟨g', e, s.congr ?_⟩
        intro y x _ _ _ _
        simp only [if_pos hy, mem_row, getD_ite, Option.getD_some, Option.getD_none]
        split_ifs <;> first | rfl | (exfalso; omega)
      · rw [if_neg hy]
        obtain ⟨g', e, s⟩ := pic_drawThen (y := m) (x := b2.x + b2.w) '─' '<' ((intRange (b2.x + b2.w) b1.x).map (fun x => (m, x))) hs (by
          intro p hp
          obtain ⟨y, x⟩ := p
          rw [mem_row] at hp
          dsimp only; omega) (by omega) (by omega) (by omega) (by omega)
        refine ⟨g', e, s.congr ?_⟩
        intro y x _ _ _ _
        simp only [if_neg hy, mem_row, getD_ite, Option.getD_some, Option.getD_none]
        split_ifs <;> first | rfl | (exfalso; omega)
    · have hv' : ¬ (b1.y + b1.h > b2.y ∧ b1.y < b2.y + b2.h) := hv
      rw [if_neg hv']
      simp only [if_neg hv]
      exact pic_corner ⟨p1, p2, p3, p4, p5, p6⟩ ⟨q1, q2, q3, q4, q5, q6⟩ hh' hv' hs

/-! ## All edges -/

theorem pic_edgeList {h w : Int} : ∀ (es : List (Bounds × Bounds)) (g : Grid) (F : Int → Int → Char), Pictures g h w F →
    (∀ e ∈ es, e.1.Inside h w ∧ e.2.Inside h w) → ∃ g', es.foldlM (fun g e => renderEdge e.1 e.2 g) g = .ok g' ∧
      Pictures g' h w (fun y x => (es.reverse.findSome? (fun e => edgeRune e.1 e.2 y x)).getD (F y x)) := by
  intro es
  induction es with
  | nil => intro g F hs _; exact ⟨g, rfl, hs⟩
  | cons e es ih =>
    intro g F hs hi
    obtain ⟨g1, e1, s1⟩ := pic_edge (hi e (by simp)).1 (hi e (by simp)).2 hs
    obtain ⟨g2, e2, s2⟩ := ih g1 _ s1 (fun e he => hi e (List.mem_cons_of_mem _ he))
    refine ⟨g2, by rw [List.foldlM_cons, e1]; exact e2, s2.congr ?_⟩
    intro y x _ _ _ _
    simp only [List.reverse_cons, List.findSome?_append, List.findSome?_cons, List.findSome?_nil]
    cases (es.reverse.findSome? (fun e => edgeRune e.1 e.2 y x)) with
    | some c => rfl
    | none =>
      cases edgeRune e.1 e.2 y x with
      | some c => rfl
      | none => rfl

/-- All parents of nodes are nodes. -/
def App.ParentsKnown (a : App α) : Prop :=
  ∀ n ∈ a.nodes, ∃ f, n.factor = some f ∧ ∀ p ∈ f.given, ∃ m ∈ a.nodes, m.var.name = p

theorem Indexed.findNode {nodes : List (TNode α)} {byName : List (String × Nat)} (h : Indexed nodes byName) {p : String}
    (hp : ∃ m ∈ nodes, m.var.name = p) : ∃ m, nodes.find? (fun m => m.var.name = p) = some m ∧
      goGet nodes (intGet byName p) = .ok m := by
  obtain ⟨m, hm, hmp⟩ := hp
  cases hf : nodes.find? (fun m => m.var.name = p) with
  | none =>
    have := List.find?_eq_none.1 hf m hm
    simp [hmp] at this
  | some k =>
    refine ⟨k, rfl, ?_⟩
    have hk : k.var.name = p := by simpa using List.find?_some hf
    obtain ⟨i, hi⟩ := List.getElem?_of_mem (List.mem_of_find?_eq_some hf)
    rw [goGet_eq]
    unfold intGet
    rw [← hk, h i k hi]
    exact hi

theorem renderEdges_eq {a : App α} (hi : Indexed a.nodes a.byName) (hk : a.ParentsKnown) (g : Grid) :
    renderEdges a g = a.edges.foldlM (fun g e => renderEdge e.1 e.2 g) g := by
  unfold renderEdges App.edges
  have key : ∀ (l : List (TNode α)), (∀ n ∈ l, ∃ f, n.factor = some f ∧ ∀ p ∈ f.given, ∃ m ∈ a.nodes, m.var.name = p) → ∀ g : Grid,
      l.foldlM (fun g n => do
        let f ← n.deref
        f.given.foldlM (fun g p => do
          let m ← goGet a.nodes (intGet a.byName p)
          renderEdge m.bounds n.bounds g) g) g =
      (l.flatMap (fun n => ((n.factor.map NFactor.given).getD []).filterMap (fun p =>
        (a.nodes.find? (fun m => m.var.name = p)).map (fun m => (m.bounds, n.bounds))))).foldlM
          (fun g e => renderEdge e.1 e.2 g) g := by
    intro l
    induction l with
    | nil => intro _ g; rfl
    | cons n l ih =>
      intro hl g
      obtain ⟨f, hf, hg⟩ := hl n (by simp)
      rw [List.foldlM_cons, List.flatMap_cons, List.foldlM_append]
      have hd : n.deref = .ok f := by unfold TNode.deref; rw [hf]
      rw [hd, ok_bind]
      have hin : ∀ (ps : List String), (∀ p ∈ ps, ∃ m ∈ a.nodes, m.var.name = p) → ∀ g : Grid,
          ps.foldlM (fun g p => do
            let m ← goGet a.nodes (intGet a.byName p)
            renderEdge m.bounds n.bounds g) g =
          (ps.filterMap (fun p => (a.nodes.find? (fun m => m.var.name = p)).map (fun m => (m.bounds, n.bounds)))).foldlM
            (fun g e => renderEdge e.1 e.2 g) g := by
        intro ps
        induction ps with
        | nil => intro _ g; rfl
        | cons p ps ihp =>
          intro hps g
          obtain ⟨m, h1, h2⟩ := hi.findNode (hps p (by simp))
          rw [List.foldlM_cons, h2, ok_bind, List.filterMap_cons, h1]
          simp only [Option.map_some, List.foldlM_cons]
          congr 1
          funext g
          exact ihp (fun q hq => hps q (List.mem_cons_of_mem _ hq)) g
      rw [hf]
      simp only [Option.map_some, Option.getD_some]
      rw [hin f.given hg]
      congr 1
      funext g
      exact ih (fun k hk => hl k (List.mem_cons_of_mem _ hk)) g
  exact key a.nodes hk g

theorem pic_clear {g : Grid} {h w : Int} (hd : HasDims g h w) : Pictures (clearCanvas g) h w (fun _ _ => ' ') := by
  unfold clearCanvas
  refine ⟨by rw [List.length_map]; exact hd.1, ?_, ?_⟩
  · intro row hr
    obtain ⟨r, h1, rfl⟩ := List.mem_map.1 hr
    rw [List.length_map]
    exact hd.2 r h1
  · intro y x row c hy hx
    rw [List.getElem?_map] at hy
    obtain ⟨r, _, rfl⟩ := Option.map_eq_some_iff.1 hy
    rw [List.getElem?_map] at hx
    obtain ⟨d, _, rfl⟩ := Option.map_eq_some_iff.1 hx
    rfl

theorem pic_edges {a : App α} (hi : Indexed a.nodes a.byName) (hk : a.ParentsKnown) {h w : Int}
    (hb : ∀ n ∈ a.nodes, n.bounds.Inside h w) (hd : HasDims a.canvas h w) :
    ∃ g', renderEdges a (clearCanvas a.canvas) = .ok g' ∧ Pictures g' h w (edgesRune a.edges) := by
  rw [renderEdges_eq hi hk]
  refine pic_edgeList a.edges _ _ (pic_clear hd) ?_
  intro e he
  unfold App.edges at he
  obtain ⟨n, hn, he⟩ := List.mem_flatMap.1 he
  obtain ⟨p, _, he⟩ := List.mem_filterMap.1 he
  obtain ⟨m, hm, rfl⟩ := Option.map_eq_some_iff.1 he
  exact ⟨hb m (List.mem_of_find?_eq_some hm), hb n hn⟩

/-! ## Boxes -/

theorem pic_drawNode {n : TNode α} {R : Int → Int → Char} {g : Grid} {h w : Int} {F : Int → Int → Char}
    (hr : Pictures n.runes n.bounds.h n.bounds.w R) (hb : n.bounds.Inside h w) (hs : Pictures g h w F) :
    ∃ g', drawNode n g = .ok g' ∧ Pictures g' h w (fun y x =>
      if n.bounds.contains x y = true then R (y - n.bounds.y) (x - n.bounds.x) else F y x) := by
  classical
  obtain ⟨b1, b2, b3, b4, b5, b6⟩ := hb
  unfold drawNode
  obtain ⟨g', e, s⟩ := pic_loop (h := h) (w := w)
    (fun (g : Grid) (p : List Char × Nat) => gridCopyFrom g (n.bounds.y + (p.2 : Nat)) n.bounds.x p.1)
    (fun p y x => y = n.bounds.y + (p.2 : Nat) ∧ n.bounds.x ≤ x ∧ x < n.bounds.x + n.bounds.w)
    (fun y x => R (y - n.bounds.y) (x - n.bounds.x)) n.runes.zipIdx g F hs (by
      rintro ⟨row, i⟩ hm g F hs
      rw [List.mem_zipIdx_iff_getElem?] at hm
      dsimp only at hm ⊢
      have hi := (List.getElem?_eq_some_iff.1 hm).1
      have hrows := hr.rows
      have hcol := hr.columns row (List.mem_of_getElem? hm)
      obtain ⟨g', e, s⟩ := pic_copyFrom hs row (y := n.bounds.y + (i : Nat)) (a := n.bounds.x) (by omega) (by omega) (by omega)
        (by omega)
      refine ⟨g', e, s.congr ?_⟩
      intro y x _ _ _ _
      unfold withText
      by_cases hc : y = n.bounds.y + (i : Nat) ∧ n.bounds.x ≤ x ∧ x < n.bounds.x + n.bounds.w
      · rw [if_pos hc, if_pos ⟨hc.1, hc.2.1, by omega, by omega⟩]
        have hx : (x - n.bounds.x).toNat < row.length := by omega
        have := hr.cell i (x - n.bounds.x).toNat row row[(x - n.bounds.x).toNat] hm (List.getElem?_eq_getElem hx)
        rw [List.getD_eq_getElem?_getD, List.getElem?_eq_getElem hx, Option.getD_some, this]
        congr 1 <;> omega
      · rw [if_neg hc, if_neg (by omega)])
  refine ⟨g', e, s.congr ?_⟩
  intro y x _ _ _ _
  have hiff : n.bounds.contains x y = true ↔ n.bounds.x ≤ x ∧ x < n.bounds.x + n.bounds.w ∧ n.bounds.y ≤ y ∧ y < n.bounds.y + n.bounds.h := by
    unfold Bounds.contains
    simp only [Bool.and_eq_true, decide_eq_true_eq, ge_iff_le]
    tauto
  by_cases hc : n.bounds.contains x y = true
  · rw [if_pos hc, if_pos]
    rw [hiff] at hc
    have hrows := hr.rows
    have hlt : (y - n.bounds.y).toNat < n.runes.length := by omega
    refine ⟨(n.runes[(y - n.bounds.y).toNat], (y - n.bounds.y).toNat), ?_, ?_, hc.1, hc.2.1⟩
    · rw [List.mem_zipIdx_iff_getElem?]
      exact List.getElem?_eq_getElem hlt
    · dsimp only; omega
  · rw [if_neg hc, if_neg]
    rintro ⟨⟨row, i⟩, hm, h1, h2, h3⟩
    rw [List.mem_zipIdx_iff_getElem?] at hm
    dsimp only at hm h1
    have hi := (List.getElem?_eq_some_iff.1 hm).1
    have hrows := hr.rows
    exact hc (hiff.2 ⟨h2, h3, by omega, by omega⟩)

/-- A node can be drawn with its look. -/
structure TNode.Ready (fm : Fmt α) (k : Nat) (l : Look α) (n : TNode α) : Prop where
  sized : n.Sized
  runes : ∃ F, Pictures n.runes (boxHeight n.var) (boxWidth n.var) F ∧ Prepared (α := α) n.var k F
  number : l.values.length = k
  fits : l.Fits fm n.var

theorem pic_nodes {fm : Fmt α} {a : App α} {h w : Int} {k : NVar → Nat} : ∀ (l : List (TNode α)) (i : Nat) (g : Grid) (F : Int → Int → Char),
    (∀ (j : Nat) (n : TNode α), l[j]? = some n → n.bounds.Inside h w ∧ n.Ready fm (k n.var) (a.look (i + j) n)) → Pictures g h w F →
    ∃ r, renderNodes fm a i l g = .ok r ∧ (∀ n ∈ r.1, n.Sized ∧
        ∃ F, Pictures n.runes (boxHeight n.var) (boxWidth n.var) F ∧ Prepared (α := α) n.var (k n.var) F) ∧
      Pictures r.2 h w (fun y x => match (l.zipIdx i).reverse.find? (fun p => p.1.bounds.contains x y) with
        | some (n, j) => boxRune fm n.var (a.look j n) (y - n.bounds.y) (x - n.bounds.x)
        | none => F y x) := by
  intro l
  induction l with
  | nil => intro i g F _ hs; exact ⟨_, rfl, by simp, hs⟩
  | cons n l ih =>
    intro i g F hall hs
    obtain ⟨hin, hn⟩ := hall 0 n rfl
    obtain ⟨F0, hp, hpre⟩ := hn.runes
    rw [Nat.add_zero] at hn
    obtain ⟨n', e1, v1, v2, v3, v4, hp'⟩ := pic_render (l := a.look i n) hn.sized hp (by rw [hn.number]; exact hpre) hn.fits
    have hsel : ((i : Int) == a.selectedNode) = (a.look i n).selected := by
      unfold App.look
      dsimp only
      by_cases hc : (i : Int) = a.selectedNode
      · rw [beq_iff_eq.2 hc, decide_eq_true hc]
      · rw [decide_eq_false hc]; simpa using hc
    rw [← hn.sized.h, ← hn.sized.w, ← v2] at hp'
    obtain ⟨g1, e2, s2⟩ := pic_drawNode hp' (by rw [v2]; exact hin) hs
    obtain ⟨r, e3, hr, s3⟩ := ih (i + 1) g1 _ (by
      intro j m hj
      have := hall (j + 1) m hj
      rw [show i + 1 + j = i + (j + 1) by omega]
      exact this) s2
    refine ⟨(n' :: r.1, r.2), ?_, ?_, s3.congr ?_⟩
    · rw [renderNodes]
      dsimp only
      rw [hsel]
      rw [show n.render fm ((mapGet a.marginals n.var.name).getD []) (a.look i n).selected a.selectedState
        (mapGet a.evidence n.var.name).isSome = .ok n' from e1, ok_bind, e2, ok_bind, e3, ok_bind]
      rfl
    · intro m hm
      rcases List.mem_cons.1 hm with rfl | hm
      · refine ⟨⟨by rw [v2, v1]; exact hn.sized.w, by rw [v2, v1]; exact hn.sized.h, by rw [v3, v1]; exact hn.sized.barsX⟩, ?_⟩
        refine ⟨boxRune fm n.var (a.look i n), ?_, ?_⟩
        · rw [v1]
          rw [v2, hn.sized.h, hn.sized.w] at hp'
          exact hp'
        · rw [v1, ← hn.number]
          exact prepared_again fm n.var (a.look i n)
      · exact hr m hm
    · intro y x _ _ _ _
      rw [List.zipIdx_cons, List.reverse_cons, List.find?_append]
      cases hf : (l.zipIdx (i + 1)).reverse.find? (fun p => p.1.bounds.contains x y) with
      | some q => rfl
      | none =>
        simp only [Option.none_or, List.find?_cons, List.find?_nil]
        rw [v2]
        by_cases hc : n.bounds.contains x y = true
        · rw [if_pos hc, hc]
        · rw [if_neg hc, Bool.not_eq_true _ |>.mp hc]

/-! ## The whole canvas -/

theorem zipIdx_proj {l l' : List (TNode α)} (h : l'.map (fun n => (n.var, n.bounds)) = l.map (fun n => (n.var, n.bounds)))
    (f : Nat → NVar → Bounds → Char) (c : Char) (x y : Int) :
    (match l'.zipIdx.reverse.find? (fun p => p.1.bounds.contains x y) with
      | some (n, j) => f j n.var n.bounds
      | none => c) =
    (match l.zipIdx.reverse.find? (fun p => p.1.bounds.contains x y) with
      | some (n, j) => f j n.var n.bounds
      | none => c) := by
  have key : ∀ l : List (TNode α), (match l.zipIdx.reverse.find? (fun p => p.1.bounds.contains x y) with
      | some (n, j) => f j n.var n.bounds
      | none => c) = (((l.map (fun n => (n.var, n.bounds))).zipIdx.reverse.find? (fun p => p.1.2.contains x y)).map
        (fun p => f p.2 p.1.1 p.1.2)).getD c := by
    intro l
    rw [List.zipIdx_map, ← List.map_reverse, List.find?_map]
    have : ((fun p : (NVar × Bounds) × Nat => p.1.2.contains x y) ∘ Prod.map (fun n : TNode α => (n.var, n.bounds)) id) =
        (fun p : TNode α × Nat => p.1.bounds.contains x y) := rfl
    rw [this]
    cases l.zipIdx.reverse.find? (fun p => p.1.bounds.contains x y) with
    | none => rfl
    | some q => rfl
  rw [key, key, h]

theorem edges_proj {a b : App α} (h : b.nodes.map (fun n => (n.var, n.factor, n.bounds)) =
    a.nodes.map (fun n => (n.var, n.factor, n.bounds))) : b.edges = a.edges := by
  have key : ∀ a : App α, a.edges = (a.nodes.map (fun n => (n.var, n.factor, n.bounds))).flatMap (fun n =>
      ((n.2.1.map NFactor.given).getD []).filterMap (fun p =>
        ((a.nodes.map (fun n => (n.var, n.factor, n.bounds))).find? (fun m => m.1.name = p)).map (fun m => (m.2.2, n.2.2)))) := by
    intro a
    unfold App.edges
    rw [List.flatMap_map]
    congr 1
    funext n
    congr 1
    funext p
    rw [List.find?_map, Option.map_map]
    rfl
  rw [key, key, h]

theorem canvasRune_same {fm : Fmt α} {a b : App α} (h : SameApp a b) : b.canvasRune fm = a.canvasRune fm := by
  have h1 : b.nodes.map (fun n => (n.var, n.factor, n.bounds)) = a.nodes.map (fun n => (n.var, n.factor, n.bounds)) := by
    have := congrArg (List.map (fun p : NVar × Option (NFactor α) × Bounds × Int => (p.1, p.2.1, p.2.2.1))) h.nodes
    rw [List.map_map, List.map_map] at this
    exact this
  have h2 : b.nodes.map (fun n => (n.var, n.bounds)) = a.nodes.map (fun n => (n.var, n.bounds)) := by
    have := congrArg (List.map (fun p : NVar × Option (NFactor α) × Bounds => (p.1, p.2.2))) h1
    rw [List.map_map, List.map_map] at this
    exact this
  funext y x
  unfold App.canvasRune App.look
  rw [edges_proj h1, h.marginals, h.selectedNode, h.selectedState, h.evidence]
  exact zipIdx_proj h2 (fun i v c => boxRune fm v ⟨(mapGet a.marginals v.name).getD [],
    decide ((i : Int) = a.selectedNode), a.selectedState, (mapGet a.evidence v.name).isSome⟩ (y - c.y) (x - c.x)) _ x y

/-- Drawing, on a canvas that shows the edges outside the boxes. -/
theorem pic_renderApp {fm : Fmt α} {a : App α} {h w : Int} {k : NVar → Nat} {F : Int → Int → Char}
    (hall : ∀ (i : Nat) (n : TNode α), a.nodes[i]? = some n → n.bounds.Inside h w ∧ n.Ready fm (k n.var) (a.look i n))
    (u : Bool) (hd : HasDims a.canvas h w)
    (h1 : u = true → Pictures a.canvas h w F ∧ ∀ y x, (∀ n ∈ a.nodes, n.bounds.contains x y = false) → F y x = edgesRune a.edges y x)
    (h2 : u = false → Indexed a.nodes a.byName ∧ a.ParentsKnown) :
    ∃ a', a.render fm u = .ok a' ∧ (∀ n ∈ a'.nodes, n.Sized ∧
        ∃ F, Pictures n.runes (boxHeight n.var) (boxWidth n.var) F ∧ Prepared (α := α) n.var (k n.var) F) ∧
      Pictures a'.canvas h w (a'.canvasRune fm) := by
  have hb : ∀ n ∈ a.nodes, n.bounds.Inside h w := by
    intro n hn
    obtain ⟨i, hi⟩ := List.getElem?_of_mem hn
    exact (hall i n hi).1
  obtain ⟨g, G, e0, s0, hG⟩ : ∃ g G, (if u = true then pure a.canvas else renderEdges a (clearCanvas a.canvas)) = .ok g ∧
      Pictures g h w G ∧ ∀ y x, (∀ n ∈ a.nodes, n.bounds.contains x y = false) → G y x = edgesRune a.edges y x := by
    cases u with
    | true => exact ⟨a.canvas, F, rfl, (h1 rfl).1, (h1 rfl).2⟩
    | false =>
      obtain ⟨g, e, s⟩ := pic_edges (h2 rfl).1 (h2 rfl).2 hb hd
      exact ⟨g, _, e, s, fun _ _ _ => rfl⟩
  obtain ⟨r, e1, hr, s1⟩ := pic_nodes (fm := fm) (a := a) (k := k) a.nodes 0 g G (by
    intro j n hj
    rw [Nat.zero_add]
    exact hall j n hj) s0
  have e : ∃ cs t, a.render fm u = .ok { a with nodes := r.1, canvas := r.2, colors := cs, text := t } := by
    unfold App.render
    dsimp only
    cases u with
    | true =>
      simp only [if_true] at e0 ⊢
      rw [e0, ok_bind, e1]
      exact ⟨_, _, rfl⟩
    | false =>
      simp only [Bool.false_eq_true, if_false] at e0 ⊢
      rw [e0, ok_bind, e1]
      exact ⟨_, _, rfl⟩
  obtain ⟨cs, t, e⟩ := e
  refine ⟨_, e, hr, ?_⟩
  rw [canvasRune_same (App.render_same e)]
  refine s1.congr ?_
  intro y x _ _ _ _
  unfold App.canvasRune
  cases hf : a.nodes.zipIdx.reverse.find? (fun p => p.1.bounds.contains x y) with
  | some q => rfl
  | none =>
    refine hG y x (fun n hn => ?_)
    obtain ⟨i, hi⟩ := List.getElem?_of_mem hn
    have := List.find?_eq_none.1 hf (n, i) (by
      rw [List.mem_reverse, List.mem_zipIdx_iff_getElem?]
      exact hi)
    simpa using this

end Bbn
