import Verif.Model.TuiApp
import Verif.Spec.Colors
import Verif.Lemmas.Training
import Verif.Lemmas.Logic

/-!
# Drawing on a grid of runes that is large enough
-/

set_option autoImplicit false

namespace Bbn

variable {α : Type}

/-- `h` rows of `w` runes. -/
def HasDims (g : Grid) (h w : Int) : Prop := (g.length : Int) = h ∧ ∀ row ∈ g, (row.length : Int) = w

theorem foldlM_keep {β γ : Type} (P : γ → Prop) (f : γ → β → Except Fault γ) :
    ∀ (l : List β) (g : γ), P g → (∀ g x, x ∈ l → P g → ∃ g', f g x = .ok g' ∧ P g') →
      ∃ g', l.foldlM f g = .ok g' ∧ P g' := by
  intro l
  induction l with
  | nil => intro g h _; exact ⟨g, rfl, h⟩
  | cons x l ih =>
    intro g h hf
    obtain ⟨g1, h1, p1⟩ := hf g x (by simp) h
    obtain ⟨g2, h2, p2⟩ := ih g1 p1 (fun g y hy => hf g y (List.mem_cons_of_mem _ hy))
    refine ⟨g2, ?_, p2⟩
    rw [List.foldlM_cons, h1]
    exact h2

theorem goGetI_in {β : Type} {l : List β} {i : Int} (h0 : 0 ≤ i) (h1 : i < l.length) :
    ∃ x, goGetI l i = .ok x ∧ x ∈ l ∧ l[i.toNat]? = some x := by
  have hlt : i.toNat < l.length := by omega
  refine ⟨l[i.toNat], ?_, List.getElem_mem hlt, List.getElem?_eq_getElem hlt⟩
  unfold goGetI
  rw [if_neg (by omega), goGet_eq]
  exact List.getElem?_eq_getElem hlt

theorem goSetI_in {β : Type} {l : List β} {i : Int} (x : β) (h0 : 0 ≤ i) (h1 : i < l.length) :
    goSetI l i x = .ok (l.set i.toNat x) := by
  have hlt : i.toNat < l.length := by omega
  unfold goSetI
  rw [if_neg (by omega)]
  unfold goSet
  rw [if_pos hlt]

theorem HasDims.set {g : Grid} {h w : Int} (hd : HasDims g h w) (i : Nat) {row : List Char}
    (hr : (row.length : Int) = w) : HasDims (g.set i row) h w := by
  refine ⟨by rw [List.length_set]; exact hd.1, ?_⟩
  intro r hm
  rcases List.mem_or_eq_of_mem_set hm with h1 | h1
  · exact hd.2 r h1
  · rw [h1]; exact hr

theorem gridSet_dims {g : Grid} {h w y x : Int} (hd : HasDims g h w) (c : Char) (y0 : 0 ≤ y) (y1 : y < h) (x0 : 0 ≤ x)
    (x1 : x < w) : ∃ g', gridSet g y x c = .ok g' ∧ HasDims g' h w := by
  obtain ⟨row, hr, hm, _⟩ := goGetI_in (l := g) y0 (by rw [hd.1]; exact y1)
  have hw := hd.2 row hm
  refine ⟨g.set y.toNat (row.set x.toNat c), ?_, hd.set _ (by rw [List.length_set]; exact hw)⟩
  unfold gridSet
  rw [hr, ok_bind, goSetI_in c x0 (by rw [hw]; exact x1), ok_bind]
  exact goSetI_in _ y0 (by rw [hd.1]; exact y1)

theorem copyRange_ok {row : List Char} {a b : Int} (text : List Char) (h0 : 0 ≤ a) (h1 : a ≤ b) (h2 : b ≤ row.length) :
    ∃ r, copyRange row a b text = .ok r ∧ r.length = row.length := by
  unfold copyRange
  rw [if_neg (by omega)]
  refine ⟨_, rfl, ?_⟩
  simp only [List.length_append, List.length_take, List.length_drop]
  omega

theorem gridCopy_dims {g : Grid} {h w y a b : Int} (hd : HasDims g h w) (text : List Char) (y0 : 0 ≤ y) (y1 : y < h)
    (h0 : 0 ≤ a) (h1 : a ≤ b) (h2 : b ≤ w) : ∃ g', gridCopy g y a b text = .ok g' ∧ HasDims g' h w := by
  obtain ⟨row, hr, hm, _⟩ := goGetI_in (l := g) y0 (by rw [hd.1]; exact y1)
  have hw := hd.2 row hm
  obtain ⟨r, e, hl⟩ := copyRange_ok text h0 h1 (by rw [hw]; exact h2)
  refine ⟨g.set y.toNat r, ?_, hd.set _ (by rw [hl]; exact hw)⟩
  unfold gridCopy
  rw [hr, ok_bind, e, ok_bind]
  exact goSetI_in _ y0 (by rw [hd.1]; exact y1)

theorem gridCopyFrom_dims {g : Grid} {h w y a : Int} (hd : HasDims g h w) (text : List Char) (y0 : 0 ≤ y) (y1 : y < h)
    (h0 : 0 ≤ a) (h1 : a ≤ w) : ∃ g', gridCopyFrom g y a text = .ok g' ∧ HasDims g' h w := by
  obtain ⟨row, hr, hm, _⟩ := goGetI_in (l := g) y0 (by rw [hd.1]; exact y1)
  have hw := hd.2 row hm
  obtain ⟨r, e, hl⟩ := copyRange_ok (row := row) text h0 (by rw [hw]; exact h1) le_rfl
  refine ⟨g.set y.toNat r, ?_, hd.set _ (by rw [hl]; exact hw)⟩
  unfold gridCopyFrom
  rw [hr, ok_bind, e, ok_bind]
  exact goSetI_in _ y0 (by rw [hd.1]; exact y1)

theorem hasDims_replicate (h w : Int) (c : Char) (h0 : 0 ≤ h) (w0 : 0 ≤ w) :
    HasDims (List.replicate h.toNat (List.replicate w.toNat c)) h w := by
  refine ⟨by rw [List.length_replicate]; omega, ?_⟩
  intro row hm
  rw [List.eq_of_mem_replicate hm, List.length_replicate]
  omega

theorem clearCanvas_dims {g : Grid} {h w : Int} (hd : HasDims g h w) : HasDims (clearCanvas g) h w := by
  unfold clearCanvas
  refine ⟨by rw [List.length_map]; exact hd.1, ?_⟩
  intro row hm
  obtain ⟨r, hr, rfl⟩ := List.mem_map.1 hm
  rw [List.length_map]
  exact hd.2 r hr

/-! ## Nodes -/

theorem drawBorder_dims {b : Bounds} {g : Grid} (s : Bool) (hd : HasDims g b.h b.w) (h1 : 1 ≤ b.h) (w1 : 1 ≤ b.w) :
    ∃ g', drawBorder b s g = .ok g' ∧ HasDims g' b.h b.w := by
  unfold drawBorder
  obtain ⟨g1, e1, d1⟩ := gridSet_dims hd (borderRune s 0) (y := 0) (x := 0) (by omega) (by omega) (by omega) (by omega)
  obtain ⟨g2, e2, d2⟩ := gridSet_dims d1 (borderRune s 1) (y := 0) (x := b.w - 1) (by omega) (by omega) (by omega) (by omega)
  obtain ⟨g3, e3, d3⟩ := gridSet_dims d2 (borderRune s 2) (y := b.h - 1) (x := 0) (by omega) (by omega) (by omega) (by omega)
  obtain ⟨g4, e4, d4⟩ := gridSet_dims d3 (borderRune s 3) (y := b.h - 1) (x := b.w - 1) (by omega) (by omega) (by omega)
    (by omega)
  rw [e1, ok_bind, e2, ok_bind, e3, ok_bind, e4, ok_bind]
  obtain ⟨g5, e5, d5⟩ := foldlM_keep (fun g => HasDims g b.h b.w) (fun g i => do
    let g ← gridSet g 0 i (borderRune s 4)
    gridSet g (b.h - 1) i (borderRune s 4)) (intRange 1 (b.w - 1)) g4 d4 (by
      intro g i hi hg
      rw [intRange_spec] at hi
      obtain ⟨g', e', d'⟩ := gridSet_dims hg (borderRune s 4) (y := 0) (x := i) (by omega) (by omega) (by omega) (by omega)
      obtain ⟨g'', e'', d''⟩ := gridSet_dims d' (borderRune s 4) (y := b.h - 1) (x := i) (by omega) (by omega) (by omega)
        (by omega)
      exact ⟨g'', by rw [e', ok_bind, e''], d''⟩)
  rw [e5, ok_bind]
  exact foldlM_keep (fun g => HasDims g b.h b.w) (fun g i => do
    let g ← gridSet g i 0 (borderRune s 5)
    gridSet g i (b.w - 1) (borderRune s 5)) (intRange 1 (b.h - 1)) g5 d5 (by
      intro g i hi hg
      rw [intRange_spec] at hi
      obtain ⟨g', e', d'⟩ := gridSet_dims hg (borderRune s 5) (y := i) (x := 0) (by omega) (by omega) (by omega) (by omega)
      obtain ⟨g'', e'', d''⟩ := gridSet_dims d' (borderRune s 5) (y := i) (x := b.w - 1) (by omega) (by omega) (by omega)
        (by omega)
      exact ⟨g'', by rw [e', ok_bind, e''], d''⟩)

theorem nodeBounds_w (v : NVar) : (nodeBounds v).w ≥ stateLength v + (if v.nodeType = .utility then 5 else 10) + 13 := by
  unfold nodeBounds
  dsimp only
  split_ifs <;> push_cast <;> omega

theorem nodeBounds_h (v : NVar) :
    (nodeBounds v).h = (v.outcomes.length : Int) + 3 + (if v.nodeType = .utility then 1 else 0) := rfl

theorem drawTitle_dims {v : NVar} {g : Grid} (hd : HasDims g (nodeBounds v).h (nodeBounds v).w) :
    ∃ g', drawTitle v (nodeBounds v) g = .ok g' ∧ HasDims g' (nodeBounds v).h (nodeBounds v).w := by
  have hw := nodeBounds_w v
  have hh := nodeBounds_h v
  have hw' : (nodeBounds v).w ≥ 18 := by split_ifs at hw <;> omega
  have hh' : (nodeBounds v).h ≥ 3 := by split_ifs at hh <;> omega
  unfold drawTitle
  obtain ⟨g1, e1, d1⟩ := gridCopy_dims hd v.name.toList (y := 1) (a := 2) (b := (nodeBounds v).w - 2) (by omega) (by omega)
    (by omega) (by omega) (by omega)
  rw [e1, ok_bind]
  cases v.nodeType with
  | chance => exact ⟨g1, rfl, d1⟩
  | decision => exact gridSet_dims d1 '!' (by omega) (by omega) (by omega) (by omega)
  | utility => exact gridSet_dims d1 '$' (by omega) (by omega) (by omega) (by omega)

theorem drawStateLabels_dims {v : NVar} {g : Grid} (hd : HasDims g (nodeBounds v).h (nodeBounds v).w) :
    ∃ g', drawStateLabels v (stateLength v + 3) g = .ok g' ∧ HasDims g' (nodeBounds v).h (nodeBounds v).w := by
  have hw := nodeBounds_w v
  have hh := nodeBounds_h v
  have hw' : (nodeBounds v).w ≥ stateLength v + 18 := by split_ifs at hw <;> omega
  have hh' : (nodeBounds v).h ≥ v.outcomes.length + 3 := by split_ifs at hh <;> omega
  unfold drawStateLabels
  obtain ⟨g1, e1, d1⟩ := foldlM_keep (fun g => HasDims g (nodeBounds v).h (nodeBounds v).w)
    (fun (g : Grid) (p : String × Nat) => gridCopy g (p.2 + 2) 2 ((stateLength v : Int) + 3 - 1) p.1.toList) v.outcomes.zipIdx g hd (by
      intro g p hp hg
      have := List.snd_lt_of_mem_zipIdx hp
      exact gridCopy_dims hg _ (by omega) (by omega) (by omega) (by omega) (by omega))
  rw [e1, ok_bind]
  split_ifs with hu
  · rw [if_pos hu] at hh
    exact gridCopy_dims d1 _ (by omega) (by omega) (by omega) (by omega) (by omega)
  · exact ⟨g1, rfl, d1⟩

/-- The grid of the node has the size of the node, and this is the size of its contents. -/
structure TNode.Fits (n : TNode α) : Prop where
  w : n.bounds.w = (nodeBounds n.var).w
  h : n.bounds.h = (nodeBounds n.var).h
  barsX : n.barsX = stateLength n.var + 3
  dims : HasDims n.runes n.bounds.h n.bounds.w

theorem colorName_iff (s : String) : ColorName s ↔ s ∈ namedColors.map Prod.fst := by
  constructor
  · rintro ⟨c, rfl⟩
    cases c <;> decide
  · intro h
    obtain ⟨e, he, rfl⟩ := List.mem_map.1 h
    refine ⟨e.2, ?_⟩
    revert e
    decide

/-- Which colours are not known. -/
theorem nodeColor_none (v : NVar) : nodeColor v = none ↔ ¬ (v.color = "" ∨ ColorName v.color) := by
  unfold nodeColor
  by_cases h : v.color = ""
  · rw [if_pos h]
    simp only [h, true_or, not_true, iff_false]
    cases v.nodeType <;> simp
  · rw [if_neg h]
    simp only [h, false_or]
    unfold mapGet
    rw [Option.map_eq_none_iff, List.find?_eq_none, colorName_iff]
    simp [namedColors, eq_comm]

/-- A node is made for every variable whose colour is known. -/
theorem newNode_ok (v : NVar) (f : Option (NFactor α)) (hc : v.color = "" ∨ ColorName v.color) :
    ∃ n, newNode v f = .ok n ∧ n.var = v ∧ n.factor = f ∧ n.bounds = nodeBounds v ∧ n.Fits := by
  have hw := nodeBounds_w v
  have hh := nodeBounds_h v
  have hw' : (nodeBounds v).w ≥ 18 := by split_ifs at hw <;> omega
  have hh' : (nodeBounds v).h ≥ 3 := by split_ifs at hh <;> omega
  unfold newNode
  rw [if_neg (by rw [nodeColor_none, not_not]; exact hc)]
  obtain ⟨g1, e1, d1⟩ := drawBorder_dims false
    (hasDims_replicate (nodeBounds v).h (nodeBounds v).w ' ' (by omega) (by omega)) (by omega) (by omega)
  obtain ⟨g2, e2, d2⟩ := drawTitle_dims d1
  obtain ⟨g3, e3, d3⟩ := drawStateLabels_dims d2
  dsimp only
  rw [e1, ok_bind, e2, ok_bind, e3, ok_bind]
  exact ⟨_, rfl, rfl, rfl, rfl, ⟨rfl, rfl, rfl, d3⟩⟩

theorem newNode_inv {v : NVar} {f : Option (NFactor α)} {n : TNode α} (h : newNode v f = .ok n) :
    n.var = v ∧ n.factor = f ∧ n.bounds = nodeBounds v ∧ n.Fits ∧ (v.color = "" ∨ ColorName v.color) := by
  have hc : v.color = "" ∨ ColorName v.color := by
    by_contra hc
    unfold newNode at h
    rw [if_pos ((nodeColor_none v).2 hc)] at h
    cases h
  obtain ⟨n', h1, h2, h3, h4, h5⟩ := newNode_ok v f hc
  rw [h1] at h
  cases h
  exact ⟨h2, h3, h4, h5, hc⟩

/-- The bar of a number can be drawn: 10 cells, at most. -/
def Fmt.Bar (fm : Fmt α) (p : Option α) : Prop :=
  ∀ x, p = some x → 0 ≤ fm.full x ∧ fm.fracIdx x ≤ 6 ∧
    (fm.full x < 10 ∨ (fm.full x = 10 ∧ fm.fracIdx x ≤ 0))

theorem drawBar_dims {fm : Fmt α} {g : Grid} {h w barsX : Int} {i : Nat} {p : Option α} (hd : HasDims g h w)
    (hb : fm.Bar p) (hi : (i : Int) + 2 < h) (b0 : 0 ≤ barsX) (b1 : barsX + 11 ≤ w) :
    ∃ g', drawBar fm barsX g i p = .ok g' ∧ HasDims g' h w := by
  have key : ∀ full frac : Int, 0 ≤ full → frac ≤ 6 → (full < 10 ∨ (full = 10 ∧ frac ≤ 0)) →
      ∃ g', (do
        let g ← (intRange 0 full).foldlM (fun g j => gridSet g (i + 2) (barsX + j) '█') g
        let (g, full) ← (if frac > 0 then do
          let c ← goGetI partialRunes frac
          let g ← gridSet g (i + 2) (barsX + full) c
          return (g, full + 1)
        else return (g, full) : Except Fault (Grid × Int))
        let g ← (intRange full 10).foldlM (fun g j => gridSet g (i + 2) (barsX + j) '░') g
        gridCopyFrom g (i + 2) (barsX + 10 + 1) ((p.map fm.percent).getD "    ???").toList) = .ok g' ∧ HasDims g' h w := by
    intro full frac f0 f6 hf
    obtain ⟨g1, e1, d1⟩ := foldlM_keep (fun g => HasDims g h w) (fun (g : Grid) (j : Int) => gridSet g (i + 2) (barsX + j) '█')
      (intRange 0 full) g hd (by
        intro g j hj hg
        rw [intRange_spec] at hj
        exact gridSet_dims hg _ (by omega) (by omega) (by omega) (by omega))
    rw [e1, ok_bind]
    have tail : ∀ (g2 : Grid) (full : Int), HasDims g2 h w → 0 ≤ full →
        ∃ g', (do
          let g ← (intRange full 10).foldlM (fun g j => gridSet g (i + 2) (barsX + j) '░') g2
          gridCopyFrom g (i + 2) (barsX + 10 + 1) ((p.map fm.percent).getD "    ???").toList) = .ok g' ∧ HasDims g' h w := by
      intro g2 full d2 f0
      obtain ⟨g3, e3, d3⟩ := foldlM_keep (fun g => HasDims g h w) (fun (g : Grid) (j : Int) => gridSet g (i + 2) (barsX + j) '░')
        (intRange full 10) g2 d2 (by
          intro g j hj hg
          rw [intRange_spec] at hj
          exact gridSet_dims hg _ (by omega) (by omega) (by omega) (by omega))
      rw [e3, ok_bind]
      exact gridCopyFrom_dims d3 _ (by omega) (by omega) (by omega) (by omega)
    by_cases hz : frac > 0
    · obtain ⟨c, hc, _⟩ := goGetI_in (l := partialRunes) (i := frac) (by omega)
        (by show frac < (7 : Nat); omega)
      obtain ⟨g2, e2, d2⟩ := gridSet_dims d1 c (y := (i : Int) + 2) (x := barsX + full) (by omega) (by omega) (by omega) (by omega)
      obtain ⟨g3, e3, d3⟩ := tail g2 (full + 1) d2 (by omega)
      refine ⟨g3, ?_, d3⟩
      rw [if_pos hz, hc, ok_bind, e2, ok_bind]
      exact e3
    · obtain ⟨g3, e3, d3⟩ := tail g1 full d1 (by omega)
      refine ⟨g3, ?_, d3⟩
      rw [if_neg hz]
      exact e3
  unfold drawBar
  cases p with
  | none => exact key 0 0 (by omega) (by omega) (by omega)
  | some x =>
    obtain ⟨h1, h2, h3⟩ := hb x rfl
    exact key _ _ h1 h2 h3

theorem drawMarks_dims {b : Bounds} {g : Grid} {h : Int} {i : Nat} (s : Bool) (st : Int) (ev : Bool) (hd : HasDims g h b.w)
    (hi : (i : Int) + 2 < h) (hw : 2 ≤ b.w) : ∃ g', drawMarks b s st ev g i = .ok g' ∧ HasDims g' h b.w := by
  have key : ∀ l r : Char, ∃ g', (do
      let g ← gridSet g (i + 2) 1 l
      gridSet g (i + 2) (b.w - 2) r) = .ok g' ∧ HasDims g' h b.w := by
    intro l r
    obtain ⟨g1, e1, d1⟩ := gridSet_dims hd l (y := (i : Int) + 2) (x := 1) (by omega) (by omega) (by omega) (by omega)
    rw [e1, ok_bind]
    exact gridSet_dims d1 r (by omega) (by omega) (by omega) (by omega)
  unfold drawMarks
  exact key _ _

/-- The numbers of a node can be drawn: there are not more than there are lines, and bars are short enough. -/
def TNode.Drawable (fm : Fmt α) (n : TNode α) (probs : List (Option α)) : Prop :=
  if n.var.nodeType = .utility then probs.length ≤ n.var.outcomes.length + 2
  else probs.length ≤ n.var.outcomes.length + 1 ∧ ∀ p ∈ probs, fm.Bar p

theorem TNode.Fits.render_ok {fm : Fmt α} {n : TNode α} (hn : n.Fits) {probs : List (Option α)} (hp : n.Drawable fm probs)
    (s : Bool) (st : Int) (ev : Bool) : ∃ n', n.render fm probs s st ev = .ok n' ∧ n'.var = n.var ∧
      n'.factor = n.factor ∧ n'.bounds = n.bounds ∧ n'.Fits := by
  have hw := nodeBounds_w n.var
  have hh := nodeBounds_h n.var
  rw [← hn.w] at hw
  rw [← hn.h] at hh
  have hw' : n.bounds.w ≥ 18 := by split_ifs at hw <;> omega
  have hh' : n.bounds.h ≥ 3 := by split_ifs at hh <;> omega
  have hbx := hn.barsX
  unfold TNode.render
  obtain ⟨g1, e1, d1⟩ := drawBorder_dims s hn.dims (by omega) (by omega)
  rw [e1, ok_bind]
  dsimp only
  unfold TNode.Drawable at hp
  split_ifs at * with hu
  · obtain ⟨g2, e2, d2⟩ := foldlM_keep (fun g => HasDims g n.bounds.h n.bounds.w)
      (fun (g : Grid) (p : Option α × Nat) => gridCopyFrom g (p.2 + 2) (n.barsX + 1) ((p.1.map fm.utility).getD "         ???").toList)
      probs.zipIdx g1 d1 (by
        intro g p hm hg
        have := List.snd_lt_of_mem_zipIdx hm
        exact gridCopyFrom_dims hg _ (by omega) (by omega) (by omega) (by omega))
    refine ⟨{ n with runes := g2 }, ?_, rfl, rfl, rfl, ⟨hn.w, hn.h, hn.barsX, d2⟩⟩
    unfold TNode.drawUtility
    rw [e2]
    rfl
  · obtain ⟨g2, e2, d2⟩ := foldlM_keep (fun g => HasDims g n.bounds.h n.bounds.w)
      (fun (g : Grid) (p : Option α × Nat) => do
        let g ← drawBar fm n.barsX g p.2 p.1
        drawMarks n.bounds s st ev g p.2)
      probs.zipIdx g1 d1 (by
        intro g p hm hg
        have := List.snd_lt_of_mem_zipIdx hm
        have hpm : p.1 ∈ probs := List.fst_mem_of_mem_zipIdx hm
        obtain ⟨g', e', d'⟩ := drawBar_dims (fm := fm) (barsX := n.barsX) (i := p.2) hg (hp.2 _ hpm) (by omega) (by omega) (by omega)
        obtain ⟨g'', e'', d''⟩ := drawMarks_dims (i := p.2) s st ev d' (by omega) (by omega)
        exact ⟨g'', by rw [e', ok_bind, e''], d''⟩)
    refine ⟨{ n with runes := g2 }, ?_, rfl, rfl, rfl, ⟨hn.w, hn.h, hn.barsX, d2⟩⟩
    unfold TNode.drawBars
    rw [e2]
    rfl

/-! ## The canvas -/

/-- The rectangle lies in a canvas of `h` rows and `w` columns, and has at least one cell. -/
structure Bounds.Inside (b : Bounds) (h w : Int) : Prop where
  x0 : 0 ≤ b.x
  y0 : 0 ≤ b.y
  w1 : 1 ≤ b.w
  h1 : 1 ≤ b.h
  xw : b.x + b.w ≤ w
  yh : b.y + b.h ≤ h

theorem drawNode_dims {n : TNode α} {g : Grid} {h w : Int} (hn : n.Fits) (hb : n.bounds.Inside h w) (hd : HasDims g h w) :
    ∃ g', drawNode n g = .ok g' ∧ HasDims g' h w := by
  obtain ⟨b1, b2, b3, b4, b5, b6⟩ := hb
  unfold drawNode
  refine foldlM_keep (fun g => HasDims g h w) _ _ g hd ?_
  intro g p hm hg
  have := List.snd_lt_of_mem_zipIdx hm
  have hl := hn.dims.1
  exact gridCopyFrom_dims hg _ (by omega) (by omega) (by omega) (by omega)

theorem drawAt_dims {g : Grid} {h w : Int} (c : Char) (ps : List (Int × Int)) (hd : HasDims g h w)
    (hp : ∀ p ∈ ps, 0 ≤ p.1 ∧ p.1 < h ∧ 0 ≤ p.2 ∧ p.2 < w) : ∃ g', drawAt c ps g = .ok g' ∧ HasDims g' h w := by
  unfold drawAt
  refine foldlM_keep (fun g => HasDims g h w) _ _ g hd ?_
  intro g p hm hg
  obtain ⟨h1, h2, h3, h4⟩ := hp p hm
  exact gridSet_dims hg c h1 h2 h3 h4

theorem drawThen_dims {g : Grid} {h w y x : Int} (c c' : Char) (ps : List (Int × Int)) (hd : HasDims g h w)
    (hp : ∀ p ∈ ps, 0 ≤ p.1 ∧ p.1 < h ∧ 0 ≤ p.2 ∧ p.2 < w) (y0 : 0 ≤ y) (y1 : y < h) (x0 : 0 ≤ x) (x1 : x < w) :
    ∃ g', (do let g ← drawAt c ps g; gridSet g y x c') = .ok g' ∧ HasDims g' h w := by
  obtain ⟨g1, e1, d1⟩ := drawAt_dims c ps hd hp
  rw [e1, ok_bind]
  exact gridSet_dims d1 c' y0 y1 x0 x1

theorem tdiv_two_mid {a b : Int} (h0 : 0 ≤ a) (h : a < b) : a ≤ (a + b).tdiv 2 ∧ (a + b).tdiv 2 < b := by
  rw [Int.tdiv_eq_ediv_of_nonneg (by omega)]
  omega

theorem renderEdge_dims {b1 b2 : Bounds} {g : Grid} {h w : Int} (i1 : b1.Inside h w) (i2 : b2.Inside h w)
    (hd : HasDims g h w) : ∃ g', renderEdge b1 b2 g = .ok g' ∧ HasDims g' h w := by
  obtain ⟨p1, p2, p3, p4, p5, p6⟩ := i1
  obtain ⟨q1, q2, q3, q4, q5, q6⟩ := i2
  unfold renderEdge
  dsimp only
  split_ifs with hh hv hv
  · exact ⟨g, rfl, hd⟩
  · obtain ⟨m1, m2⟩ := tdiv_two_mid (a := max b1.x b2.x) (b := min (b1.x + b1.w) (b2.x + b2.w)) (by omega) (by omega)
    unfold edgeVertical
    dsimp only
    generalize (max b1.x b2.x + min (b1.x + b1.w) (b2.x + b2.w)).tdiv 2 = m at *
    split_ifs with hy
    · refine drawThen_dims _ _ _ hd ?_ (by omega) (by omega) (by omega) (by omega)
      intro p hp
      obtain ⟨y, hm, rfl⟩ := List.mem_map.1 hp
      rw [intRange_spec] at hm
      dsimp only; omega
    · refine drawThen_dims _ _ _ hd ?_ (by omega) (by omega) (by omega) (by omega)
      intro p hp
      obtain ⟨y, hm, rfl⟩ := List.mem_map.1 hp
      rw [intRange_spec] at hm
      dsimp only; omega
  · obtain ⟨m1, m2⟩ := tdiv_two_mid (a := max b1.y b2.y) (b := min (b1.y + b1.h) (b2.y + b2.h)) (by omega) (by omega)
    unfold edgeHorizontal
    dsimp only
    generalize (max b1.y b2.y + min (b1.y + b1.h) (b2.y + b2.h)).tdiv 2 = m at *
    split_ifs with hy
    · refine drawThen_dims _ _ _ hd ?_ (by omega) (by omega) (by omega) (by omega)
      intro p hp
      obtain ⟨y, hm, rfl⟩ := List.mem_map.1 hp
      rw [intRange_spec] at hm
      dsimp only; omega
    · refine drawThen_dims _ _ _ hd ?_ (by omega) (by omega) (by omega) (by omega)
      intro p hp
      obtain ⟨y, hm, rfl⟩ := List.mem_map.1 hp
      rw [intRange_spec] at hm
      dsimp only; omega
  · have second : ∀ (g : Grid) (ys xs : Int), HasDims g h w → 0 ≤ ys → ys < h → 0 ≤ xs → xs < w → ∃ g',
        (if b2.y > b1.y then do
          let g ← drawAt '│' ((intRange (ys + 1) b2.y).map (fun y => (y, xs))) g
          gridSet g (b2.y - 1) xs 'v'
        else do
          let g ← drawAt '│' (((intRange (b2.y + b2.h + 1) ys).reverse).map (fun y => (y, xs))) g
          gridSet g (b2.y + b2.h) xs '^') = .ok g' ∧ HasDims g' h w := by
      intro g ys xs hd y0 y1 x0 x1
      split_ifs with hy
      · refine drawThen_dims _ _ _ hd ?_ (by omega) (by omega) (by omega) (by omega)
        intro p hp
        obtain ⟨y, hm, rfl⟩ := List.mem_map.1 hp
        rw [intRange_spec] at hm
        dsimp only; omega
      · refine drawThen_dims _ _ _ hd ?_ (by omega) (by omega) (by omega) (by omega)
        intro p hp
        obtain ⟨y, hm, rfl⟩ := List.mem_map.1 hp
        rw [List.mem_reverse, intRange_spec] at hm
        dsimp only; omega
    unfold edgeCorner
    have ys0 : 0 ≤ (if b2.y > b1.y then b1.y + b1.h - 1 else b1.y) ∧ (if b2.y > b1.y then b1.y + b1.h - 1 else b1.y) < h := by
      split_ifs <;> omega
    have xs0 : 0 ≤ (if b2.x > b1.x then b2.x else b2.x + b2.w - 1) ∧ (if b2.x > b1.x then b2.x else b2.x + b2.w - 1) < w := by
      split_ifs <;> omega
    dsimp only
    generalize (if b2.y > b1.y then b1.y + b1.h - 1 else b1.y) = ys at *
    by_cases hx : b2.x > b1.x
    · rw [if_pos hx] at *
      rw [if_pos hx]
      obtain ⟨g1, e1, d1⟩ := drawThen_dims (y := ys) (x := b2.x) '─' (if b2.y > b1.y then '┐' else '┘')
        ((intRange (b1.x + b1.w) b2.x).map (fun x => (ys, x))) hd (by
          intro p hp
          obtain ⟨y, hm, rfl⟩ := List.mem_map.1 hp
          rw [intRange_spec] at hm
          dsimp only; omega) (by omega) (by omega) (by omega) (by omega)
      obtain ⟨g2, e2, d2⟩ := second g1 ys b2.x d1 (by omega) (by omega) (by omega) (by omega)
      refine ⟨g2, ?_, d2⟩
      obtain ⟨g0, e0, e1⟩ := bind_inv e1
      rw [e0, ok_bind, e1, ok_bind]
      exact e2
    · rw [if_neg hx] at *
      rw [if_neg hx]
      obtain ⟨g1, e1, d1⟩ := drawThen_dims (y := ys) (x := b2.x + b2.w - 1) '─' (if b2.y > b1.y then '┌' else '└')
        (((intRange (b2.x + b2.w) b1.x).reverse).map (fun x => (ys, x))) hd (by
          intro p hp
          obtain ⟨y, hm, rfl⟩ := List.mem_map.1 hp
          rw [List.mem_reverse, intRange_spec] at hm
          dsimp only; omega) (by omega) (by omega) (by omega) (by omega)
      obtain ⟨g2, e2, d2⟩ := second g1 ys (b2.x + b2.w - 1) d1 (by omega) (by omega) (by omega) (by omega)
      refine ⟨g2, ?_, d2⟩
      obtain ⟨g0, e0, e1⟩ := bind_inv e1
      rw [e0, ok_bind, e1, ok_bind]
      exact e2

end Bbn
