import Verif.Spec.Screen
import Verif.Lemmas.TuiPicture

/-!
# The colours of the canvas, and reading the text that is made of them
-/

set_option autoImplicit false

namespace Bbn

variable {α : Type}

/-! ## The grid of colours -/

/-- The colour of a node in the model. -/
def TNode.paint (n : TNode α) : Color := (nodeColor n.var).getD .black

theorem paint_hasColor {n : TNode α} (h : n.var.color = "" ∨ ColorName n.var.color) : HasColor n.var n.paint := by
  unfold HasColor TNode.paint nodeColor
  by_cases hc : n.var.color = ""
  · rw [if_pos hc, if_pos hc]
    cases n.var.nodeType <;> rfl
  · rw [if_neg hc, if_neg hc]
    have h := h.resolve_left hc
    obtain ⟨c, h⟩ := h
    rw [h]
    cases c <;> rfl

theorem Color.name_inj {c d : Color} (h : c.name = d.name) : c = d := by
  revert h
  cases c <;> cases d <;> decide

theorem HasColor.unique {v : NVar} {c d : Color} (hc : HasColor v c) (hd : HasColor v d) : c = d := by
  unfold HasColor at hc hd
  split_ifs at hc hd
  · rw [hc, hd]
  · rw [hc, hd]
  · rw [hc, hd]
  · exact Color.name_inj (hc ▸ hd)

theorem pic_copyColors {cs : List (List Color)} {h w : Int} {F : Int → Int → Color} (hp : Pictures cs h w F) (y x m : Nat)
    (c : Color) (hx : (x : Int) + m ≤ w) : Pictures (copyColors cs y x (List.replicate m c)) h w
      (fun y' x' => if y' = y ∧ (x : Int) ≤ x' ∧ x' < x + m then c else F y' x') := by
  unfold copyColors
  refine ⟨?_, ?_, ?_⟩
  · rw [List.length_modify]; exact hp.rows
  · intro row hr
    obtain ⟨i, hi⟩ := List.getElem?_of_mem hr
    rw [List.getElem?_modify] at hi
    cases hrow : cs[i]? with
    | none => rw [hrow] at hi; cases hi
    | some r =>
      rw [hrow] at hi
      have hl := hp.columns r (List.mem_of_getElem? hrow)
      simp only [Option.map_eq_map, Option.map_some, Option.some.injEq] at hi
      rw [← hi]
      split_ifs
      · simp only [List.length_append, List.length_take, List.length_replicate, List.length_drop]
        omega
      · exact hl
  · intro i j row c' hi hj
    rw [List.getElem?_modify] at hi
    cases hrow : cs[i]? with
    | none => rw [hrow] at hi; cases hi
    | some r =>
      rw [hrow] at hi
      have hl := hp.columns r (List.mem_of_getElem? hrow)
      simp only [Option.map_eq_map, Option.map_some, Option.some.injEq] at hi
      have hcell : ∀ c', r[j]? = some c' → c' = F i j := fun c' h' => hp.cell i j r c' hrow h'
      by_cases hy : y = i
      · rw [if_pos hy] at hi
        rw [← hi] at hj
        rw [List.getElem?_append, List.getElem?_append] at hj
        simp only [List.length_append, List.length_take, List.length_replicate] at hj
        split_ifs at hj with h1 h2
        · rw [List.getElem?_take, if_pos (by omega)] at hj
          rw [if_neg (by omega)]
          exact hcell _ hj
        · rw [List.getElem?_take] at hj
          split_ifs at hj with h3
          rw [List.getElem?_replicate] at hj
          split_ifs at hj with h4
          cases hj
          rw [if_pos (by omega)]
        · rw [List.getElem?_drop] at hj
          rw [if_neg (by omega)]
          refine hcell _ ?_
          rw [← hj]
          congr 1
          omega
      · rw [if_neg hy] at hi
        subst hi
        rw [if_neg (by omega)]
        exact hcell _ hj

theorem pic_copyRows {h w : Int} (by_ bx m : Nat) (c : Color) (hx : (bx : Int) + m ≤ w) : ∀ (k i : Nat)
    (cs : List (List Color)) (F : Int → Int → Color), Pictures cs h w F →
    Pictures (((List.replicate k (List.replicate m c)).zipIdx i).foldl (fun cs p => copyColors cs (by_ + p.2) bx p.1) cs) h w
      (fun y x => if (by_ : Int) + i ≤ y ∧ y < by_ + i + k ∧ (bx : Int) ≤ x ∧ x < bx + m then c else F y x) := by
  intro k
  induction k with
  | zero =>
    intro i cs F hp
    refine ⟨hp.rows, hp.columns, ?_⟩
    intro y x row c' h1 h2
    rw [if_neg (by omega)]
    exact hp.cell y x row c' h1 h2
  | succ k ih =>
    intro i cs F hp
    rw [List.replicate_succ, List.zipIdx_cons, List.foldl_cons]
    have := ih (i + 1) _ _ (pic_copyColors hp (by_ + i) bx m c hx)
    refine ⟨this.rows, this.columns, ?_⟩
    intro y x row c' h1 h2
    rw [this.cell y x row c' h1 h2]
    push_cast
    split_ifs <;> first | rfl | omega

theorem pic_drawColors {n : TNode α} (hf : n.Fits) {h w : Int} (hb : n.bounds.Inside h w) {cs : List (List Color)}
    {F : Int → Int → Color} (hp : Pictures cs h w F) :
    Pictures (drawColors n cs) h w (fun y x => if n.bounds.contains x y = true then n.paint else F y x) := by
  obtain ⟨x0, y0, w1, h1, xw, yh⟩ := hb
  obtain ⟨d1, d2⟩ := hf.dims
  have e : n.colors = List.replicate n.bounds.h.toNat (List.replicate n.bounds.w.toNat n.paint) := by
    unfold TNode.colors
    rw [List.eq_replicate_iff]
    refine ⟨by rw [List.length_map]; omega, ?_⟩
    intro row hr
    obtain ⟨r, hm, rfl⟩ := List.mem_map.1 hr
    rw [List.map_const', List.eq_replicate_iff]
    have := d2 r hm
    exact ⟨by rw [List.length_replicate]; omega, fun b hb => List.eq_of_mem_replicate hb⟩
  unfold drawColors
  rw [e]
  have key := pic_copyRows (h := h) (w := w) n.bounds.y.toNat n.bounds.x.toNat n.bounds.w.toNat n.paint (by omega)
    n.bounds.h.toNat 0 cs F hp
  have e2 : (fun (cs : List (List Color)) (p : List Color × Nat) =>
      copyColors cs (n.bounds.y + (p.2 : Nat)).toNat n.bounds.x.toNat p.1) =
      fun cs p => copyColors cs (n.bounds.y.toNat + p.2) n.bounds.x.toNat p.1 := by
    funext cs p
    rw [show (n.bounds.y + (p.2 : Nat)).toNat = n.bounds.y.toNat + p.2 by omega]
  rw [e2]
  refine ⟨key.rows, key.columns, ?_⟩
  intro y x row c' h1 h2
  rw [key.cell y x row c' h1 h2]
  unfold Bounds.contains
  simp only [ge_iff_le, Bool.and_eq_true, decide_eq_true_eq]
  split_ifs <;> first | rfl | omega

theorem pic_allColors {h w : Int} : ∀ (ns : List (TNode α)) (cs : List (List Color)) (F : Int → Int → Color),
    (∀ n ∈ ns, n.Fits ∧ n.bounds.Inside h w) → Pictures cs h w F →
    Pictures (ns.foldl (fun cs n => drawColors n cs) cs) h w (fun y x =>
      match ns.reverse.find? (fun n => n.bounds.contains x y) with
      | some n => n.paint
      | none => F y x) := by
  intro ns
  induction ns with
  | nil => intro cs F _ hp; exact ⟨hp.rows, hp.columns, hp.cell⟩
  | cons n ns ih =>
    intro cs F hn hp
    obtain ⟨h1, h2⟩ := hn n (by simp)
    have := ih _ _ (fun m hm => hn m (by simp [hm])) (pic_drawColors h1 h2 hp)
    rw [List.foldl_cons]
    refine ⟨this.rows, this.columns, ?_⟩
    intro y x row c' e1 e2
    rw [this.cell y x row c' e1 e2]
    rw [List.reverse_cons, List.find?_append]
    cases ns.reverse.find? (fun n => n.bounds.contains x y) with
    | some m => rfl
    | none =>
      rw [Option.none_or]
      by_cases hc : n.bounds.contains x y = true
      · simp [List.find?, hc]
      · simp [List.find?, hc]

/-- The colour at a place, in the model. -/
def App.paintAt (a : App α) (y x : Int) : Color :=
  match a.nodes.reverse.find? (fun n => n.bounds.contains x y) with
  | some n => n.paint
  | none => .white

/-- The colours and the text of an app are those of its nodes and its canvas. -/
structure App.Colored (a : App α) : Prop where
  colors : ∀ h w, HasDims a.canvas h w → Pictures a.colors h w a.paintAt
  text : a.text = canvasText a.canvas a.colors

theorem paintAt_congr {a b : App α} (h : b.nodes.map (fun n => (n.var, n.bounds)) = a.nodes.map (fun n => (n.var, n.bounds))) :
    b.paintAt = a.paintAt := by
  funext y x
  have key : ∀ a : App α, a.paintAt y x =
      match ((a.nodes.map (fun n => (n.var, n.bounds))).reverse.find? (fun p => p.2.contains x y)) with
      | some p => (nodeColor p.1).getD .black
      | none => .white := by
    intro a
    unfold App.paintAt
    rw [← List.map_reverse, List.find?_map]
    have : ((fun p : NVar × Bounds => p.2.contains x y) ∘ fun n : TNode α => (n.var, n.bounds)) =
        fun n : TNode α => n.bounds.contains x y := rfl
    rw [this]
    cases a.nodes.reverse.find? (fun n => n.bounds.contains x y) with
    | none => rfl
    | some n => rfl
  rw [key, key, h]

theorem colored_render {fm : Fmt α} {a b : App α} {u : Bool} (h : a.render fm u = .ok b) (hp : a.Placed)
    (hc : u = true → ∀ h w, HasDims a.canvas h w → Pictures a.colors h w a.paintAt)
    (hd : ∀ h w, HasDims a.canvas h w → (a.colors.length : Int) = h ∧ ∀ row ∈ a.colors, (row.length : Int) = w) :
    b.Colored := by
  have hS := App.render_same h
  have hpb := hp.render h
  have hn : b.nodes.map (fun n => (n.var, n.bounds)) = a.nodes.map (fun n => (n.var, n.bounds)) := by
    have := congrArg (List.map (fun p : NVar × Option (NFactor α) × Bounds × Int => (p.1, p.2.2.1))) hS.nodes
    rw [List.map_map, List.map_map] at this
    exact this
  obtain ⟨hh, w, kd, kh, kb⟩ := hp.canvas
  have hb : ∀ n ∈ b.nodes, n.bounds.Inside hh w := by
    intro n hn'
    have : (n.var, n.bounds) ∈ b.nodes.map (fun n => (n.var, n.bounds)) := List.mem_map_of_mem hn'
    rw [hn] at this
    obtain ⟨m, hm, e⟩ := List.mem_map.1 this
    simp only [Prod.mk.injEq] at e
    rw [← e.2]
    exact kb m hm
  have hdims : HasDims b.canvas hh w := by
    have h0 := h
    unfold App.render at h0
    dsimp only at h0
    split_ifs at h0 with hu
    · obtain ⟨g, h1, h0⟩ := bind_inv h0
      cases h1
      obtain ⟨r, h2, h0⟩ := bind_inv h0
      cases h0
      exact (renderNodes_keep _ _ _ h2 hp.fits kd).2
    · obtain ⟨g, h1, h0⟩ := bind_inv h0
      obtain ⟨r, h2, h0⟩ := bind_inv h0
      cases h0
      obtain ⟨g', e, d⟩ := renderEdges_ok hp.index (renderEdges_factor h1) kb (clearCanvas_dims kd)
      rw [e] at h1
      cases h1
      exact (renderNodes_keep _ _ _ h2 hp.fits d).2
  obtain ⟨e1, e2⟩ : b.text = canvasText b.canvas b.colors ∧
      b.colors = b.nodes.foldl (fun cs n => drawColors n cs) (bif u then a.colors else clearColors a.colors) := by
    unfold App.render at h
    dsimp only at h
    split_ifs at h with hu
    all_goals
      obtain ⟨g, h1, h⟩ := bind_inv h
      obtain ⟨r, h2, h⟩ := bind_inv h
      cases h
      exact ⟨rfl, rfl⟩
  refine ⟨?_, e1⟩
  intro h' w' hd'
  have hh' : h' = hh := hd'.1.symm.trans hdims.1
  have hw' : w' = w := by
    obtain ⟨row, hr⟩ : ∃ row, row ∈ b.canvas := by
      apply List.exists_mem_of_ne_nil
      intro e0
      have := hdims.1
      rw [e0] at this
      simp only [List.length_nil] at this
      omega
    rw [← hd'.2 row hr, hdims.2 row hr]
  subst hh' hw'
  obtain ⟨F, hF, hout⟩ : ∃ F, Pictures (bif u then a.colors else clearColors a.colors) h' w' F ∧
      ∀ y x, a.nodes.reverse.find? (fun n => n.bounds.contains x y) = none → F y x = .white := by
    cases u with
    | true =>
      refine ⟨a.paintAt, hc rfl h' w' kd, ?_⟩
      intro y x e
      unfold App.paintAt
      rw [e]
    | false =>
      obtain ⟨d1, d2⟩ := hd h' w' kd
      refine ⟨fun _ _ => .white, ⟨?_, ?_, ?_⟩, fun _ _ _ => rfl⟩
      · show ((clearColors a.colors).length : Int) = h'
        unfold clearColors
        rw [List.length_map]; exact d1
      · show ∀ row ∈ clearColors a.colors, _
        intro row hr
        obtain ⟨r, hm, rfl⟩ := List.mem_map.1 hr
        rw [List.length_map]; exact d2 r hm
      · intro y x row c k1 k2
        have k1 : (clearColors a.colors)[y]? = some row := k1
        unfold clearColors at k1
        rw [List.getElem?_map] at k1
        obtain ⟨r, _, rfl⟩ := Option.map_eq_some_iff.1 k1
        rw [List.getElem?_map] at k2
        obtain ⟨_, _, rfl⟩ := Option.map_eq_some_iff.1 k2
        rfl
  have key := pic_allColors (h := h') (w := w') b.nodes _ F (fun n hn => ⟨hpb.fits n hn, hb n hn⟩) hF
  rw [← e2] at key
  refine ⟨key.rows, key.columns, ?_⟩
  intro y x row c k1 k2
  rw [key.cell y x row c k1 k2]
  unfold App.paintAt
  have hnone : ∀ y x : Int, b.nodes.reverse.find? (fun n => n.bounds.contains x y) = none →
      a.nodes.reverse.find? (fun n => n.bounds.contains x y) = none := by
    intro y x e
    rw [List.find?_eq_none] at e ⊢
    intro m hm
    rw [List.mem_reverse] at hm
    have : (m.var, m.bounds) ∈ a.nodes.map (fun n => (n.var, n.bounds)) := List.mem_map_of_mem hm
    rw [← hn] at this
    obtain ⟨z, hz, e'⟩ := List.mem_map.1 this
    simp only [Prod.mk.injEq] at e'
    rw [← e'.2]
    exact e z (List.mem_reverse.2 hz)
  cases e : b.nodes.reverse.find? (fun n => n.bounds.contains (x : Int) (y : Int)) with
  | some n => rfl
  | none => exact hout y x (hnone y x e)

theorem App.Colored.step [Zero α] [One α] [Add α] [Mul α] [Div α] [DecidableEq α] {fm : Fmt α} {sch : Nat → NSched α}
    {a a' : App α} {e : Event} (hc : a.Colored) (hp : a.Placed) (h : a.step fm sch e = .ok a') : a'.Colored := by
  cases step_drawn h with
  | still e => rw [e]; exact hc
  | update c hn hb hcv hcl hv h =>
    have hpic : ∀ h w, HasDims c.canvas h w → Pictures c.colors h w c.paintAt := by
      intro h w hd
      rw [hcv] at hd
      rw [hcl, paintAt_congr (a := a) (b := c) (by rw [hn])]
      exact hc.colors h w hd
    exact colored_render h (hp.congr hn hb hcv hv) (fun _ => hpic) (fun h w hd => ⟨(hpic h w hd).rows, (hpic h w hd).columns⟩)
  | move key n d v ns vs g hn hd hv hns hvs hg h =>
    refine colored_render h (hp.moved hn hd hv hns hvs hg _) (fun hu => by cases hu) ?_
    intro hh w hdm
    show (((bif d.2.2 then createColors g else a.colors) : List (List Color)).length : Int) = hh ∧
      ∀ row ∈ (bif d.2.2 then createColors g else a.colors), (row.length : Int) = w
    have hdm : HasDims g hh w := hdm
    cases hd2 : d.2.2 with
    | true =>
      rw [cond_true]
      unfold createColors
      refine ⟨by rw [List.length_map]; exact hdm.1, ?_⟩
      intro row hr
      obtain ⟨r, hm, rfl⟩ := List.mem_map.1 hr
      rw [List.length_map]
      exact hdm.2 r hm
    | false =>
      rw [hd2, cond_false] at hg
      cases hg
      rw [cond_false]
      exact ⟨(hc.colors hh w hdm).rows, (hc.colors hh w hdm).columns⟩

theorem colored_run [Zero α] [One α] [Add α] [Mul α] [Div α] [DecidableEq α] {fm : Fmt α} {sch : Nat → Nat → NSched α} :
    ∀ (es : List Event) (k : Nat) (a a' : App α), App.run fm sch k es a = .ok a' → a.Placed → a.Colored →
    a'.Placed ∧ a'.Colored := by
  intro es
  induction es with
  | nil => intro k a a' h hp hc; cases h; exact ⟨hp, hc⟩
  | cons e es ih =>
    intro k a a' h hp hc
    rw [App.run] at h
    obtain ⟨b, hb, h⟩ := bind_inv h
    exact ih _ _ _ h (hp.step hb) (hc.step hp hb)

theorem App.Placed.render_dims {fm : Fmt α} {a a' : App α} {u : Bool} (h : a.Placed) (hr : a.render fm u = .ok a') {hh w : Int}
    (kd : HasDims a.canvas hh w) (kb : ∀ m ∈ a.nodes, m.bounds.Inside hh w) : HasDims a'.canvas hh w := by
  obtain ⟨k1, k2, _, _⟩ := h
  unfold App.render at hr
  dsimp only at hr
  split_ifs at hr
  · obtain ⟨g, h1, hr⟩ := bind_inv hr
    cases h1
    obtain ⟨r, h2, hr⟩ := bind_inv hr
    cases hr
    exact (renderNodes_keep _ _ _ h2 k1 kd).2
  · obtain ⟨g, h1, hr⟩ := bind_inv hr
    obtain ⟨r, h2, hr⟩ := bind_inv hr
    cases hr
    obtain ⟨g', e, d⟩ := renderEdges_ok k2 (renderEdges_factor h1) kb (clearCanvas_dims kd)
    rw [e] at h1
    cases h1
    exact (renderNodes_keep _ _ _ h2 k1 d).2

/-- The canvas at the start has the size that holds all boxes. -/
theorem startApp_canvas [Zero α] [One α] [Add α] [Mul α] [Div α] [DecidableEq α] [NatCast α] [LE α] [DecidableLE α] [LT α]
    [DecidableLT α] {fm : Fmt α} {sch0 : NSched α} {sch : Nat → NSched α} {n : Net α} {evidence : List (String × String)}
    {a : App α} (h : startApp fm sch0 sch n evidence = .ok a) : a.Colored ∧
      ∃ (nodes : List (TNode α)) (g : Grid) (hh w : Int), nodes.map TNode.bounds = a.nodes.map TNode.bounds ∧ createCanvas nodes = .ok g ∧ HasDims g hh w ∧
        HasDims a.canvas hh w := by
  obtain ⟨st, _, hpl⟩ := startApp_inv h
  unfold startApp at h
  obtain ⟨nodes, h1, h⟩ := bind_inv h
  dsimp only at h
  obtain ⟨policies, h2, h⟩ := bind_inv h
  obtain ⟨ns, h3, h⟩ := bind_inv h
  have hsame := usePolicies_same h3
  obtain ⟨_, _, n3, _⟩ := appNodes_spec h1
  have s3 : ∀ m ∈ ns, m.Fits := by
    intro m hm
    have : (m.var, m.bounds, m.runes, m.barsX) ∈ ns.map (fun n => (n.var, n.bounds, n.runes, n.barsX)) :=
      List.mem_map_of_mem hm
    rw [hsame] at this
    obtain ⟨x, hx, e⟩ := List.mem_map.1 this
    simp only [Prod.mk.injEq] at e
    obtain ⟨f1, f2, f3, f4⟩ := n3 x hx
    obtain ⟨e1, e2, e3, e4⟩ := e
    exact ⟨by rw [← e1, ← e2]; exact f1, by rw [← e1, ← e2]; exact f2, by rw [← e1, ← e4]; exact f3,
      by rw [← e2, ← e3]; exact f4⟩
  obtain ⟨u1, u2, _⟩ := updateMarginals_same (sch := sch) (⟨ns, nodes.zipIdx.foldl (fun m p => mapSet m p.1.var.name p.2) [],
    (n.solvePolicies sch0 true).2, evidence, [], 0, 0, false, [], [], ""⟩ : App α)
  rcases hm : App.updateMarginals sch (⟨ns, nodes.zipIdx.foldl (fun m p => mapSet m p.1.var.name p.2) [],
    (n.solvePolicies sch0 true).2, evidence, [], 0, 0, false, [], [], ""⟩ : App α) with ⟨e | u, b⟩
  · rw [hm] at h; cases h
  rw [hm] at h u1 u2
  dsimp only at h u1 u2
  obtain ⟨g, hg, h⟩ := bind_inv h
  have hS := App.render_same h
  obtain ⟨_, k2, ⟨_, _, _, _, kb⟩, k4⟩ := hpl
  have hin : ∀ m ∈ b.nodes, 0 ≤ m.bounds.x ∧ 0 ≤ m.bounds.y ∧ 1 ≤ m.bounds.w ∧ 1 ≤ m.bounds.h := by
    intro m hm
    have : m.bounds ∈ a.nodes.map TNode.bounds := by rw [hS.boundsEq]; exact List.mem_map_of_mem hm
    obtain ⟨x, hx, e⟩ := List.mem_map.1 this
    rw [← e]
    have := kb x hx
    exact ⟨this.x0, this.y0, this.w1, this.h1⟩
  obtain ⟨g', hh, w, e1, e2, e3, e4⟩ := createCanvas_inside hin
  rw [hg] at e1
  cases e1
  have hPl : App.Placed { b with canvas := g, colors := createColors g } := by
    refine ⟨?_, ?_, ⟨hh, w, e2, e3, e4⟩, ?_⟩
    · show ∀ m ∈ b.nodes, m.Fits
      rw [u1]; exact s3
    · intro name hne
      have hlen : a.nodes.length = b.nodes.length := hS.length
      have hbn : a.byName = b.byName := hS.byName
      show intGet b.byName name < b.nodes.length
      rw [← hlen, ← hbn]
      refine k2 name ?_
      intro e
      apply hne
      show b.nodes = []
      rw [← List.length_eq_zero_iff, ← hlen, e]
      rfl
    · rw [hS.network] at k4
      refine k4.trans ?_
      have := congrArg (List.map (fun p => (p.1.name, p.1.nodeType, p.1.outcomes, (p.2.2.1.x, p.2.2.1.y)))) hS.nodes
      rw [List.map_map, List.map_map] at this
      exact this
  refine ⟨colored_render h hPl (fun hu => by cases hu) ?_, b.nodes, g, hh, w, hS.boundsEq.symm, hg, e2, hPl.render_dims h e2 e4⟩
  intro h' w' hd
  have hd : HasDims g h' w' := hd
  show ((createColors g).length : Int) = h' ∧ ∀ row ∈ createColors g, (row.length : Int) = w'
  unfold createColors
  refine ⟨by rw [List.length_map]; exact hd.1, ?_⟩
  intro row hr
  obtain ⟨r, hm, rfl⟩ := List.mem_map.1 hr
  rw [List.length_map]
  exact hd.2 r hm

theorem startApp_colored [Zero α] [One α] [Add α] [Mul α] [Div α] [DecidableEq α] [NatCast α] [LE α] [DecidableLE α] [LT α]
    [DecidableLT α] {fm : Fmt α} {sch0 : NSched α} {sch : Nat → NSched α} {n : Net α} {evidence : List (String × String)}
    {a : App α} (h : startApp fm sch0 sch n evidence = .ok a) : a.Colored := (startApp_canvas h).1

/-! ## Reading the text -/

theorem tag_mark (d : Color) : d.tag.toList = d.mark := by cases d <;> decide

theorem Color.tag_inj {c d : Color} {s t : List Char} (h : c.mark ++ s = d.mark ++ t) : c = d ∧ s = t := by
  have hp : c.mark <+: d.mark ++ t := ⟨s, h⟩
  have hq : d.mark <+: d.mark ++ t := ⟨t, rfl⟩
  have hcd : c = d := by
    have h0 : c.mark <+: d.mark ∨ d.mark <+: c.mark := List.prefix_or_prefix_of_prefix hp hq
    revert h0
    clear h hp hq
    cases c <;> cases d <;> decide
  subst hcd
  exact ⟨rfl, List.append_cancel_left h⟩

/-- What is shown is determined by the text. -/
theorem Reads.unique {c : Color} {text : List Char} {s t : List (Char × Color)} (hs : Reads c text s) (ht : Reads c text t) :
    s = t := by
  induction hs generalizing t with
  | done c =>
    generalize hx : ([] : List Char) = x at ht
    cases ht with
    | done => rfl
    | tag d e text shown h =>
      have : e.mark ≠ [] := by cases e <;> decide
      rw [eq_comm, List.append_eq_nil_iff] at hx
      exact absurd hx.1 this
    | char => cases hx
  | tag c d text shown h ih =>
    generalize hx : d.mark ++ text = x at ht
    cases ht with
    | done =>
      have : d.mark ≠ [] := by cases d <;> decide
      rw [List.append_eq_nil_iff] at hx
      exact absurd hx.1 this
    | tag _ e text' shown' h' =>
      obtain ⟨rfl, rfl⟩ := Color.tag_inj hx
      exact ih h'
    | char _ r text' shown' hn h' => exact absurd ⟨text, hx⟩ (hn d)
  | char c r text shown hn h ih =>
    generalize hx : r :: text = x at ht
    cases ht with
    | done => cases hx
    | tag _ e text' shown' h' => exact absurd ⟨text', hx.symm⟩ (hn e)
    | char _ r' text' shown' hn' h' =>
      cases hx
      rw [ih h']

theorem tag_shape (d : Color) : ∃ body : List Char, d.mark = '[' :: (body ++ [']']) ∧ '[' ∉ body := by
  cases d
  · exact ⟨"black".toList, by decide, by decide⟩
  · exact ⟨"maroon".toList, by decide, by decide⟩
  · exact ⟨"green".toList, by decide, by decide⟩
  · exact ⟨"olive".toList, by decide, by decide⟩
  · exact ⟨"navy".toList, by decide, by decide⟩
  · exact ⟨"purple".toList, by decide, by decide⟩
  · exact ⟨"teal".toList, by decide, by decide⟩
  · exact ⟨"silver".toList, by decide, by decide⟩
  · exact ⟨"gray".toList, by decide, by decide⟩
  · exact ⟨"red".toList, by decide, by decide⟩
  · exact ⟨"lime".toList, by decide, by decide⟩
  · exact ⟨"yellow".toList, by decide, by decide⟩
  · exact ⟨"blue".toList, by decide, by decide⟩
  · exact ⟨"fuchsia".toList, by decide, by decide⟩
  · exact ⟨"aqua".toList, by decide, by decide⟩
  · exact ⟨"-".toList, by decide, by decide⟩

/-- Text without an opening bracket that starts a line is part of its characters: tags come between them only as a whole. -/
theorem prefix_line : ∀ (row : List (Char × Color)) (prev : Color) (T : List Char) (p : List Char),
    '[' ∉ p → p <+: (lineText prev row).1 ++ '[' :: T → p <+: row.map Prod.fst := by
  intro row
  induction row with
  | nil =>
    intro prev T p hp h
    cases p with
    | nil => exact List.nil_prefix
    | cons x p =>
      obtain ⟨t, ht⟩ := h
      simp only [lineText, List.nil_append, List.cons_append, List.cons.injEq] at ht
      exact absurd (by rw [ht.1]; simp) hp
  | cons q row ih =>
    obtain ⟨r, c⟩ := q
    intro prev T p hp h
    cases p with
    | nil => exact List.nil_prefix
    | cons x p =>
      obtain ⟨t, ht⟩ := h
      rw [lineText] at ht
      dsimp only at ht
      split_ifs at ht with hc
      · obtain ⟨body, hb, _⟩ := tag_shape c
        rw [tag_mark, hb] at ht
        simp only [List.cons_append, List.cons.injEq] at ht
        exact absurd (by rw [ht.1]; simp) hp
      · simp only [List.nil_append, List.cons_append, List.cons.injEq] at ht
        rw [List.map_cons, ht.1, List.cons_prefix_cons]
        exact ⟨rfl, ih c T p (fun h => hp (List.mem_cons_of_mem _ h)) ⟨t, ht.2⟩⟩

/-- A line as shown: the widget shows `cur`, the program takes it to show `prev`. -/
def readLine : Color → Color → List (Char × Color) → List (Char × Color)
  | _, _, [] => []
  | cur, prev, (r, c) :: rest =>
    let cur := if c ≠ prev then c else cur
    (r, cur) :: readLine cur c rest

theorem reads_line {T : List Char} {out : List (Char × Color)} : ∀ (row : List (Char × Color)) (cur prev : Color),
    (∀ c, Reads c ('[' :: T) out) → NoTag (row.map Prod.fst) →
    Reads cur ((lineText prev row).1 ++ '[' :: T) (readLine cur prev row ++ out) := by
  intro row
  induction row with
  | nil => intro cur prev h _; exact h cur
  | cons q row ih =>
    obtain ⟨r, c⟩ := q
    intro cur prev h hn
    have hn' : NoTag (row.map Prod.fst) := by
      intro d hd
      exact hn d (hd.trans (List.suffix_cons _ _).isInfix)
    have main : ∀ cur', Reads cur' (r :: ((lineText c row).1 ++ '[' :: T)) ((r, cur') :: (readLine cur' c row ++ out)) := by
      intro cur'
      refine .char _ _ _ _ ?_ (ih cur' c h hn')
      intro d hd
      obtain ⟨body, hb, hb'⟩ := tag_shape d
      rw [hb, List.cons_prefix_cons] at hd
      obtain ⟨e, hd⟩ := hd
      have hbr : '[' ∉ body ++ [']'] := by
        rw [List.mem_append]
        rintro (h | h)
        · exact hb' h
        · simp at h
      have := prefix_line row c T _ hbr hd
      refine hn d ?_
      rw [hb, List.map_cons]
      show '[' :: (body ++ [']']) <:+: r :: _
      rw [← e]
      exact (List.cons_prefix_cons.2 ⟨rfl, this⟩).isInfix
    rw [lineText, readLine]
    dsimp only
    by_cases hc : c ≠ prev
    · rw [if_pos hc, if_pos hc, List.append_assoc, tag_mark]
      exact .tag _ _ _ _ (main c)
    · rw [if_neg hc, if_neg hc]
      exact main cur

/-- All lines as shown. -/
def readLines : Color → List (List (Char × Color)) → List (List (Char × Color))
  | _, [] => []
  | prev, row :: rows => readLine .white prev row :: readLines (lineText prev row).2 rows

theorem reads_lines : ∀ (rows : List (List (Char × Color))) (prev : Color), (∀ row ∈ rows, NoTag (row.map Prod.fst)) →
    Reads .white (linesText prev rows) (joinLines (readLines prev rows)) := by
  intro rows
  induction rows with
  | nil => intro prev _; exact .done _
  | cons row rows ih =>
    intro prev hn
    have hrow := hn row (by simp)
    have htail := ih (lineText prev row).2 (fun r hr => hn r (by simp [hr]))
    rw [linesText]
    cases rows with
    | nil =>
      rw [if_pos rfl, List.append_nil]
      have := reads_line (T := [ '-', ']'] ) (out := []) row .white prev
        (fun c => .tag c .white [] [] (.done _)) hrow
      rw [List.append_nil] at this
      simp only [linesText, readLines, List.append_nil]
      rw [show joinLines [readLine .white prev row] = readLine .white prev row by simp [joinLines, List.intercalate]]
      exact this
    | cons row' rows =>
      rw [if_neg (by simp)]
      have := reads_line (T := '-' :: ']' :: '\n' :: linesText (lineText prev row).2 (row' :: rows))
        (out := ('\n', .white) :: joinLines (readLines (lineText prev row).2 (row' :: rows))) row .white prev
        (fun c => .tag c .white _ _ (.char _ _ _ _ (by
          intro d hd
          obtain ⟨body, hb, _⟩ := tag_shape d
          rw [hb, List.cons_prefix_cons] at hd
          exact absurd hd.1 (by decide)) htail)) hrow
      simp only [List.append_assoc]
      exact this


theorem readLine_chars : ∀ (row : List (Char × Color)) (cur prev : Color),
    (readLine cur prev row).map Prod.fst = row.map Prod.fst := by
  intro row
  induction row with
  | nil => intro _ _; rfl
  | cons q row ih =>
    obtain ⟨r, c⟩ := q
    intro cur prev
    rw [readLine, List.map_cons, List.map_cons, ih]

theorem readLine_sync : ∀ (row : List (Char × Color)) (c : Color), readLine c c row = row := by
  intro row
  induction row with
  | nil => intro _; rfl
  | cons q row ih =>
    obtain ⟨r, d⟩ := q
    intro c
    rw [readLine]
    have : (if d ≠ c then d else c) = d := by
      split_ifs with h
      · rfl
      · exact (not_not.1 h).symm
    rw [this, ih]

/-- A place is shown in its colour if it is white, or if the line up to it has another colour than the one that the program
takes the widget to show. -/
theorem readLine_right : ∀ (row : List (Char × Color)) (cur prev : Color) (x : Nat) (q : Char × Color), row[x]? = some q →
    ((∃ x' ≤ x, ∃ q', row[x']? = some q' ∧ q'.2 ≠ prev) ∨ q.2 = cur) → (readLine cur prev row)[x]? = some q := by
  intro row
  induction row with
  | nil => intro _ _ _ _ h; cases h
  | cons p row ih =>
    obtain ⟨r, c⟩ := p
    intro cur prev x q hq h
    rw [readLine]
    by_cases hc : c = prev
    · rw [if_neg (not_not.2 hc)]
      cases x with
      | zero =>
        rw [List.getElem?_cons_zero] at hq ⊢
        cases hq
        rcases h with ⟨x', hx, q', h1, h2⟩ | h
        · have : x' = 0 := by omega
          subst this
          rw [List.getElem?_cons_zero] at h1
          cases h1
          exact absurd hc h2
        · exact congrArg some (Prod.ext rfl h.symm)
      | succ x =>
        rw [List.getElem?_cons_succ] at hq ⊢
        refine ih cur c x q hq ?_
        rcases h with ⟨x', hx, q', h1, h2⟩ | h
        · cases x' with
          | zero =>
            rw [List.getElem?_cons_zero] at h1
            cases h1
            exact absurd hc h2
          | succ x' =>
            rw [List.getElem?_cons_succ] at h1
            exact .inl ⟨x', by omega, q', h1, by rw [hc]; exact h2⟩
        · exact .inr h
    · rw [if_pos hc]
      have : (r, c) :: readLine c c row = (r, c) :: row := by rw [readLine_sync]
      rw [this]
      exact hq

theorem lineText_last : ∀ (row : List (Char × Color)) (prev : Color) (q : Char × Color), row.getLast? = some q →
    (lineText prev row).2 = q.2 := by
  intro row
  induction row with
  | nil => intro _ _ h; cases h
  | cons p row ih =>
    obtain ⟨r, c⟩ := p
    intro prev q h
    rw [lineText]
    cases row with
    | nil => cases h; rfl
    | cons p' row =>
      rw [List.getLast?_cons_cons] at h
      exact ih c q h

/-- Line `y` as shown. -/
theorem readLines_get : ∀ (rows : List (List (Char × Color))) (prev : Color) (y : Nat) (row : List (Char × Color)),
    rows[y]? = some row → ∃ p, (readLines prev rows)[y]? = some (readLine .white p row) ∧ (y = 0 → p = prev) ∧
      ∀ y' row' q, y = y' + 1 → rows[y']? = some row' → row'.getLast? = some q → p = q.2 := by
  intro rows
  induction rows with
  | nil => intro _ _ _ h; cases h
  | cons r rows ih =>
    intro prev y row h
    cases y with
    | zero =>
      rw [List.getElem?_cons_zero] at h
      cases h
      exact ⟨prev, rfl, fun _ => rfl, fun y' _ _ e => by omega⟩
    | succ y =>
      rw [List.getElem?_cons_succ] at h
      obtain ⟨p, h1, h2, h3⟩ := ih (lineText prev r).2 y row h
      refine ⟨p, by rw [readLines, List.getElem?_cons_succ]; exact h1, fun e => by omega, ?_⟩
      intro y' row' q e hr hq
      have : y' = y := by omega
      subst this
      cases y' with
      | zero =>
        rw [List.getElem?_cons_zero] at hr
        cases hr
        rw [h2 rfl]
        exact lineText_last _ _ _ hq
      | succ z =>
        rw [List.getElem?_cons_succ] at hr
        exact h3 z row' q rfl hr hq

theorem readLines_length : ∀ (rows : List (List (Char × Color))) (prev : Color), (readLines prev rows).length = rows.length := by
  intro rows
  induction rows with
  | nil => intro _; rfl
  | cons r rows ih => intro prev; rw [readLines, List.length_cons, List.length_cons, ih]

end Bbn
