import Verif.Lemmas.TuiApp
import Verif.Lemmas.TuiGrid
import Verif.Props.NetCalls

/-!
# Successful drawing keeps the sizes; successful steps keep the nodes on the canvas
-/

set_option autoImplicit false

namespace Bbn

variable {α : Type}

theorem foldlM_inv {β γ : Type} (P : γ → Prop) (f : γ → β → Except Fault γ) :
    ∀ (l : List β) (g g' : γ), l.foldlM f g = .ok g' → P g → (∀ g x g', f g x = .ok g' → P g → P g') → P g' := by
  intro l
  induction l with
  | nil => intro g g' h hp _; cases h; exact hp
  | cons x l ih =>
    intro g g' h hp hf
    rw [List.foldlM_cons] at h
    obtain ⟨g1, h1, h⟩ := bind_inv h
    exact ih g1 g' h (hf g x g1 h1 hp) hf

theorem goGetI_inv {β : Type} {l : List β} {i : Int} {x : β} (h : goGetI l i = .ok x) :
    0 ≤ i ∧ i < l.length ∧ l[i.toNat]? = some x := by
  unfold goGetI at h
  split_ifs at h with hi
  rw [goGet_eq] at h
  obtain ⟨hlt, _⟩ := List.getElem?_eq_some_iff.1 h
  exact ⟨by omega, by omega, h⟩

theorem goSetI_inv {β : Type} {l l' : List β} {i : Int} {x : β} (h : goSetI l i x = .ok l') :
    0 ≤ i ∧ i < l.length ∧ l' = l.set i.toNat x := by
  unfold goSetI at h
  split_ifs at h with hi
  obtain ⟨h1, h2⟩ := goSet_inv h
  exact ⟨by omega, by omega, h2⟩

theorem gridSet_keep {g g' : Grid} {y x : Int} {c : Char} (h : gridSet g y x c = .ok g') {hh w : Int}
    (hd : HasDims g hh w) : HasDims g' hh w := by
  unfold gridSet at h
  obtain ⟨row, h1, h⟩ := bind_inv h
  obtain ⟨row', h2, h⟩ := bind_inv h
  obtain ⟨_, _, rfl⟩ := goSetI_inv h
  obtain ⟨_, _, rfl⟩ := goSetI_inv h2
  obtain ⟨_, _, h1⟩ := goGetI_inv h1
  exact hd.set _ (by rw [List.length_set]; exact hd.2 _ (List.mem_of_getElem? h1))

theorem copyRange_len {row row' text : List Char} {a b : Int} (h : copyRange row a b text = .ok row') :
    row'.length = row.length := by
  have hc : 0 ≤ a ∧ a ≤ b ∧ b ≤ row.length := by
    unfold copyRange at h
    split_ifs at h
    omega
  obtain ⟨r, e, hl⟩ := copyRange_ok text hc.1 hc.2.1 hc.2.2
  rw [e] at h
  cases h
  exact hl

theorem gridCopyFrom_keep {g g' : Grid} {y a : Int} {text : List Char} (h : gridCopyFrom g y a text = .ok g') {hh w : Int}
    (hd : HasDims g hh w) : HasDims g' hh w := by
  unfold gridCopyFrom at h
  obtain ⟨row, h1, h⟩ := bind_inv h
  obtain ⟨row', h2, h⟩ := bind_inv h
  obtain ⟨_, _, rfl⟩ := goSetI_inv h
  obtain ⟨_, _, h1⟩ := goGetI_inv h1
  exact hd.set _ (by rw [copyRange_len h2]; exact hd.2 _ (List.mem_of_getElem? h1))

theorem drawBorder_keep {b : Bounds} {s : Bool} {g g' : Grid} (h : drawBorder b s g = .ok g') {hh w : Int}
    (hd : HasDims g hh w) : HasDims g' hh w := by
  unfold drawBorder at h
  obtain ⟨g1, h1, h⟩ := bind_inv h
  obtain ⟨g2, h2, h⟩ := bind_inv h
  obtain ⟨g3, h3, h⟩ := bind_inv h
  obtain ⟨g4, h4, h⟩ := bind_inv h
  obtain ⟨g5, h5, h⟩ := bind_inv h
  have d4 := gridSet_keep h4 (gridSet_keep h3 (gridSet_keep h2 (gridSet_keep h1 hd)))
  have key : ∀ (y1 x1 y2 x2 : Int → Int) (c : Char) (g : Grid) (i : Int) (g' : Grid),
      (do let g ← gridSet g (y1 i) (x1 i) c; gridSet g (y2 i) (x2 i) c) = .ok g' → HasDims g hh w → HasDims g' hh w := by
    intro y1 x1 y2 x2 c g i g' h hd
    obtain ⟨_, h1, h⟩ := bind_inv h
    exact gridSet_keep h (gridSet_keep h1 hd)
  have d5 := foldlM_inv (fun g => HasDims g hh w) _ _ _ _ h5 d4
    (key (fun _ => 0) id (fun _ => b.h - 1) id (borderRune s 4))
  exact foldlM_inv (fun g => HasDims g hh w) _ _ _ _ h d5
    (key id (fun _ => 0) id (fun _ => b.w - 1) (borderRune s 5))

theorem drawBar_keep {fm : Fmt α} {barsX : Int} {g g' : Grid} {i : Nat} {p : Option α}
    (h : drawBar fm barsX g i p = .ok g') {hh w : Int} (hd : HasDims g hh w) : HasDims g' hh w := by
  unfold drawBar at h
  dsimp only at h
  obtain ⟨g1, h1, h⟩ := bind_inv h
  have d1 := foldlM_inv (fun g => HasDims g hh w) _ _ _ _ h1 hd (fun g x g' h hd => gridSet_keep h hd)
  obtain ⟨⟨g2, full⟩, h2, h⟩ := bind_inv h
  have d2 : HasDims g2 hh w := by
    split_ifs at h2
    · obtain ⟨c, _, h2⟩ := bind_inv h2
      obtain ⟨g3, h3, h2⟩ := bind_inv h2
      cases h2
      exact gridSet_keep h3 d1
    · cases h2; exact d1
  obtain ⟨g3, h3, h⟩ := bind_inv h
  have d3 := foldlM_inv (fun g => HasDims g hh w) _ _ _ _ h3 d2 (fun g x g' h hd => gridSet_keep h hd)
  exact gridCopyFrom_keep h d3

theorem drawMarks_keep {b : Bounds} {s ev : Bool} {st : Int} {g g' : Grid} {i : Nat}
    (h : drawMarks b s st ev g i = .ok g') {hh w : Int} (hd : HasDims g hh w) : HasDims g' hh w := by
  unfold drawMarks at h
  obtain ⟨g1, h1, h⟩ := bind_inv h
  exact gridSet_keep h (gridSet_keep h1 hd)

theorem TNode.Fits.render {fm : Fmt α} {n n' : TNode α} (hn : n.Fits) {probs : List (Option α)} {s ev : Bool} {st : Int}
    (h : n.render fm probs s st ev = .ok n') : n'.Fits := by
  obtain ⟨e1, e2, e3, e4⟩ := TNode.render_same h
  refine ⟨by rw [e1, e3]; exact hn.w, by rw [e1, e3]; exact hn.h, by rw [e1, e4]; exact hn.barsX, ?_⟩
  rw [e3]
  unfold TNode.render at h
  obtain ⟨g, h1, h⟩ := bind_inv h
  have d1 := drawBorder_keep h1 hn.dims
  dsimp only at h
  split_ifs at h
  · obtain ⟨g', h2, h⟩ := bind_inv h
    cases h
    exact foldlM_inv (fun g => HasDims g n.bounds.h n.bounds.w) _ _ _ _ h2 d1 (fun g x g' h hd => gridCopyFrom_keep h hd)
  · obtain ⟨g', h2, h⟩ := bind_inv h
    cases h
    refine foldlM_inv (fun g => HasDims g n.bounds.h n.bounds.w) _ _ _ _ h2 d1 (fun g x g' h hd => ?_)
    obtain ⟨g1, h1, h⟩ := bind_inv h
    exact drawMarks_keep h (drawBar_keep h1 hd)

theorem drawNode_keep {n : TNode α} {g g' : Grid} (h : drawNode n g = .ok g') {hh w : Int} (hd : HasDims g hh w) :
    HasDims g' hh w :=
  foldlM_inv (fun g => HasDims g hh w) _ _ _ _ h hd (fun _ _ _ h hd => gridCopyFrom_keep h hd)

theorem renderNodes_keep {fm : Fmt α} {a : App α} : ∀ (l : List (TNode α)) (i : Nat) (g : Grid)
    {r : List (TNode α) × Grid}, renderNodes fm a i l g = .ok r → (∀ n ∈ l, n.Fits) → ∀ {hh w : Int},
    HasDims g hh w → (∀ n ∈ r.1, n.Fits) ∧ HasDims r.2 hh w := by
  intro l
  induction l with
  | nil => intro i g r h hn hh w hd; cases h; exact ⟨by simp, hd⟩
  | cons n l ih =>
    intro i g r h hn hh w hd
    rw [renderNodes] at h
    obtain ⟨n', h1, h⟩ := bind_inv h
    obtain ⟨g', h2, h⟩ := bind_inv h
    obtain ⟨r', h3, h⟩ := bind_inv h
    cases h
    obtain ⟨k1, k2⟩ := ih _ _ h3 (fun m hm => hn m (by simp [hm])) (drawNode_keep h2 hd)
    refine ⟨?_, k2⟩
    intro m hm
    rcases List.mem_cons.1 hm with rfl | hm
    · exact (hn n (by simp)).render h1
    · exact k1 m hm

/-- The nodes of the app are on its canvas. -/
structure App.Placed (a : App α) : Prop where
  fits : ∀ n ∈ a.nodes, n.Fits
  index : ∀ name, a.nodes ≠ [] → intGet a.byName name < a.nodes.length
  canvas : ∃ h w, HasDims a.canvas h w ∧ 1 ≤ h ∧ ∀ n ∈ a.nodes, n.bounds.Inside h w
  shown : a.network.variables.map (fun v => (v.name, v.nodeType, v.outcomes, v.position)) =
    a.nodes.map (fun n => (n.var.name, n.var.nodeType, n.var.outcomes, (n.bounds.x, n.bounds.y)))

/-- What the canvas has to hold, for other fields equal. -/
theorem App.Placed.congr {a b : App α} (h : a.Placed) (h1 : b.nodes = a.nodes) (h2 : b.byName = a.byName)
    (h3 : b.canvas = a.canvas) (h4 : b.network.variables = a.network.variables) : b.Placed := by
  obtain ⟨k1, k2, k3, k4⟩ := h
  exact ⟨by rw [h1]; exact k1, by rw [h1, h2]; exact k2, by rw [h1, h3]; exact k3, by rw [h1, h4]; exact k4⟩

theorem renderEdges_ok {a : App α} (hi : ∀ name, a.nodes ≠ [] → intGet a.byName name < a.nodes.length)
    (hf : ∀ n ∈ a.nodes, ∃ f, n.factor = some f) {hh w : Int} (hb : ∀ n ∈ a.nodes, n.bounds.Inside hh w) {g : Grid}
    (hd : HasDims g hh w) : ∃ g', renderEdges a g = .ok g' ∧ HasDims g' hh w := by
  unfold renderEdges
  refine foldlM_keep (fun g => HasDims g hh w) _ _ g hd ?_
  intro g n hn hg
  obtain ⟨f, hfn⟩ := hf n hn
  have : n.deref = .ok f := by unfold TNode.deref; rw [hfn]
  rw [this, ok_bind]
  refine foldlM_keep (fun g => HasDims g hh w) _ _ g hg ?_
  intro g p _ hg
  have hlt := hi p (List.ne_nil_of_mem hn)
  have e : goGet a.nodes (intGet a.byName p) = .ok a.nodes[intGet a.byName p] := by
    rw [goGet_eq]; exact List.getElem?_eq_getElem hlt
  rw [e, ok_bind]
  exact renderEdge_dims (hb _ (List.getElem_mem hlt)) (hb n hn) hg

/-- A successful drawing has seen the table of each node. -/
theorem renderEdges_factor {a : App α} {g g' : Grid} (h : renderEdges a g = .ok g') :
    ∀ n ∈ a.nodes, ∃ f, n.factor = some f := by
  unfold renderEdges at h
  generalize a.nodes = l at h
  have key : ∀ (m : List (TNode α)) (g g' : Grid), m.foldlM (fun g n => do
      let f ← n.deref
      f.given.foldlM (fun g p => do
        let m ← goGet l (intGet a.byName p)
        renderEdge m.bounds n.bounds g) g) g = .ok g' → ∀ n ∈ m, ∃ f, n.factor = some f := by
    intro m
    induction m with
    | nil => intro g g' _ n hn; cases hn
    | cons x m ih =>
      intro g g' h n hn
      rw [List.foldlM_cons] at h
      obtain ⟨g1, h1, h⟩ := bind_inv h
      rcases List.mem_cons.1 hn with rfl | hn
      · obtain ⟨f, hf, _⟩ := bind_inv h1
        unfold TNode.deref at hf
        cases hx : n.factor with
        | none => rw [hx] at hf; cases hf
        | some f => exact ⟨f, rfl⟩
      · exact ih g1 g' h n hn
  exact key l g g' h

theorem drawAt_keep {c : Char} {ps : List (Int × Int)} {g g' : Grid} (h : drawAt c ps g = .ok g') {hh w : Int}
    (hd : HasDims g hh w) : HasDims g' hh w :=
  foldlM_inv (fun g => HasDims g hh w) _ _ _ _ h hd (fun _ _ _ h hd => gridSet_keep h hd)

theorem App.Placed.render {fm : Fmt α} {a a' : App α} {u : Bool} (h : a.Placed) (hr : a.render fm u = .ok a') : a'.Placed := by
  have hs := App.render_same hr
  obtain ⟨k1, k2, ⟨hh, w, kd, kh, kb⟩, k4⟩ := h
  have hkey : (∀ n ∈ a'.nodes, n.Fits) ∧ HasDims a'.canvas hh w := by
    unfold App.render at hr
    dsimp only at hr
    split_ifs at hr
    · obtain ⟨g, h1, hr⟩ := bind_inv hr
      cases h1
      obtain ⟨r, h2, hr⟩ := bind_inv hr
      cases hr
      exact renderNodes_keep _ _ _ h2 k1 kd
    · obtain ⟨g, h1, hr⟩ := bind_inv hr
      obtain ⟨r, h2, hr⟩ := bind_inv hr
      cases hr
      obtain ⟨g', e, d⟩ := renderEdges_ok k2 (renderEdges_factor h1) kb (clearCanvas_dims kd)
      rw [e] at h1
      cases h1
      exact renderNodes_keep _ _ _ h2 k1 d
  have hlen := hs.length
  have hb : ∀ n ∈ a'.nodes, ∃ m ∈ a.nodes, n.bounds = m.bounds := by
    intro n hn
    have : n.bounds ∈ a'.nodes.map TNode.bounds := List.mem_map_of_mem hn
    rw [hs.boundsEq] at this
    obtain ⟨m, hm, e⟩ := List.mem_map.1 this
    exact ⟨m, hm, e.symm⟩
  refine ⟨hkey.1, ?_, ⟨hh, w, hkey.2, kh, ?_⟩, ?_⟩
  · intro name hne
    rw [hs.byName, hlen]
    refine k2 name ?_
    intro e
    apply hne
    rw [← List.length_eq_zero_iff, hlen, e]
    rfl
  · intro n hn
    obtain ⟨m, hm, e⟩ := hb n hn
    rw [e]
    exact kb m hm
  · rw [hs.network, k4]
    have := congrArg (List.map (fun p => (p.1.name, p.1.nodeType, p.1.outcomes, (p.2.2.1.x, p.2.2.1.y)))) hs.nodes
    rw [List.map_map, List.map_map] at this
    exact this.symm

/-- Drawing succeeds if the numbers can be drawn. -/
theorem renderNodes_ok {fm : Fmt α} {a : App α} {hh w : Int} : ∀ (l : List (TNode α)) (i : Nat) (g : Grid),
    (∀ n ∈ l, n.Fits ∧ n.bounds.Inside hh w ∧ n.Drawable fm ((mapGet a.marginals n.var.name).getD [])) →
    HasDims g hh w → ∃ r, renderNodes fm a i l g = .ok r := by
  intro l
  induction l with
  | nil => intro i g _ _; exact ⟨_, rfl⟩
  | cons n l ih =>
    intro i g hn hd
    obtain ⟨h1, h2, h3⟩ := hn n (by simp)
    rw [renderNodes]
    obtain ⟨n', e1, e2, e3, e4, e5⟩ := h1.render_ok h3 ((i : Int) == a.selectedNode) a.selectedState
      (mapGet a.evidence n.var.name).isSome
    dsimp only
    rw [e1, ok_bind]
    obtain ⟨g', e6, d6⟩ := drawNode_dims e5 (by rw [e4]; exact h2) hd
    rw [e6, ok_bind]
    obtain ⟨r, hr⟩ := ih (i + 1) g' (fun m hm => hn m (by simp [hm])) d6
    rw [hr, ok_bind]
    exact ⟨_, rfl⟩

theorem App.Placed.render_ok {fm : Fmt α} {a : App α} (h : a.Placed) (hf : ∀ n ∈ a.nodes, ∃ f, n.factor = some f)
    (hdraw : ∀ n ∈ a.nodes, n.Drawable fm ((mapGet a.marginals n.var.name).getD [])) (u : Bool) :
    ∃ a', a.render fm u = .ok a' ∧ a'.Placed ∧ SameApp a a' := by
  suffices ∃ a', a.render fm u = .ok a' by
    obtain ⟨a', e⟩ := this
    exact ⟨a', e, h.render e, App.render_same e⟩
  obtain ⟨k1, k2, ⟨hh, w, kd, kh, kb⟩, k4⟩ := h
  have hall : ∀ n ∈ a.nodes, n.Fits ∧ n.bounds.Inside hh w ∧ n.Drawable fm ((mapGet a.marginals n.var.name).getD []) :=
    fun n hn => ⟨k1 n hn, kb n hn, hdraw n hn⟩
  unfold App.render
  dsimp only
  split_ifs
  · obtain ⟨r, e⟩ := renderNodes_ok (fm := fm) (a := a) a.nodes 0 a.canvas hall kd
    rw [show (pure a.canvas : Except Fault Grid) = .ok a.canvas from rfl, ok_bind, e]
    exact ⟨_, rfl⟩
  · obtain ⟨g, e, d⟩ := renderEdges_ok k2 hf kb (clearCanvas_dims kd)
    obtain ⟨r, e'⟩ := renderNodes_ok (fm := fm) (a := a) a.nodes 0 g hall d
    rw [e, ok_bind, e']
    exact ⟨_, rfl⟩

end Bbn
