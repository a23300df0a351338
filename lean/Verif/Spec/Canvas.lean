import Verif.Spec.Box
import Verif.Spec.Tui
import Verif.Model.TuiApp

/-!
# What the app's canvas shows (specification)

A place is given by its row `y` and its column `x`.
-/

set_option autoImplicit false

namespace Bbn

variable {α : Type}

/-- Some column crosses both boxes. -/
def ShareColumn (b c : Bounds) : Prop := b.x + b.w > c.x ∧ b.x < c.x + c.w

/-- Some row crosses both boxes. -/
def ShareRow (b c : Bounds) : Prop := b.y + b.h > c.y ∧ b.y < c.y + c.h

instance shareColumn_dec (b c : Bounds) : Decidable (ShareColumn b c) := by unfold ShareColumn; infer_instance
instance shareRow_dec (b c : Bounds) : Decidable (ShareRow b c) := by unfold ShareRow; infer_instance

/-- The edge from a parent's box `b` to the box `c` of its child, if one is above the other: straight, in the middle of the
columns they share. -/
def straightDown (b c : Bounds) (y x : Int) : Option Char :=
  if x = (max b.x c.x + min (b.x + b.w) (c.x + c.w)) / 2 then
    if b.y < c.y then
      if y = c.y - 1 then some 'v' else if b.y + b.h ≤ y ∧ y < c.y - 1 then some '│' else none
    else if y = c.y + c.h then some '^' else if c.y + c.h < y ∧ y < b.y then some '│' else none
  else none

/-- The same if they are side by side. -/
def straightAcross (b c : Bounds) (y x : Int) : Option Char :=
  if y = (max b.y c.y + min (b.y + b.h) (c.y + c.h)) / 2 then
    if b.x < c.x then
      if x = c.x - 1 then some '>' else if b.x + b.w ≤ x ∧ x < c.x - 1 then some '─' else none
    else if x = c.x + c.w then some '<' else if c.x + c.w < x ∧ x < b.x then some '─' else none
  else none

/-- The edge if no row and no column crosses both boxes: from the side of the parent's box, along its last (or first) row,
to the nearest column of the child's box, then down (or up). -/
def cornerEdge (b c : Bounds) (y x : Int) : Option Char :=
  let row := if b.y < c.y then b.y + b.h - 1 else b.y
  let column := if b.x < c.x then c.x else c.x + c.w - 1
  if b.y < c.y ∧ y = c.y - 1 ∧ x = column then some 'v'
  else if ¬ b.y < c.y ∧ y = c.y + c.h ∧ x = column then some '^'
  else if y = row ∧ x = column then
    some (if b.x < c.x then (if b.y < c.y then '┐' else '┘') else (if b.y < c.y then '┌' else '└'))
  else if y = row then
    if b.x + b.w ≤ x ∧ x < column ∨ column < x ∧ x < b.x then some '─' else none
  else if x = column then
    if row < y ∧ y < c.y ∨ c.y + c.h < y ∧ y < row then some '│' else none
  else none

/-- The edge from a parent's box to its child's box. There is none if the boxes overlap. -/
def edgeRune (b c : Bounds) (y x : Int) : Option Char :=
  if ShareColumn b c then (if ShareRow b c then none else straightDown b c y x)
  else if ShareRow b c then straightAcross b c y x
  else cornerEdge b c y x

/-- Several edges: a later one hides an earlier one. -/
def edgesRune (es : List (Bounds × Bounds)) (y x : Int) : Char :=
  (es.reverse.findSome? (fun e => edgeRune e.1 e.2 y x)).getD ' '

/-- The edges of the app: to each node, in order, from its parents, in order. -/
def App.edges (a : App α) : List (Bounds × Bounds) :=
  a.nodes.flatMap (fun n => ((n.factor.map NFactor.given).getD []).filterMap (fun p =>
    (a.nodes.find? (fun m => m.var.name = p)).map (fun m => (m.bounds, n.bounds))))

/-- How node `i` is to be shown in the present state of the app. -/
def App.look (a : App α) (i : Nat) (n : TNode α) : Look α :=
  { values := (mapGet a.marginals n.var.name).getD [], selected := decide ((i : Int) = a.selectedNode),
    state := a.selectedState, evidence := (mapGet a.evidence n.var.name).isSome }

/-- The character at a place of the canvas: that of the box there (the last one, if boxes overlap), otherwise that of an
edge, otherwise blank. -/
def App.canvasRune (fm : Fmt α) (a : App α) (y x : Int) : Char :=
  match a.nodes.zipIdx.reverse.find? (fun p => p.1.bounds.contains x y) with
  | some (n, i) => boxRune fm n.var (a.look i n) (y - n.bounds.y) (x - n.bounds.x)
  | none => edgesRune a.edges y x

end Bbn
