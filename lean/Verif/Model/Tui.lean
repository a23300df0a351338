import Verif.Model.Files

/-!
# `internal/tui`: `util.go`, `bounds.go`, `node.go`, `table.go`

A rune is a character. `tview` and `tcell` are not modelled.
-/

set_option autoImplicit false

namespace Bbn

variable {α : Type}

/-- `internal/tui/util.go:11-15`: one entry of the evidence. -/
def parseEntry (ev : List (String × String)) (entry : String) : Except Fault (List (String × String)) :=
  match goSplit entry '=' with
  | [k, v] => .ok (mapSet ev k v)
  | _ => .error (.error "syntax error in evidence")

/-- `internal/tui/util.go:8-18`: `ParseEvidence`. -/
def parseEvidence (args : List String) : Except Fault (List (String × String)) := args.foldlM parseEntry []

/-- `internal/tui/bounds.go:3-8`: `Bounds`. -/
structure Bounds where
  x : Int
  y : Int
  w : Int
  h : Int
deriving DecidableEq, Repr

/-- `internal/tui/bounds.go:16-18`: `Contains`. -/
def Bounds.contains (b : Bounds) (x y : Int) : Bool :=
  x ≥ b.x && x < b.x + b.w && y ≥ b.y && y < b.y + b.h

/-- `internal/tui/bounds.go:20-22`: `Centroid`. -/
def Bounds.centroid (b : Bounds) : Int × Int := (b.x + b.w.tdiv 2, b.y + b.h.tdiv 2)

/-- `internal/tui/bounds.go:24-39`: `Extend`. -/
def Bounds.extend (b other : Bounds) : Bounds :=
  let b := if other.x < b.x then { b with w := b.w + (b.x - other.x), x := other.x } else b
  let b := if other.y < b.y then { b with h := b.h + (b.y - other.y), y := other.y } else b
  let b := if other.x + other.w > b.x + b.w then { b with w := other.x + other.w - b.x } else b
  if other.y + other.h > b.y + b.h then { b with h := other.y + other.h - b.y } else b

/-- A grid of runes, `[][]rune` (`internal/tui/app.go:141-149`, `internal/tui/node.go:66-74`). -/
abbrev Grid := List (List Char)

/-- `g[y][x] = c` (language semantics), as in `internal/tui/render.go:57-130`. -/
def gridSet (g : Grid) (y x : Int) (c : Char) : Except Fault Grid := do
  let row ← goGetI g y
  let row ← goSetI row x c
  goSetI g y row

/-- `copy(row[a:b], text)` (language semantics). The capacity of a row is its length
(`internal/tui/node.go:69`, `internal/tui/app.go:144`). -/
def copyRange (row : List Char) (a b : Int) (text : List Char) : Except Fault (List Char) :=
  if a < 0 ∨ b < a ∨ (row.length : Int) < b then .error (.panic "slice bounds out of range")
  else
    let t := text.take (b - a).toNat
    .ok (row.take a.toNat ++ t ++ row.drop (a.toNat + t.length))

/-- `copy(g[y][a:b], text)` (language semantics), as in `internal/tui/node.go:167, 178, 181`. -/
def gridCopy (g : Grid) (y a b : Int) (text : List Char) : Except Fault Grid := do
  let row ← goGetI g y
  let row ← copyRange row a b text
  goSetI g y row

/-- `copy(g[y][a:], text)` (language semantics), as in `internal/tui/node.go:210, 233` and `internal/tui/render.go:23`. -/
def gridCopyFrom (g : Grid) (y a : Int) (text : List Char) : Except Fault Grid := do
  let row ← goGetI g y
  let row ← copyRange row a row.length text
  goSetI g y row

/-- `internal/tui/node.go:25-31`: `node`. The variable's factor (a pointer) is held as a value: after the nodes are
created nothing changes it but `internal/tui/app.go:82`, which replaces the pointer. -/
structure TNode (α : Type) where
  var : NVar
  factor : Option (NFactor α)
  bounds : Bounds
  runes : Grid
  barsX : Int

/-- `internal/tui/color.go:3-23`: `Color`, without the end marker `ColorsEnd`. -/
inductive Color where
  | black | maroon | green | olive | navy | purple | teal | silver | gray | red | lime | yellow | blue | fuchsia | aqua | white
deriving DecidableEq, Repr

/-- `internal/tui/color.go:25-42`: `ColorTags`, indexed by the colour. -/
def Color.tag : Color → String
  | .black => "[black]"
  | .maroon => "[maroon]"
  | .green => "[green]"
  | .olive => "[olive]"
  | .navy => "[navy]"
  | .purple => "[purple]"
  | .teal => "[teal]"
  | .silver => "[silver]"
  | .gray => "[gray]"
  | .red => "[red]"
  | .lime => "[lime]"
  | .yellow => "[yellow]"
  | .blue => "[blue]"
  | .fuchsia => "[fuchsia]"
  | .aqua => "[aqua]"
  | .white => "[-]"

/-- `internal/tui/color.go:63-80`: `NamedColors`. -/
def namedColors : List (String × Color) := [("black", .black), ("maroon", .maroon), ("green", .green), ("olive", .olive),
  ("navy", .navy), ("purple", .purple), ("teal", .teal), ("silver", .silver), ("gray", .gray), ("red", .red),
  ("lime", .lime), ("yellow", .yellow), ("blue", .blue), ("fuchsia", .fuchsia), ("aqua", .aqua), ("white", .white)]

/-- `internal/tui/symbols.go:3-10`: the border symbols of a style: `BorderNW`, `BorderNE`, `BorderSW`, `BorderSE`,
`BorderH`, `BorderV`. -/
def borderRune (selected : Bool) (i : Nat) : Char :=
  (if selected then ['╔', '╗', '╚', '╝', '═', '║'] else ['┌', '┐', '└', '┘', '─', '│']).getD i ' '

/-- `internal/tui/node.go:145-163`: `drawBorder`. -/
def drawBorder (b : Bounds) (selected : Bool) (g : Grid) : Except Fault Grid := do
  let g ← gridSet g 0 0 (borderRune selected 0)
  let g ← gridSet g 0 (b.w - 1) (borderRune selected 1)
  let g ← gridSet g (b.h - 1) 0 (borderRune selected 2)
  let g ← gridSet g (b.h - 1) (b.w - 1) (borderRune selected 3)
  let g ← (intRange 1 (b.w - 1)).foldlM (fun g i => do
    let g ← gridSet g 0 i (borderRune selected 4)
    gridSet g (b.h - 1) i (borderRune selected 4)) g
  (intRange 1 (b.h - 1)).foldlM (fun g i => do
    let g ← gridSet g i 0 (borderRune selected 5)
    gridSet g i (b.w - 1) (borderRune selected 5)) g

/-- `internal/tui/node.go:165-174`: `drawTitle`. -/
def drawTitle (v : NVar) (b : Bounds) (g : Grid) : Except Fault Grid := do
  let g ← gridCopy g 1 2 (b.w - 2) v.name.toList
  match v.nodeType with
  | .decision => gridSet g 1 (b.w - 3) '!'
  | .utility => gridSet g 1 (b.w - 3) '$'
  | .chance => return g

/-- `internal/tui/node.go:176-183`: `drawStateLabels`. -/
def drawStateLabels (v : NVar) (barsX : Int) (g : Grid) : Except Fault Grid := do
  let g ← v.outcomes.zipIdx.foldlM (fun g p => gridCopy g (p.2 + 2) 2 (barsX - 1) p.1.toList) g
  if v.nodeType = .utility then gridCopy g (v.outcomes.length + 2) 2 (barsX - 1) "total".toList else return g

/-- `internal/tui/node.go:34-43`: the length of the longest outcome name, at most 16 (`maxStateLabelWidth`). -/
def stateLength (v : NVar) : Nat :=
  min (v.outcomes.foldl (fun m s => if s.length > m then s.length else m) 0) 16

/-- `internal/tui/node.go:44-59`: the bounds of a node. -/
def nodeBounds (v : NVar) : Bounds :=
  let titleLength := min v.name.length 48
  let bars := if v.nodeType = .utility then 5 else 10
  { x := v.position.1, y := v.position.2, w := ((max (stateLength v + bars + 9) titleLength + 4 : Nat) : Int),
    h := (v.outcomes.length + 3 : Int) + (if v.nodeType = .utility then 1 else 0) }

/-- `internal/tui/node.go:94-113`: `nodeColor`; `none` is an error. -/
def nodeColor (v : NVar) : Option Color :=
  if v.color = "" then
    match v.nodeType with
    | .chance => some .white
    | .utility => some .green
    | .decision => some .blue
  else mapGet namedColors v.color

/-- `internal/tui/node.go:33-92`: `NewNode`. The grid of colours is `TNode.colors`. -/
def newNode (v : NVar) (factor : Option (NFactor α)) : Except Fault (TNode α) :=
  if nodeColor v = none then .error (.panic "unknown node color")
  else do
    let b := nodeBounds v
    let barsX : Int := stateLength v + 3
    let g := List.replicate b.h.toNat (List.replicate b.w.toNat ' ')
    let g ← drawBorder b false g
    let g ← drawTitle v b g
    let g ← drawStateLabels v barsX g
    return { var := v, factor := factor, bounds := b, runes := g, barsX := barsX }

/-- `internal/tui/node.go:61-76`: the node's grid of colours, `node.colors`. It is not stored here: it has the size of the
grid of runes, is filled with the colour of the variable when the node is made, and is never written again. -/
def TNode.colors (n : TNode α) : List (List Color) :=
  n.runes.map (fun row => row.map (fun _ => (nodeColor n.var).getD .black))

/-- `internal/tui/node.go:133-143`: `SelectedOutcome`. -/
def TNode.selectedOutcome (n : TNode α) (x y : Int) : Option Nat :=
  if n.bounds.contains x y then
    (List.range n.var.outcomes.length).find? (fun i : Nat => y = n.bounds.y + i + 2)
  else none

/-- What is taken from Go's `math` and `fmt` when drawing a number: `int(full)` and `int(frac * 7)` for
`math.Modf(p * 10)` (`internal/tui/node.go:188-195`), and the texts for `%7.3f` of `p * 100`, `%12.3f`, `%9.3f`, `%7.3f%%`. -/
structure Fmt (α : Type) where
  full : α → Int
  fracIdx : α → Int
  percent : α → String
  utility : α → String
  cellUtility : α → String
  cellPercent : α → String

/-- `internal/tui/symbols.go:26-28`: `Partial`. -/
def partialRunes : List Char := ['▏', '▎', '▍', '▌', '▋', '▊', '▉']

/-- `internal/tui/node.go:187-211`: the bar and the number of outcome `i`. `none` is NaN. -/
def drawBar (fm : Fmt α) (barsX : Int) (g : Grid) (i : Nat) (p : Option α) : Except Fault Grid := do
  let full := (p.map fm.full).getD 0
  let fracIdx := (p.map fm.fracIdx).getD 0
  let g ← (intRange 0 full).foldlM (fun g j => gridSet g (i + 2) (barsX + j) '█') g
  let (g, full) ← (if fracIdx > 0 then do
    let c ← goGetI partialRunes fracIdx
    let g ← gridSet g (i + 2) (barsX + full) c
    return (g, full + 1)
  else return (g, full) : Except Fault (Grid × Int))
  let g ← (intRange full 10).foldlM (fun g j => gridSet g (i + 2) (barsX + j) '░') g
  gridCopyFrom g (i + 2) (barsX + 10 + 1) ((p.map fm.percent).getD "    ???").toList

/-- `internal/tui/node.go:213-222`: the marks of outcome `i`. -/
def drawMarks (b : Bounds) (selected : Bool) (state : Int) (evidence : Bool) (g : Grid) (i : Nat) : Except Fault Grid := do
  let (l, r) := if selected && state == (i : Int) then ('[', ']') else if evidence then ('+', '+') else (' ', ' ')
  let g ← gridSet g (i + 2) 1 l
  gridSet g (i + 2) (b.w - 2) r

/-- `internal/tui/node.go:185-223`: `drawBars`. -/
def TNode.drawBars (fm : Fmt α) (n : TNode α) (probs : List (Option α)) (selected : Bool) (state : Int)
    (evidence : Bool) (g : Grid) : Except Fault Grid :=
  probs.zipIdx.foldlM (fun g p => do
    let g ← drawBar fm n.barsX g p.2 p.1
    drawMarks n.bounds selected state evidence g p.2) g

/-- `internal/tui/node.go:225-235`: `drawUtility`. -/
def TNode.drawUtility (fm : Fmt α) (n : TNode α) (probs : List (Option α)) (g : Grid) : Except Fault Grid :=
  probs.zipIdx.foldlM (fun g p =>
    gridCopyFrom g (p.2 + 2) (n.barsX + 1) ((p.1.map fm.utility).getD "         ???").toList) g

/-- `internal/tui/node.go:123-131`: `Render`. The node keeps the grid. -/
def TNode.render (fm : Fmt α) (n : TNode α) (probs : List (Option α)) (selected : Bool) (state : Int)
    (evidence : Bool) : Except Fault (TNode α) := do
  let g ← drawBorder n.bounds selected n.runes
  let g ← if n.var.nodeType = .utility then n.drawUtility fm probs g else n.drawBars fm probs selected state evidence g
  return { n with runes := g }

/-- A nil dereference of `node.Node().Factor`, as in `internal/tui/table.go:20-23` and `internal/tui/render.go:31`. -/
def TNode.deref (n : TNode α) : Except Fault (NFactor α) :=
  match n.factor with
  | some f => .ok f
  | none => .error (.panic "nil pointer dereference")

/-- `m[k]` for a map of integers: 0 if the key is missing (language semantics), as in
`internal/tui/table.go:51`. -/
def intGet (m : List (String × Nat)) (k : String) : Nat := (mapGet m k).getD 0

/-- `internal/tui/table.go:10-17`: `Table`. -/
structure TTable (α : Type) where
  nodes : List (TNode α)
  index : Int
  byName : List (String × Nat)
  header : List String
  columns : Nat

/-- `internal/tui/table.go:19-34`: `NewTable`. -/
def newTable (nodes : List (TNode α)) (index : Int) (byName : List (String × Nat)) : Except Fault (TTable α) := do
  let n ← goGetI nodes index
  let f ← n.deref
  let forNode ← goGet nodes (intGet byName f.forVar)
  return { nodes := nodes, index := index, byName := byName, header := f.given ++ n.var.outcomes,
           columns := forNode.var.outcomes.length }

/-- `internal/tui/table.go:49-54`: the stride of a parent; the argument lists the parents after it, last first. -/
def TTable.stride (t : TTable α) : List String → Nat → Except Fault Nat
  | [], s => .ok s
  | g :: gs, s => do
    let par ← goGet t.nodes (intGet t.byName g)
    t.stride gs (s * par.var.outcomes.length)

/-- `internal/tui/table.go:55-56`: the text of a parent's cell in row `row` (without the header). -/
def TTable.parentCell (t : TTable α) (given : List String) (row column : Nat) : Except Fault String := do
  let s ← t.stride (given.drop (column + 1)).reverse 1
  let g ← goGet given column
  let parent ← goGet t.nodes (intGet t.byName g)
  if s = 0 then .error (.panic "integer divide by zero")
  else if parent.var.outcomes.length = 0 then .error (.panic "integer divide by zero")
  else goGet parent.var.outcomes ((row / s) % parent.var.outcomes.length)

/-- `internal/tui/table.go:64-74`: the text of a value's cell. For a sum of 0 the quotient of line 73 is NaN or infinite
in Go; the text is always that of NaN here. The capacity of the table is taken to be its length. -/
def TTable.valueCell [Zero α] [Add α] [Mul α] [Div α] [NatCast α] [DecidableEq α] (fm : Fmt α) (t : TTable α)
    (kind : NodeType) (f : NFactor α) (row : Nat) (column : Nat) : Except Fault String := do
  let values ← goSlice f.tab (row * t.columns : Nat) ((row + 1) * t.columns : Nat)
  let x ← goGet values column
  if kind = .utility then return fm.cellUtility x
  else
    let sum := goSum values
    if sum = 0 then return "    NaN%" else return fm.cellPercent (((100 : Nat) : α) * x / sum)

/-- `internal/tui/table.go:36-79`: the text of `GetCell`. Rows and columns are not negative (`tview` asks for those
below `GetRowCount` and `GetColumnCount`). -/
def TTable.cell [Zero α] [Add α] [Mul α] [Div α] [NatCast α] [DecidableEq α] (fm : Fmt α) (t : TTable α)
    (row column : Nat) : Except Fault String :=
  match row with
  | 0 => goGet t.header column
  | row + 1 => do
    let n ← goGetI t.nodes t.index
    let f ← n.deref
    if column < f.given.length then t.parentCell f.given row column
    else t.valueCell fm n.var.nodeType f row (column - f.given.length)

/-- `internal/tui/table.go:81-83`: `GetRowCount`. -/
def TTable.rowCount (t : TTable α) : Except Fault Nat := do
  let n ← goGetI t.nodes t.index
  let f ← n.deref
  if t.columns = 0 then .error (.panic "integer divide by zero") else return f.tab.length / t.columns + 1

/-- `internal/tui/table.go:85-87`: `GetColumnCount`. -/
def TTable.columnCount (t : TTable α) : Nat := t.header.length

end Bbn
