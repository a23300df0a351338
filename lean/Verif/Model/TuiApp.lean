import Verif.Model.TuiSolve
import Verif.Model.TrainCsv

/-!
# `internal/tui`: `app.go`, `render.go`, `input.go`

Modelled: the state of the app and what the main panel's key and mouse handlers do to it, all drawing on the canvas, and
the text with colour tags that is put together from it.
Dialogs, focus and scrolling are in `Model/TuiPages`; here a click is given by its place in the graph. Not modelled: the widgets
of `tview`. A handler's panic is a panic here; it ends the program.
-/

set_option autoImplicit false

namespace Bbn

variable {α : Type}

/-- `internal/tui/app.go:10-37`: `App`, without widgets and command-line arguments. `text` is the text of the widget
`graph`. -/
structure App (α : Type) where
  nodes : List (TNode α)
  byName : List (String × Nat)
  network : Net α
  evidence : List (String × String)
  marginals : Shown α
  selectedNode : Int
  selectedState : Int
  ignorePolicies : Bool
  canvas : Grid
  colors : List (List Color)
  text : String

/-- `internal/tui/app.go:136-147`: `createCanvas`. A new rune is 0. -/
def createCanvas (nodes : List (TNode α)) : Except Fault Grid :=
  let b := nodes.foldl (fun (b : Bounds) n => b.extend n.bounds) ⟨0, 0, 1, 1⟩
  if b.h < 0 ∨ b.w < 0 then .error (.panic "makeslice: len out of range")
  else .ok (List.replicate b.h.toNat (List.replicate b.w.toNat (Char.ofNat 0)))

/-- `internal/tui/app.go:142-145`: `createCanvas`: the colours for a new canvas. A new colour is 0. -/
def createColors (g : Grid) : List (List Color) := g.map (fun row => row.map (fun _ => .black))

/-- `internal/tui/render.go:131-138`: `clearCanvas`, the runes. -/
def clearCanvas (g : Grid) : Grid := g.map (fun row => row.map (fun _ => ' '))

/-- `internal/tui/render.go:131-138`: `clearCanvas`, the colours. The canvas and the colours have the same size. -/
def clearColors (cs : List (List Color)) : List (List Color) := cs.map (fun row => row.map (fun _ => .white))

/-- `internal/tui/render.go:24`: `copy(a.colors[y][x:], line)`. Nothing is out of range when the copying of the runes to the
same place of the canvas, which comes first, succeeded; so this cannot fail here. -/
def copyColors (cs : List (List Color)) (y x : Nat) (line : List Color) : List (List Color) :=
  cs.modify y (fun row => row.take x ++ line.take (row.length - x) ++ row.drop (x + line.length))

/-- `internal/tui/render.go:22-25`: a node's colours among those of the canvas. -/
def drawColors (n : TNode α) (cs : List (List Color)) : List (List Color) :=
  n.colors.zipIdx.foldl (fun cs p => copyColors cs (n.bounds.y + (p.2 : Nat)).toNat n.bounds.x.toNat p.1) cs

/-- `internal/tui/render.go:146-153`: the inner loop of `updateCanvas`, for a line and the colour before it; gives the text
and the last colour. -/
def lineText : Color → List (Char × Color) → List Char × Color
  | prev, [] => ([], prev)
  | prev, (r, c) :: rest =>
    let t := lineText c rest
    ((if c ≠ prev then c.tag.toList else []) ++ r :: t.1, t.2)

/-- `internal/tui/render.go:143-159`: the outer loop of `updateCanvas`. -/
def linesText : Color → List (List (Char × Color)) → List Char
  | _, [] => []
  | prev, line :: rest =>
    let t := lineText prev line
    t.1 ++ Color.white.tag.toList ++ (if rest = [] then [] else ['\n']) ++ linesText t.2 rest

/-- `internal/tui/render.go:140-161`: `updateCanvas`: the text for the widget. The canvas and the colours have the same
size, so the colours are not indexed but listed beside the runes. -/
def canvasText (g : Grid) (cs : List (List Color)) : String :=
  String.ofList (linesText .black (List.zipWith List.zip g cs))

/-- `internal/tui/render.go:22-25`: a node's grid on the canvas. -/
def drawNode (n : TNode α) (g : Grid) : Except Fault Grid :=
  n.runes.zipIdx.foldlM (fun g p => gridCopyFrom g (n.bounds.y + (p.2 : Nat)) n.bounds.x p.1) g

/-- `internal/tui/render.go:16-27`: the loop of `renderNodes`; `i` is the position of the first listed node. Returns
the nodes, which keep their grids, and the canvas. -/
def renderNodes (fm : Fmt α) (a : App α) : Nat → List (TNode α) → Grid → Except Fault (List (TNode α) × Grid)
  | _, [], g => .ok ([], g)
  | i, n :: ns, g => do
    let data := (mapGet a.marginals n.var.name).getD []
    let n ← n.render fm data ((i : Int) == a.selectedNode) a.selectedState (mapGet a.evidence n.var.name).isSome
    let g ← drawNode n g
    let (ns, g) ← renderNodes fm a (i + 1) ns g
    return (n :: ns, g)

/-- A loop that writes one rune at a list of places `(y, x)`, as in `internal/tui/render.go:57-130`. -/
def drawAt (c : Char) (ps : List (Int × Int)) (g : Grid) : Except Fault Grid :=
  ps.foldlM (fun g p => gridSet g p.1 p.2 c) g

/-- `internal/tui/render.go:57-70`: `renderEdgeVertical`. The midpoint is of non-negative numbers in all reachable
states; `tdiv` is Go's division. -/
def edgeVertical (b1 b2 : Bounds) (g : Grid) : Except Fault Grid := do
  let xMid := (max b1.x b2.x + min (b1.x + b1.w) (b2.x + b2.w)).tdiv 2
  if b1.y < b2.y then
    let g ← drawAt '│' ((intRange (b1.y + b1.h) b2.y).map (fun y => (y, xMid))) g
    gridSet g (b2.y - 1) xMid 'v'
  else
    let g ← drawAt '│' ((intRange (b2.y + b2.h) b1.y).map (fun y => (y, xMid))) g
    gridSet g (b2.y + b2.h) xMid '^'

/-- `internal/tui/render.go:72-85`: `renderEdgeHorizontal`. -/
def edgeHorizontal (b1 b2 : Bounds) (g : Grid) : Except Fault Grid := do
  let yMid := (max b1.y b2.y + min (b1.y + b1.h) (b2.y + b2.h)).tdiv 2
  if b1.x < b2.x then
    let g ← drawAt '─' ((intRange (b1.x + b1.w) b2.x).map (fun x => (yMid, x))) g
    gridSet g yMid (b2.x - 1) '>'
  else
    let g ← drawAt '─' ((intRange (b2.x + b2.w) b1.x).map (fun x => (yMid, x))) g
    gridSet g yMid (b2.x + b2.w) '<'

/-- `internal/tui/render.go:87-129`: `renderEdgeCorner`. The loops that count down write the same rune at the places of
a range, in descending order. -/
def edgeCorner (b1 b2 : Bounds) (g : Grid) : Except Fault Grid := do
  let downwards := b2.y > b1.y
  let rightwards := b2.x > b1.x
  let yStart := if downwards then b1.y + b1.h - 1 else b1.y
  let xStart := if rightwards then b2.x else b2.x + b2.w - 1
  let g ←
    if rightwards then do
      let g ← drawAt '─' ((intRange (b1.x + b1.w) b2.x).map (fun x => (yStart, x))) g
      gridSet g yStart xStart (if downwards then '┐' else '┘')
    else do
      let g ← drawAt '─' (((intRange (b2.x + b2.w) b1.x).reverse).map (fun x => (yStart, x))) g
      gridSet g yStart xStart (if downwards then '┌' else '└')
  if downwards then
    let g ← drawAt '│' ((intRange (yStart + 1) b2.y).map (fun y => (y, xStart))) g
    gridSet g (b2.y - 1) xStart 'v'
  else
    let g ← drawAt '│' (((intRange (b2.y + b2.h + 1) yStart).reverse).map (fun y => (y, xStart))) g
    gridSet g (b2.y + b2.h) xStart '^'

/-- `internal/tui/render.go:38-55`: `renderEdge`. -/
def renderEdge (b1 b2 : Bounds) (g : Grid) : Except Fault Grid :=
  let hOverlap := b1.x + b1.w > b2.x ∧ b1.x < b2.x + b2.w
  let vOverlap := b1.y + b1.h > b2.y ∧ b1.y < b2.y + b2.h
  if hOverlap then (if vOverlap then .ok g else edgeVertical b1 b2 g)
  else if vOverlap then edgeHorizontal b1 b2 g
  else edgeCorner b1 b2 g

/-- `internal/tui/render.go:29-36`: `renderEdges`. -/
def renderEdges (a : App α) (g : Grid) : Except Fault Grid :=
  a.nodes.foldlM (fun g n => do
    let f ← n.deref
    f.given.foldlM (fun g p => do
      let m ← goGet a.nodes (intGet a.byName p)
      renderEdge m.bounds n.bounds g) g) g

/-- `internal/tui/render.go:7-14`: `render`. -/
def App.render (fm : Fmt α) (a : App α) (isUpdate : Bool) : Except Fault (App α) := do
  let g ← if isUpdate then pure a.canvas else renderEdges a (clearCanvas a.canvas)
  let (ns, g) ← renderNodes fm a 0 a.nodes g
  let cs := ns.foldl (fun cs n => drawColors n cs) (bif isUpdate then a.colors else clearColors a.colors)
  return { a with nodes := ns, canvas := g, colors := cs, text := canvasText g cs }

section

variable [Zero α] [One α] [Add α] [Mul α] [Div α] [DecidableEq α]

/-- `internal/tui/input.go:158-165`: `updateMarginals`. On an error the numbers are gone (a nil map). -/
def App.updateMarginals (sch : Nat → NSched α) (a : App α) : Except Fault Unit × App α :=
  match tuiSolve sch a.network a.evidence a.nodes a.ignorePolicies with
  | (.ok r, n) => (.ok (), { a with marginals := r, network := n })
  | (.error e, n) => (.error e, { a with marginals := [], network := n })

/-- `internal/tui/input.go:144-153`: the evidence after an outcome of a variable is chosen. -/
def toggleEvidence (evidence : List (String × String)) (name value : String) : List (String × String) :=
  match mapGet evidence name with
  | some old => if old = value then evidence.filter (fun e => e.1 ≠ name) else mapSet evidence name value
  | none => mapSet evidence name value

/-- `internal/tui/input.go:136-156`: `inputEnter`; all callers turn an error into a panic. -/
def App.inputEnter (sch : Nat → NSched α) (a : App α) : Except Fault (App α) := do
  let n ← goGetI a.nodes a.selectedNode
  if n.var.nodeType = .utility then return a
  else
    let value ← goGetI n.var.outcomes a.selectedState
    match App.updateMarginals sch { a with evidence := toggleEvidence a.evidence n.var.name value } with
    | (.ok (), a) => return a
    | (.error (.error m), _) => .error (.panic m)
    | (.error (.panic m), _) => .error (.panic m)

/-- `internal/tui/input.go:96-115` (the first part of `moveNode`): how far the node goes, and whether the canvas has
to be made anew. -/
def moveDelta (n : TNode α) (canvas : Grid) (key : Char) : Except Fault (Int × Int × Bool) :=
  if key = 'w' then .ok (0, if n.bounds.y > 0 then -1 else 0, false)
  else if key = 'a' then .ok (if n.bounds.x > 0 then -1 else 0, 0, false)
  else if key = 's' then .ok (0, 1, decide (n.bounds.y + n.bounds.h ≥ canvas.length))
  else if key = 'd' then do
    let row ← goGet canvas 0
    return (1, 0, decide (n.bounds.x + n.bounds.w ≥ row.length))
  else .ok (0, 0, false)

/-- The node at another place (`internal/tui/input.go:117-124`). -/
def TNode.shift (n : TNode α) (dx dy : Int) : TNode α :=
  { n with bounds := ⟨n.bounds.x + dx, n.bounds.y + dy, n.bounds.w, n.bounds.h⟩ }

/-- `internal/tui/input.go:93-133`: `moveNode`, for the four keys it acts on. -/
def App.moveNode (fm : Fmt α) (a : App α) (key : Char) : Except Fault (App α) := do
  let n ← goGetI a.nodes a.selectedNode
  let d ← moveDelta n a.canvas key
  if d.1 = 0 ∧ d.2.1 = 0 then return a
  else
    let v ← goGetI a.network.variables a.selectedNode
    let ns ← goSetI a.nodes a.selectedNode (n.shift d.1 d.2.1)
    let vs ← goSetI a.network.variables a.selectedNode
      { v with position := (v.position.1 + d.1, v.position.2 + d.2.1) }
    let g ← bif d.2.2 then createCanvas ns else .ok a.canvas
    App.render fm { a with
      nodes := ns, network := { a.network with «variables» := vs }, canvas := g
      colors := bif d.2.2 then createColors g else a.colors } false

/-- What the user does in the main panel (`internal/tui/input.go:16-63, 190-235`); other keys change nothing. `show` opens the table, help or info page (keys
`t`, `h`, `i`), of which only the building of the table is modelled. -/
inductive Event where
  | tab
  | backtab
  | space
  | digit (c : Char)
  | enter
  | showTable
  | togglePolicies
  | move (key : Char)
  | leftClick (x y : Int)
  | rightClick (x y : Int)

/-- `internal/tui/input.go:167-178`: `showTable`. -/
def App.showTable (a : App α) : Except Fault (App α) := do
  let t ← newTable a.nodes a.selectedNode a.byName
  let _ ← t.rowCount
  return a

/-- `internal/tui/input.go:306-316`: `selectNodeOutcome`. -/
def App.selectNodeOutcome (fm : Fmt α) (a : App α) (index : String) : Except Fault (App α) :=
  match goAtoi index with
  | none => .error (.panic "invalid syntax")
  | some i => do
    let n ← goGetI a.nodes a.selectedNode
    if i - 1 ≥ 0 ∧ i - 1 < n.var.outcomes.length then App.render fm { a with selectedState := i - 1 } true
    else return a

/-- `internal/tui/input.go:65-76`: `toggleIgnorePolicy`. An error of `updateMarginals` is dropped. -/
def App.toggleIgnorePolicy (fm : Fmt α) (sch : Nat → NSched α) (a : App α) : Except Fault (App α) :=
  match App.updateMarginals sch { a with ignorePolicies := !a.ignorePolicies } with
  | (.ok (), a) => a.render fm true
  | (.error (.error _), a) => a.render fm true
  | (.error (.panic m), _) => .error (.panic m)

/-- `internal/tui/input.go:210-215`: a left click on the selected node, maybe on one of its outcomes. -/
def App.clickNode (sch : Nat → NSched α) (a : App α) : Option Nat → Except Fault (App α)
  | some outcome => App.inputEnter sch { a with selectedState := (outcome : Int) }
  | none => .ok a

/-- `internal/tui/input.go:205-220`: a left click in the graph. -/
def App.leftClick (fm : Fmt α) (sch : Nat → NSched α) (a : App α) (x y : Int) : Except Fault (App α) :=
  match a.nodes.zipIdx.find? (fun p => p.1.bounds.contains x y) with
  | none => .ok a
  | some (n, i) => do
    let a ← App.clickNode sch { a with selectedNode := (i : Int) } (n.selectedOutcome x y)
    a.render fm true

/-- `internal/tui/input.go:221-231`: a right click in the graph. -/
def App.rightClick (fm : Fmt α) (a : App α) (x y : Int) : Except Fault (App α) :=
  match a.nodes.zipIdx.find? (fun p => p.1.bounds.contains x y) with
  | none => .ok a
  | some (_, i) => do
    let a ← App.render fm { a with selectedNode := (i : Int) } true
    a.showTable

/-- `internal/tui/input.go:16-63`: `inputMainPanel`, and `mouseInputGraph` (190-235) when no dialog is open, with
`selectNextNode` (291-295) and `selectPreviousNode` (297-304). -/
def App.step (fm : Fmt α) (sch : Nat → NSched α) (a : App α) : Event → Except Fault (App α)
  | .tab =>
    if a.nodes.length = 0 then .error (.panic "integer divide by zero")
    else App.render fm { a with
      selectedNode := (a.selectedNode + 1).tmod a.nodes.length
      selectedState := 0 } true
  | .backtab =>
    App.render fm { a with
      selectedNode := if a.selectedNode - 1 < 0 then (a.nodes.length : Int) - 1 else a.selectedNode - 1
      selectedState := 0 } true
  | .space => do
    let n ← goGetI a.nodes a.selectedNode
    if n.var.outcomes.length = 0 then .error (.panic "integer divide by zero")
    else App.render fm { a with selectedState := (a.selectedState + 1).tmod n.var.outcomes.length } true
  | .digit c => a.selectNodeOutcome fm (String.singleton c)
  | .enter => do
    let a ← a.inputEnter sch
    a.render fm true
  | .showTable => a.showTable
  | .togglePolicies => a.toggleIgnorePolicy fm sch
  | .move key => a.moveNode fm key
  | .leftClick x y => a.leftClick fm sch x y
  | .rightClick x y => a.rightClick fm x y

/-- A session: events one after the other (the event loop of tview around `internal/tui/input.go:16-63`); `k` numbers
the events. -/
def App.run (fm : Fmt α) (sch : Nat → Nat → NSched α) : Nat → List Event → App α → Except Fault (App α)
  | _, [], a => .ok a
  | k, e :: es, a => do
    let a ← a.step fm (sch k) e
    App.run fm sch (k + 1) es a

/-- `internal/tui/app.go:67-72`: the nodes of the app. -/
def appNodes (n : Net α) : Except Fault (List (TNode α)) :=
  n.variables.mapM (fun v => newNode v (v.factor.bind (fun p => n.factors[p]?)))

/-- `internal/tui/app.go:79-83`: the solved policies replace the decisions' tables, for one iteration order. -/
def usePolicies (byName : List (String × Nat)) (policies : List (String × NFactor α)) (nodes : List (TNode α)) :
    Except Fault (List (TNode α)) :=
  policies.foldlM (fun ns p => do
    let n ← goGet ns (intGet byName p.1)
    goSet ns (intGet byName p.1) { n with factor := some p.2 }) nodes

/-- `internal/tui/app.go:67-92`: the part of `Run` that prepares the app for a loaded (and trained) network, up to the
first drawing. `sch0` is for `SolvePolicies`. -/
def startApp [NatCast α] [LE α] [DecidableLE α] [LT α] [DecidableLT α] (fm : Fmt α) (sch0 : NSched α)
    (sch : Nat → NSched α) (n : Net α) (evidence : List (String × String)) : Except Fault (App α) := do
  let nodes ← appNodes n
  let byName := nodes.zipIdx.foldl (fun m p => mapSet m p.1.var.name p.2) []
  let (r, n) := n.solvePolicies sch0 true
  let policies ← r
  let nodes ← usePolicies byName policies nodes
  let a : App α := ⟨nodes, byName, n, evidence, [], 0, 0, false, [], [], ""⟩
  match App.updateMarginals sch a with
  | (.error e, _) => .error e
  | (.ok (), a) => do
    let g ← createCanvas a.nodes
    App.render fm { a with canvas := g, colors := createColors g } false

end

/-- The command-line arguments kept by the app: the fields `file`, `trainingFile`, `csvDelimiter`, `noData` and
`evidence` of `internal/tui/app.go:10-37`. -/
structure AppArgs where
  file : String
  trainingFile : String
  csvDelimiter : Char
  noData : String
  evidence : List (String × String)
deriving DecidableEq, Repr

/-- `internal/tui/app.go:39-49`: `New`. The fields that are not set have their zero value. -/
def newAppArgs (path : String) (evidence : List (String × String)) (trainingFile _noData : String) (csvDelimiter : Char) :
    AppArgs :=
  { file := path, trainingFile := trainingFile, csvDelimiter := csvDelimiter, noData := "", evidence := evidence }

/-- `internal/tui/app.go:52-65`: the first part of `Run`: the loaded network, trained if there is a training file.
The file system is a parameter: the header and the records of a file read with a delimiter. -/
def loadApp [Zero α] [Add α] [One α] [Div α] [NatCast α] (pf : String → Option (Option α))
    (csv : String → Char → Except Fault (List String × List (List String))) (n : Net α) (a : AppArgs) :
    Except Fault (Net α) :=
  if a.trainingFile ≠ "" then do
    let (header, records) ← csv a.trainingFile a.csvDelimiter
    trainNetwork pf n header records a.noData
  else .ok n

end Bbn
