import Verif.Model.Commands

/-!
# `internal/tui`: the pages of the app

Modelled: which handlers the app registers (`internal/tui/app.go:97-127`) and what they do (`input.go`): the graph, the three dialogs,
the keyboard focus, the border of the graph, and the place of a click.
Not modelled: the drawing of the widgets and their own reaction to keys and mouse buttons (scrolling; a widget may also take
the focus when a mouse button is pressed on it). Of `tview`, which is not part of the code, this is assumed: a key goes to
the handler of the widget that has the focus, or of the panel around it; a click goes to the handler of a widget on a visible page;
`ShowPage` and `HidePage` move the focus to the page in front, and the last visible page is in front.
-/

set_option autoImplicit false

namespace Bbn

variable {α B : Type}

/-- `internal/tui/app.go:99-109`: the pages. -/
inductive Page where
  | graph
  | table
  | help
  | info
deriving DecidableEq, Repr

/-- A key event: `event.Key()` and `event.Rune()` (`internal/tui/input.go:16-63`). `other` are keys that are not mentioned in the code and have no rune. -/
inductive Key where
  | esc
  | tab
  | backtab
  | enter
  | ctrlS
  | rune (c : Char)
  | other
deriving DecidableEq, Repr

/-- `tview.MouseLeftClick` and `tview.MouseRightClick`; the handlers (`internal/tui/input.go:190-259`) let
other mouse actions pass. -/
inductive MouseButton where
  | left
  | right
deriving DecidableEq, Repr

/-- `internal/tui/input.go:286-287`: the inner corner of the graph's widget on the screen, and how far it is scrolled. -/
structure View where
  boxX : Int
  boxY : Int
  scrollX : Int
  scrollY : Int
deriving DecidableEq, Repr

/-- `internal/tui/input.go:285-289`: `mousePosInGraph`. -/
def View.pos (v : View) (x y : Int) : Int × Int := (x - v.boxX + v.scrollX, y - v.boxY + v.scrollY)

/-- What the user does: press a key, or click on the widget of a page (`internal/tui/app.go:111-121` registers the
handlers). -/
inductive Act where
  | key (k : Key)
  | click (b : MouseButton) (on : Page) (v : View) (x y : Int)

/-- `internal/tui/app.go:10-37`: the app with its pages (`pages`, in their order, each visible or not), the page whose
handler gets the keys, the title and the content of the table widget, whether the border of the graph is blue, and the
files. `running` is false after `Stop`. -/
structure Screen (α B : Type) where
  app : App α
  disk : Disk B
  pages : List (Page × Bool)
  focus : Option Page
  content : Option (String × TTable α)
  blue : Bool
  running : Bool

/-- `tview.Pages.GetFrontPage` (library function, behind `internal/tui/input.go:167-188`). -/
def frontPage (ps : List (Page × Bool)) : Option Page := ((ps.filter (fun p => p.2)).getLast?).map Prod.fst

/-- `tview.Pages.Focus` (library function), after pages were shown or hidden. In the main panel the graph is the item with
the focus (`internal/tui/app.go:196`); the dialogs have no such item (`internal/tui/app.go:223, 246, 269`), so no handler would get the keys. -/
def Screen.refocus (s : Screen α B) : Screen α B :=
  { s with focus := match frontPage s.pages with
      | some .graph => some .graph
      | _ => none }

/-- `tview.Pages.ShowPage` (library function, used in `internal/tui/input.go:175-187`). -/
def Screen.showPage (p : Page) (s : Screen α B) : Screen α B :=
  Screen.refocus { s with pages := s.pages.map (fun e => if e.1 = p then (e.1, true) else e) }

/-- `tview.Pages.HidePage` (library function, used in `internal/tui/input.go:261-283`). -/
def Screen.hidePage (p : Page) (s : Screen α B) : Screen α B :=
  Screen.refocus { s with pages := s.pages.map (fun e => if e.1 = p then (e.1, false) else e) }

/-- `internal/tui/input.go:180-183, 185-188`: `showHelp` and `showInfo`; also the end of `showTable` (175-177). -/
def Screen.openDialog (p : Page) (s : Screen α B) : Screen α B := { s.showPage p with focus := some p }

/-- `internal/tui/input.go:167-178`: `showTable`. The height of the dialog (172) is computed, and not used here. -/
def Screen.showTable (s : Screen α B) : Except Fault (Screen α B) := do
  let n ← goGetI s.app.nodes s.app.selectedNode
  let t ← newTable s.app.nodes s.app.selectedNode s.app.byName
  let _ ← t.rowCount
  return Screen.openDialog .table { s with content := some (" " ++ n.var.name ++ " ", t) }

/-- `internal/tui/input.go:261-283`: `inputTable`, `inputHelp` and `inputInfo`, for the page they belong to. -/
def Screen.dialogKey (p : Page) (s : Screen α B) (k : Key) : Screen α B :=
  if k = .esc ∨ k = .enter then s.hidePage p else s

/-- `internal/tui/app.go:97-127`: the pages when the app starts. -/
def startScreen (a : App α) (disk : Disk B) : Screen α B :=
  let s : Screen α B := ⟨a, disk, [(.graph, true), (.table, false), (.help, false), (.info, false)], some .graph, none, false, true⟩
  if a.network.info ≠ "" then s.openDialog .info else s

section

variable [Zero α] [One α] [Add α] [Mul α] [Div α] [DecidableEq α]

/-- An event that changes only the app (`internal/tui/input.go:16-63`). -/
def Screen.event (fm : Fmt α) (sch : Nat → NSched α) (s : Screen α B) (e : Event) : Except Fault (Screen α B) := do
  let a ← s.app.step fm sch e
  return { s with app := a }

/-- `internal/tui/input.go:45-61`: the last part of `inputMainPanel`. The key `p` is `toggleIgnorePolicy` (65-76), where
the border is coloured before the numbers are computed. -/
def Screen.runeKey (fm : Fmt α) (sch : Nat → NSched α) (s : Screen α B) (c : Char) : Except Fault (Screen α B) :=
  if c = 'h' then .ok (s.openDialog .help)
  else if c = 'i' then .ok (s.openDialog .info)
  else if c = 't' then s.showTable
  else if c = 'p' then Screen.event fm sch { s with blue := !s.app.ignorePolicies } .togglePolicies
  else s.event fm sch (.move c)

/-- `internal/tui/input.go:16-63`: `inputMainPanel`. `isDigit` is `unicode.IsDigit`. A key without a rune has the rune 0
here. -/
def Screen.mainKey (lib : Lib α B) (writable : String → Bool) (file : String) (isDigit : Char → Bool) (fm : Fmt α)
    (sch : Nat → NSched α) (s : Screen α B) : Key → Except Fault (Screen α B)
  | .esc => .ok { s with running := false }
  | .tab => s.event fm sch .tab
  | .backtab => s.event fm sch .backtab
  | .enter => s.event fm sch .enter
  | .ctrlS => do
    let d ← s.app.save lib writable file s.disk
    return { s with disk := d }
  | .rune c =>
    if c = ' ' then s.event fm sch .space
    else if isDigit c then s.event fm sch (.digit c)
    else s.runeKey fm sch c
  | .other => s.event fm sch (.move (Char.ofNat 0))

/-- `internal/tui/input.go:221-231`: a right click in the graph. -/
def Screen.rightClick (fm : Fmt α) (s : Screen α B) (x y : Int) : Except Fault (Screen α B) :=
  match s.app.nodes.zipIdx.find? (fun p => p.1.bounds.contains x y) with
  | none => .ok s
  | some (_, i) => do
    let a ← App.render fm { s.app with selectedNode := (i : Int) } true
    Screen.showTable { s with app := a }

/-- `internal/tui/input.go:190-235`: `mouseInputGraph`. -/
def Screen.graphClick (fm : Fmt α) (sch : Nat → NSched α) (s : Screen α B) (b : MouseButton) (v : View) (x y : Int) :
    Except Fault (Screen α B) :=
  match frontPage s.pages with
  | some .table => .ok (s.hidePage .table)
  | some .help => .ok (s.hidePage .help)
  | some .info => .ok (s.hidePage .info)
  | _ =>
    match b with
    | .left => s.event fm sch (.leftClick (v.pos x y).1 (v.pos x y).2)
    | .right => s.rightClick fm (v.pos x y).1 (v.pos x y).2

/-- The handlers as they are registered in `internal/tui/app.go:111-121`. `mouseInputTable`, `mouseInputHelp` and
`mouseInputInfo` (`internal/tui/input.go:237-259`) hide their page. -/
def Screen.act (lib : Lib α B) (writable : String → Bool) (file : String) (isDigit : Char → Bool) (fm : Fmt α)
    (sch : Nat → NSched α) (s : Screen α B) : Act → Except Fault (Screen α B)
  | .key k =>
    match s.focus with
    | none => .ok s
    | some .graph => s.mainKey lib writable file isDigit fm sch k
    | some p => .ok (s.dialogKey p k)
  | .click b p v x y =>
    if (p, true) ∈ s.pages then
      match p with
      | .graph => s.graphClick fm sch b v x y
      | p => .ok (s.hidePage p)
    else .ok s

/-- The app while it runs (`internal/tui/app.go:129`): nothing happens after `Stop` or a panic. Returns the files, and the screen at the
end or the fault. `k` numbers the inputs. -/
def Screen.run (lib : Lib α B) (writable : String → Bool) (file : String) (isDigit : Char → Bool) (fm : Fmt α)
    (sch : Nat → Nat → NSched α) : Nat → List Act → Screen α B → Disk B × Except Fault (Screen α B)
  | _, [], s => (s.disk, .ok s)
  | k, i :: is, s =>
    if s.running then
      match s.act lib writable file isDigit fm (sch k) i with
      | .error e => (s.disk, .error e)
      | .ok s => Screen.run lib writable file isDigit fm sch (k + 1) is s
    else (s.disk, .ok s)

end

end Bbn
