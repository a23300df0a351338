import Verif.Model.TuiApp

/-!
# `FromFile`, saving in the app, and the commands `bbn inference`, `bbn train` and `bbni`

Modelled: `network.go:107-131`, `internal/tui/input.go:78-91`, `cmd/bbn/inference.go`, `cmd/bbn/train.go`,
`cmd/bbni/main.go:20-60`. Not modelled: the parsing of command lines (cobra): a command gets its arguments and the values
of its flags. The file system is a map from paths to contents. Encoding and decoding of YAML, decoding of XML,
`strings.ToLower`, `strconv.ParseFloat`, `encoding/csv` and the verb `%.3f` are parameters.
-/

set_option autoImplicit false

namespace Bbn

variable {α B : Type}

/-- `path.Ext` (library function, used in `internal/tui/input.go:84`), and `filepath.Ext` (`network.go:113`) where paths are separated
by slashes: from the last dot after the
last slash on; empty if there is none. -/
def goExt (s : String) : String :=
  let r := s.toList.reverse
  let w := r.takeWhile (fun c => c ≠ '/' && c ≠ '.')
  match r.drop w.length with
  | '.' :: _ => String.ofList ('.' :: w.reverse)
  | _ => ""

/-- `strings.TrimSuffix` (library function, used in `internal/tui/input.go:85`). -/
def goTrimSuffix (s suffix : String) : String :=
  if suffix.toList <:+ s.toList then String.ofList (s.toList.take (s.toList.length - suffix.toList.length)) else s

/-- The files: the contents at each path, if there is one (`os.ReadFile` in `network.go:109`, `os.WriteFile` in
`internal/tui/input.go:78-91`, `os.Open` in `internal/tui/training.go:17`). -/
abbrev Disk (B : Type) := String → Option B

/-- What is taken from libraries to read and write files. `csv` is the header and the records of a file with a
delimiter. Used in `yml.go:50-61`, `yml.go:159-169`, `xml.go:34-45`, `xml.go:85` and `internal/tui/training.go:17-56`. -/
structure Lib (α B : Type) where
  yaml : B → Option (NetYaml α)
  encode : NetYaml α → B
  xml : B → Option NetXml
  csv : B → Char → Except Fault (List String × List (List String))
  lower : String → String
  number : String → Option α
  cell : String → Option (Option α)

/-- `network.go:107-131`: `FromFile`, with the decoding of `yml.go:50-61` and `xml.go:34-45`. -/
def fromFile [Zero α] [One α] (lib : Lib α B) (disk : Disk B) (path : String) (h : LHeap α) :
    Except Fault (Net α) × LHeap α :=
  match disk path with
  | none => (.error (.error "no such file"), h)
  | some b =>
    let ext := lib.lower (goExt path)
    if ext = ".yml" then
      match lib.yaml b with
      | none => (.error (.error "invalid YAML"), h)
      | some y => fromYaml lib.lower y h
    else if ext = ".xml" ∨ ext = ".bifxml" then
      match lib.xml b with
      | none => (.error (.error "invalid XML"), h)
      | some x => (fromXml lib.number x, h)
    else (.error (.error "unsupported file format"), h)

/-! ## Saving in the app -/

/-- `internal/tui/input.go:84-85`: the path of the saved file. -/
def savePath (file : String) : String := goTrimSuffix file (goExt file) ++ "-save.yml"

/-- `internal/tui/input.go:78-91`: `saveNetwork`. `writable` tells where files can be written. -/
def App.save (lib : Lib α B) (writable : String → Bool) (file : String) (a : App α) (disk : Disk B) :
    Except Fault (Disk B) :=
  match toYaml a.network with
  | .error (.error m) => .error (.panic m)
  | .error (.panic m) => .error (.panic m)
  | .ok y =>
    if writable (savePath file) then .ok (fun p => if p = savePath file then some (lib.encode y) else disk p)
    else .error (.panic "cannot write file")

/-- Keys and clicks in the main panel, with those that leave the app as it is: Ctrl+S and ESC (`internal/tui/input.go:17-21, 57-59`). -/
inductive Input where
  | event (e : Event)
  | save
  | quit

/-- `internal/tui/training.go:17-31`: opening and reading the training file. -/
def readCsv (lib : Lib α B) (disk : Disk B) (path : String) (delim : Char) :
    Except Fault (List String × List (List String)) :=
  match disk path with
  | none => .error (.error "no such file")
  | some b => lib.csv b delim

/-- `cmd/bbn/train.go:30-33`, `cmd/bbni/main.go:42-45`: the delimiter must be one character. -/
def oneRune (delim : String) : Except Fault Char :=
  match delim.toList with
  | [c] => .ok c
  | _ => .error (.error "argument for --delim must be a single rune")

/-- Go's padding with blanks on the left (`%10s`; library function, used in `cmd/bbn/inference.go:36-44`). -/
def padLeft (w : Nat) (s : String) : String := String.ofList (List.replicate (w - s.length) ' ') ++ s

/-- `cmd/bbn/inference.go:38-42`: a number of a node. `fix` is the verb `%.3f`; `none` is NaN. -/
def printNumber [Mul α] [NatCast α] (fix : Option α → String) (t : NodeType) (p : Option α) : String :=
  if t = .utility then " " ++ padLeft 10 (fix p)
  else " " ++ padLeft 9 (fix (p.map (· * ((100 : Nat) : α)))) ++ "%"

/-- `cmd/bbn/inference.go:30-49`: the text for a node. -/
def printNode [Mul α] [NatCast α] (fix : Option α → String) (ev : List (String × String)) (result : Shown α) (v : NVar) : String :=
  "                              " ++ String.join (v.outcomes.map (fun s => " " ++ padLeft 10 s)) ++
    "\n" ++ padLeft 30 v.name ++
    String.join (((mapGet result v.name).getD []).map (printNumber fix v.nodeType)) ++
    (if (mapGet ev v.name).isSome then "  +" else "") ++ "\n"

section

variable [Zero α] [One α] [Add α] [Mul α] [Div α] [DecidableEq α]

/-- The app while it runs (the event loop around `internal/tui/input.go:16-63`), and the files. Nothing happens after ESC or a panic. Returns the files, and the app at the end
or the fault. `k` numbers the inputs. -/
def App.session (lib : Lib α B) (writable : String → Bool) (file : String) (fm : Fmt α) (sch : Nat → Nat → NSched α) :
    Nat → List Input → App α → Disk B → Disk B × Except Fault (App α)
  | _, [], a, disk => (disk, .ok a)
  | _, .quit :: _, a, disk => (disk, .ok a)
  | k, .save :: is, a, disk =>
    match a.save lib writable file disk with
    | .error e => (disk, .error e)
    | .ok disk => App.session lib writable file fm sch (k + 1) is a disk
  | k, .event e :: is, a, disk =>
    match a.step fm (sch k) e with
    | .error e => (disk, .error e)
    | .ok a => App.session lib writable file fm sch (k + 1) is a disk

/-- `internal/tui/app.go:51-92` (`Run` up to the first drawing), with the files. -/
def openApp [NatCast α] [LE α] [DecidableLE α] [LT α] [DecidableLT α] (lib : Lib α B) (disk : Disk B) (fm : Fmt α)
    (sch0 : NSched α) (sch : Nat → NSched α) (a : AppArgs) (h : LHeap α) : Except Fault (App α) := do
  let n ← (fromFile lib disk a.file h).1
  let n ← loadApp lib.cell (readCsv lib disk) n a
  startApp fm sch0 sch n a.evidence

/-- `cmd/bbni/main.go:36-49`: `bbni`, with the inputs of the user. -/
def bbniCommand [NatCast α] [LE α] [DecidableLE α] [LT α] [DecidableLT α] (lib : Lib α B) (writable : String → Bool)
    (disk : Disk B) (fm : Fmt α) (sch0 : NSched α) (sch1 : Nat → NSched α) (sch : Nat → Nat → NSched α)
    (file : String) (evidence : List String) (training noData delim : String) (inputs : List Input) (h : LHeap α) :
    Disk B × Except Fault (App α) :=
  match (do
    let ev ← parseEvidence evidence
    let c ← oneRune delim
    openApp lib disk fm sch0 sch1 (newAppArgs file ev training noData c) h : Except Fault (App α)) with
  | .error e => (disk, .error e)
  | .ok a => App.session lib writable file fm sch 0 inputs a disk

/-! ## The commands of `bbn` -/

/-- `cmd/bbn/inference.go:63-91`: `runInferenceCommand`. -/
def runInference [NatCast α] [LE α] [DecidableLE α] [LT α] [DecidableLT α] (lib : Lib α B) (disk : Disk B)
    (sch0 : NSched α) (sch : Nat → NSched α) (path : String) (evidence : List String) (h : LHeap α) :
    Except Fault (List NVar × List (String × String) × Shown α) := do
  let n ← (fromFile lib disk path h).1
  let ev ← parseEvidence evidence
  let nodes ← appNodes n
  let _ ← (n.solvePolicies sch0 true).1
  let result ← (tuiSolve sch (n.solvePolicies sch0 true).2 ev nodes false).1
  return (n.variables, ev, result)

/-- `cmd/bbn/inference.go:26-54`: `bbn inference`: the text that is printed. -/
def inferenceCommand [NatCast α] [LE α] [DecidableLE α] [LT α] [DecidableLT α] (lib : Lib α B) (disk : Disk B)
    (fix : Option α → String) (sch0 : NSched α) (sch : Nat → NSched α) (path : String) (evidence : List String)
    (h : LHeap α) : Except Fault String := do
  let (nodes, ev, result) ← runInference lib disk sch0 sch path evidence h
  return String.join (nodes.map (printNode fix ev result))

/-- `cmd/bbn/train.go:26-53`: `bbn train`: the YAML that is printed (followed by a line break, not modelled). -/
def trainCommand [NatCast α] (lib : Lib α B) (disk : Disk B) (netFile dataFile noData delim : String) (h : LHeap α) :
    Except Fault B := do
  let c ← oneRune delim
  let n ← (fromFile lib disk netFile h).1
  let (header, records) ← readCsv lib disk dataFile c
  let n ← trainNetwork lib.cell n header records noData
  let y ← toYaml n
  return lib.encode y

end

end Bbn
