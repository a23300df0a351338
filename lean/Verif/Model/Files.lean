import Verif.Model.Logic
import Verif.Model.Strings

/-!
# `yml.go`, `xml.go`

The YAML and XML libraries are not modelled: loading starts from the decoded structures, saving ends with the structure
that is encoded. Of the library functions, `strings.ToLower` and `strconv.ParseFloat` are parameters.
-/

set_option autoImplicit false

namespace Bbn

variable {α : Type}

/-- `yml.go:33-42`: `variableYaml`. Empty and nil slices are not distinguished: both are left out when encoding
(`omitempty`), and outcomes and positions are never nil-checked. -/
structure VarYaml (α : Type) where
  name : String
  given : List String
  type : String
  outcomes : List String
  position : Int × Int
  color : String
  logic : String
  table : List (List α)
deriving DecidableEq, Repr

/-- `yml.go:44-48`: `networkYaml`. -/
structure NetYaml (α : Type) where
  name : String
  info : String
  «variables» : List (VarYaml α)
deriving DecidableEq, Repr

/-- `yml.go:20-25`: `nodeTypes`. -/
def nodeTypeOf (s : String) : Option NodeType :=
  if s = "" then some .chance
  else if s = "nature" then some .chance
  else if s = "decision" then some .decision
  else if s = "utility" then some .utility
  else none

/-- `yml.go:27-31`: `nodeTypeNames`. -/
def nodeTypeName : NodeType → String
  | .chance => ""
  | .decision => "decision"
  | .utility => "utility"

/-- `yml.go:115-119`: one argument of a logic operator. -/
def logicArg (s : String) : Except Fault Int :=
  match goAtoi s with
  | some i => .ok i
  | none => .error (.error "invalid syntax")

/-- `yml.go:113-120`: the arguments of a logic operator. -/
def logicArgs (parts : List String) : Except Fault (List Int) := parts.mapM logicArg

/-- `yml.go:108-130`: the second part of `toTable`, for nodes with a logic operator. Returns the result and the logic
objects after the call. -/
def logicTable [Zero α] [One α] (lower : String → String) (logic : String) (parents : Nat) (h : LHeap α) :
    Except Fault (List α) × LHeap α :=
  match goSplit logic ' ' with
  | [] => (.error (.panic "index out of range"), h)
  | op :: rest =>
    match logicGet (lower op) with
    | none => (.error (.error "unknown logic operator"), h)
    | some p =>
      match logicArgs rest with
      | .error e => (.error e, h)
      | .ok args =>
        match h.setArgs p args with
        | .error e => (.error e, h)
        | .ok h => (h.table p parents, h)

/-- `yml.go:92-131`: `toTable`. -/
def toTable [Zero α] [One α] (lower : String → String) (v : VarYaml α) (h : LHeap α) :
    Except Fault (Option (List α)) × LHeap α :=
  if v.table.length > 0 ∧ v.logic ≠ "" then (.error (.error "node can only have one of 'table' or 'logic'"), h)
  else if v.logic = "" then
    (if v.table.length > 0 then .ok (some v.table.flatten) else .ok none, h)
  else
    let (r, h) := logicTable lower v.logic v.given.length h
    (r.map some, h)

/-- `yml.go:64-87`: the loop of `FromYAML`. -/
def yamlNodes [Zero α] [One α] (lower : String → String) :
    List (VarYaml α) → LHeap α → Except Fault (List NVar × List (NFactor α)) × LHeap α
  | [], h => (.ok ([], []), h)
  | v :: rest, h =>
    match nodeTypeOf v.type with
    | none => (.error (.error "unknown node type"), h)
    | some tp =>
      match toTable lower v h with
      | (.error e, h) => (.error e, h)
      | (.ok table, h) =>
        match yamlNodes lower rest h with
        | (.error e, h) => (.error e, h)
        | (.ok (vars, fs), h) =>
          (.ok (⟨v.name, tp, v.outcomes, v.position, v.color, none⟩ :: vars, ⟨v.name, v.given, table, [], 0⟩ :: fs), h)

/-- `yml.go:62-89`: `FromYAML` after decoding. -/
def fromYaml [Zero α] [One α] (lower : String → String) (y : NetYaml α) (h : LHeap α) : Except Fault (Net α) × LHeap α :=
  match yamlNodes lower y.variables h with
  | (.error e, h) => (.error e, h)
  | (.ok (vars, fs), h) => (newNet y.name y.info vars fs, h)

/-- `yml.go:137-141`: the rows of a table. The division panics for no columns; incomplete rows are dropped. -/
def tableRows (table : List α) (cols : Nat) : Except Fault (List (List α)) :=
  if cols = 0 then .error (.panic "integer divide by zero")
  else .ok ((List.range (table.length / cols)).map (fun i => (table.drop (i * cols)).take cols))

/-- `yml.go:135-151`: one iteration of the loop of `ToYAML`. -/
def toYamlVar (fs : List (NFactor α)) (v : NVar) : Except Fault (VarYaml α) := do
  let f ← derefFactor fs v
  let table ← tableRows f.tab v.outcomes.length
  return { name := v.name, given := f.given, type := nodeTypeName v.nodeType, outcomes := v.outcomes,
           position := v.position, color := "", logic := "", table := table }

/-- `yml.go:133-156`: `ToYAML` up to encoding. -/
def toYaml (n : Net α) : Except Fault (NetYaml α) := do
  let vars ← n.variables.mapM (toYamlVar n.factors)
  return { name := n.name, info := "", «variables» := vars }

/-- `xml.go:21-26`: `variableXml`. -/
structure VarXml where
  name : String
  type : String
  outcomes : List String
  properties : List String
deriving DecidableEq, Repr

/-- `xml.go:28-32`: `definitionXml`. -/
structure DefXml where
  forVar : String
  given : List String
  table : String
deriving DecidableEq, Repr

/-- `xml.go:15-19`: `networkXml`. -/
structure NetXml where
  name : String
  «variables» : List VarXml
  definitions : List DefXml
deriving DecidableEq, Repr

/-- `xml.go:46-50`: the map from names to definitions. -/
def xmlDefs (ds : List DefXml) : List (String × DefXml) := ds.foldl (fun m d => mapSet m d.forVar d) []

/-- `xml.go:105-127`: one iteration of the loop of `parsePosition`. -/
def parseProperty (pos : Int × Int) (prop : String) : Except Fault (Int × Int) :=
  match goSplit prop '=' with
  | [key, value] =>
    if goTrimSpace key ≠ "position" then .ok pos
    else
      match goSplit (goTrimParens (goTrimSpace value)) ',' with
      | [a, b] =>
        match goAtoi (goTrimSpace a) with
        | none => .error (.error "error parsing to integer in property 'position'")
        | some x =>
          match goAtoi (goTrimSpace b) with
          | none => .error (.error "error parsing to integer in property 'position'")
          | some y => .ok (x.tdiv 2, y.tdiv 12)
      | _ => .error (.error "syntax error in property 'position'")
  | _ => .ok pos

/-- `xml.go:103-130`: `parsePosition`. -/
def parsePosition (properties : List String) : Except Fault (Int × Int) := properties.foldlM parseProperty (0, 0)

/-- `xml.go:84-88`: one entry of a table. -/
def parseValue (parseFloat : String → Option α) (s : String) : Except Fault α :=
  match parseFloat s with
  | some x => .ok x
  | none => .error (.error "error parsing table value")

/-- `xml.go:81-91`: the entries of a table. -/
def parseTable (parseFloat : String → Option α) (values : List String) : Except Fault (Option (List α)) :=
  if values.length > 0 then do
    let t ← values.mapM (parseValue parseFloat)
    return some t
  else .ok none

/-- `xml.go:54-97`: one iteration of the loop of `FromBIFXML`. -/
def xmlNode (parseFloat : String → Option α) (defs : List (String × DefXml)) (v : VarXml) :
    Except Fault (NVar × NFactor α) :=
  match mapGet defs v.name with
  | none => .error (.panic "nil pointer dereference")
  | some d =>
    let values := goFields d.table
    if v.outcomes.length > 0 ∧ values.length % v.outcomes.length ≠ 0 then
      .error (.error "number of values in table does not match expected number")
    else do
      let position ← parsePosition v.properties
      match nodeTypeOf v.type with
      | none => .error (.error "unknown node type")
      | some tp =>
        let table ← parseTable parseFloat values
        return (⟨v.name, tp, v.outcomes, position, "", none⟩, ⟨v.name, d.given, table, [], 0⟩)

/-- `xml.go:46-99`: `FromBIFXML` after decoding. -/
def fromXml (parseFloat : String → Option α) (x : NetXml) : Except Fault (Net α) := do
  let nodes ← x.variables.mapM (xmlNode parseFloat (xmlDefs x.definitions))
  newNet x.name "" (nodes.map Prod.fst) (nodes.map Prod.snd)

end Bbn
