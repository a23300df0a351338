/-!
# Basic vocabulary of the model

Panics and returned errors of the Go code are values of `Fault`; a Go function that may panic or return an
error becomes a function into `Except Fault`.
-/

set_option autoImplicit false

namespace Bbn

/-- How a Go call can end other than by returning normally: a run-time panic, or a returned `error`.
The string abbreviates the message in the source. Used for all modelled functions, as `panic` in `ve/variables.go:26,
52` and returned errors in `network.go:134-165`. -/
inductive Fault where
  | panic (msg : String)
  | error (msg : String)
deriving DecidableEq, Repr

/-- The call panicked with any message, as in `ve/variables.go:25-27` (language semantics). -/
def Panics {β : Type _} (r : Except Fault β) : Prop := ∃ m, r = .error (.panic m)

/-- The call returned an error with any message, as in `network.go:157-160` (language semantics). -/
def Errors {β : Type _} (r : Except Fault β) : Prop := ∃ m, r = .error (.error m)

/-- Reading a Go slice element `l[i]`: panics when the index is out of range (language semantics), as in
`ve/factor.go:67-70`. -/
def goGet {β : Type _} (l : List β) (i : Nat) : Except Fault β :=
  match l[i]? with
  | some x => .ok x
  | none => .error (.panic "index out of range")

/-- Writing a Go slice element `l[i] = x`: panics when the index is out of range (language semantics), as in
`ve/factor.go:73-76`. -/
def goSet {β : Type _} (l : List β) (i : Nat) (x : β) : Except Fault (List β) :=
  if i < l.length then .ok (l.set i x) else .error (.panic "index out of range")

/-- Reading a Go slice element with an `int` index, which may be negative (language semantics), as in
`internal/tui/input.go:30`. -/
def goGetI {β : Type _} (l : List β) (i : Int) : Except Fault β :=
  if i < 0 then .error (.panic "index out of range") else goGet l i.toNat

/-- Writing a Go slice element with an `int` index, which may be negative (language semantics), as in
`logic/outcome.go:36-41`. -/
def goSetI {β : Type _} (l : List β) (i : Int) (x : β) : Except Fault (List β) :=
  if i < 0 then .error (.panic "index out of range") else goSet l i.toNat x

/-- The Go slice expression `l[a:b]` for a slice whose capacity is its length: panics unless
`0 ≤ a ≤ b ≤ len(l)` (language semantics), as in `network.go:42` and `yml.go:140`. -/
def goSlice {β : Type _} (l : List β) (a b : Int) : Except Fault (List β) :=
  if 0 ≤ a ∧ a ≤ b ∧ b ≤ l.length then .ok ((l.drop a.toNat).take (b.toNat - a.toNat))
  else .error (.panic "slice bounds out of range")

/-- `ve/variable.go:4-10`: `NodeType`. -/
inductive NodeType where
  | chance
  | decision
  | utility
deriving DecidableEq, Repr

/-- `ve/variable.go:13-18`: `Variable`. Go's `int` id is a natural number here: `network.go` only uses list
positions as IDs. `index` and `outcomes` are `uint16` in Go; the truncation is modelled where the values are
computed (`Vs.addVariable`, `toVE`). Go's `==` on this struct is structural equality. -/
structure Var where
  id : Nat
  index : Nat
  outcomes : Nat
  nodeType : NodeType
deriving DecidableEq, Repr

/-- `ve/variable.go:32-35`: `Variable.WithNodeType`. -/
def Var.withNodeType (v : Var) (t : NodeType) : Var := { v with nodeType := t }

/-- `ve/variable.go:40-42`: `Variable.Is`, which compares IDs only. -/
def Var.is (v w : Var) : Bool := v.id == w.id

/-- `ve/factor.go:7-11`: `Factor`, with the number type as parameter. -/
structure Factor (α : Type _) where
  id : Nat
  data : List α
  vars : List Var
deriving DecidableEq, Repr

end Bbn
