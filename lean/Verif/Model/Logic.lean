import Verif.Model.Network

/-!
# Package `logic`

The objects behind the interface `logic.Factor` live in a heap: `logic.Get` returns a pointer into a package-level
map, so all callers share the object. Row counts are natural numbers: the shift `1 << given` is not truncated to 64
bits. `given` is a slice length in all callers, so it is a natural number.
-/

set_option autoImplicit false

namespace Bbn

variable {α : Type}

/-- `logic/count.go:17-19, 27-29, 37-39`: the three rules of `countFactor`. -/
inductive CountRule where
  | is
  | less
  | greater
deriving DecidableEq, Repr

/-- `logic/count.go:17-19, 27-29, 37-39`: the functions in the field `Rule`. -/
def CountRule.holds : CountRule → Int → Int → Bool
  | .is, count, value => count == value
  | .less, count, value => count < value
  | .greater, count, value => count > value

/-- The objects behind `logic.Factor`: `logic/simple.go:5,31` (`boolFactor`, `floatFactor`), `logic/count.go:8-11,67,94`
(`countFactor`, `countTrueFactor`, `countFalseFactor`), `logic/given.go:7-9,42-44,77-79`, `logic/outcome.go:7-10,45-48,
83-86,123-126,163-166`, `logic/bits.go:7`. -/
inductive Logic (α : Type) where
  | bool (arr : List Bool)
  | float (arr : List α)
  | count (value : Int) (rule : CountRule)
  | countTrue
  | countFalse
  | given (index : Int)
  | givenNot (index : Int)
  | givenExcl (index : Int)
  | outcomeIs (index length : Int)
  | outcomeIsNot (index length : Int)
  | outcomeEither (indices : List Int) (length : Int)
  | outcomeLess (index length : Int)
  | outcomeGreater (index length : Int)
  | bits
deriving DecidableEq, Repr

/-- The methods `SetArgs`: `logic/simple.go:7-12,33-38`, `logic/count.go:43-49,74-79,101-106`, `logic/given.go:18-24,
53-59,88-94`, `logic/outcome.go:21-28,59-66,97-104,138-145,178-185`, `logic/bits.go:14-19`. The result is the object
after the call; on an error it is unchanged. -/
def Logic.setArgs (args : List Int) : Logic α → Except Fault (Logic α)
  | .count _ r => match args with
    | [a] => .ok (.count a r)
    | _ => .error (.error "logic operator expects 1 argument")
  | .given _ => match args with
    | [a] => .ok (.given a)
    | _ => .error (.error "logic operator expects 1 argument")
  | .givenNot _ => match args with
    | [a] => .ok (.givenNot a)
    | _ => .error (.error "logic operator expects 1 argument")
  | .givenExcl _ => match args with
    | [a] => .ok (.givenExcl a)
    | _ => .error (.error "logic operator expects 1 argument")
  | .outcomeIs _ _ => match args with
    | [a, b] => .ok (.outcomeIs a b)
    | _ => .error (.error "logic operator expects 2 argument (index, length)")
  | .outcomeIsNot _ _ => match args with
    | [a, b] => .ok (.outcomeIsNot a b)
    | _ => .error (.error "logic operator expects 2 argument (index, length)")
  | .outcomeEither _ _ =>
    if args.length < 2 then .error (.error "logic operator expects at least 2 argument (index..., length)")
    else .ok (.outcomeEither args.dropLast (args.getLastD 0))
  | .outcomeLess _ _ => match args with
    | [a, b] => .ok (.outcomeLess a b)
    | _ => .error (.error "logic operator expects 2 argument (index, length)")
  | .outcomeGreater _ _ => match args with
    | [a, b] => .ok (.outcomeGreater a b)
    | _ => .error (.error "logic operator expects 2 argument (index, length)")
  | l => if args.length > 0 then .error (.error "logic operator expects zero arguments") else .ok l

/-- `make([]float64, n)` (language semantics), as in `logic/simple.go:20` and `logic/outcome.go:35`. -/
def goMake [Zero α] (n : Int) : Except Fault (List α) :=
  if n < 0 then .error (.panic "makeslice: len out of range") else .ok (List.replicate n.toNat 0)

/-- A loop that writes `1` at one position per iteration: the writes of `table[pos] = 1`, in order, as in
`logic/bits.go:26-31`. -/
def setOnes [One α] (ps : List Int) (table : List α) : Except Fault (List α) :=
  ps.foldlM (fun t p => goSetI t p 1) table

/-- `bits.OnesCount` of `math/bits` for a number below `2 ^ k` (library function: the number of one bits), used in
`logic/count.go:57, 88, 115`. -/
def onesCount (k i : Nat) : Nat := ((List.range k).filter (fun j => i.testBit j)).length

/-- The body shared by the row loops of `logic/simple.go:20-28`, `logic/count.go:53-64`, `logic/given.go:27-38,62-73,
97-123`: row `i` gets its 1 in the first column if the rule holds, else in the second. -/
def ruleTable [Zero α] [One α] (rows : Nat) (rule : Nat → Bool) : Except Fault (List α) := do
  let table ← goMake (rows * 2)
  setOnes ((List.range rows).map (fun i : Nat => if rule i then (i * 2 : Int) else i * 2 + 1)) table

/-- `logic/given.go:102-123`: the rule of `given-excl`. -/
def exclRule (index : Nat) (given i : Nat) : Bool :=
  !i.testBit index && !((List.range given).any (fun j => j ≠ index && !i.testBit j))

/-- `for i := a; i < b; i++` over `int` (language semantics), as in `logic/outcome.go:156, 196`. -/
def intRange (a b : Int) : List Int := (List.range (b - a).toNat).map (fun j : Nat => a + j)

/-- The methods `Table`: `logic/simple.go:14-29,40-46`, `logic/count.go:51-65,81-92,108-119`, `logic/given.go:26-40,61-75,
96-125`, `logic/outcome.go:30-43,68-81,106-121,147-161,187-201`, `logic/bits.go:21-34`. In the given operators the shift
amount is the same in every iteration, so a negative one panics in the first (there always is one). -/
def Logic.table [Zero α] [One α] : Logic α → Nat → Except Fault (List α)
  | .bool arr, n =>
    if arr.length ≠ 2 ^ n then .error (.error "logic operator requires another number of operands")
    else ruleTable arr.length (fun i => arr.getD i false)
  | .float arr, n =>
    if arr.length ≠ 2 ^ (n + 1) then .error (.error "logic operator requires another number of operands")
    else .ok arr
  | .count value rule, n => ruleTable (2 ^ n) (fun i => rule.holds ((n : Int) - onesCount n i) value)
  | .countTrue, n => do
    let table ← goMake ((2 ^ n * (n + 1) : Nat) : Int)
    setOnes ((List.range (2 ^ n)).map (fun i : Nat => (i * (n + 1) : Int) + (n - onesCount n i))) table
  | .countFalse, n => do
    let table ← goMake ((2 ^ n * (n + 1) : Nat) : Int)
    setOnes ((List.range (2 ^ n)).map (fun i : Nat => (i * (n + 1) : Int) + onesCount n i)) table
  | .given index, n =>
    if index < 0 then .error (.panic "negative shift amount")
    else ruleTable (2 ^ n) (fun i => !i.testBit index.toNat)
  | .givenNot index, n =>
    if index < 0 then .error (.panic "negative shift amount")
    else ruleTable (2 ^ n) (fun i => i.testBit index.toNat)
  | .givenExcl index, n =>
    if index < 0 then .error (.panic "negative shift amount")
    else ruleTable (2 ^ n) (exclRule index.toNat n)
  | .outcomeIs index length, n =>
    if n ≠ 1 then .error (.error "logic operator requires 1 operand")
    else do
      let table ← goMake (length * 2)
      let table ← setOnes ((intRange 0 length).map (fun i => i * 2 + 1)) table
      let table ← goSetI table (index * 2) 1
      goSetI table (index * 2 + 1) 0
  | .outcomeIsNot index length, n =>
    if n ≠ 1 then .error (.error "logic operator requires 1 operand")
    else do
      let table ← goMake (length * 2)
      let table ← setOnes ((intRange 0 length).map (fun i => i * 2)) table
      let table ← goSetI table (index * 2) 0
      goSetI table (index * 2 + 1) 1
  | .outcomeEither indices length, n =>
    if n ≠ 1 then .error (.error "logic operator requires 1 operand")
    else do
      let table ← goMake (length * 2)
      let table ← setOnes ((intRange 0 length).map (fun i => i * 2 + 1)) table
      indices.foldlM (fun t idx => do
        let t ← goSetI t (idx * 2) 1
        goSetI t (idx * 2 + 1) 0) table
  | .outcomeLess index length, n =>
    if n ≠ 1 then .error (.error "logic operator requires 1 operand")
    else do
      let table ← goMake (length * 2)
      let table ← setOnes ((intRange 0 index).map (fun i => i * 2)) table
      setOnes ((intRange index length).map (fun i => i * 2 + 1)) table
  | .outcomeGreater index length, n =>
    if n ≠ 1 then .error (.error "logic operator requires 1 operand")
    else do
      let table ← goMake (length * 2)
      let table ← setOnes ((intRange 0 index).map (fun i => i * 2 + 1)) table
      setOnes ((intRange index length).map (fun i => i * 2)) table
  | .bits, n => do
    let table ← goMake ((2 ^ n * 2 ^ n : Nat) : Int)
    setOnes ((List.range (2 ^ n)).map (fun i : Nat => (i * 2 ^ n : Int) + ((2 ^ n : Int) - 1 - i))) table

/-- `logic/factor.go:19-67`: the map `factors`, in the order of the source, with the objects of `logic/simple.go:48-305`
and those of the constructors (`logic/count.go:14-41,70,97`, `logic/given.go:12-16,47-51,82-86`, `logic/outcome.go:14-19,
52-57,90-95,131-136,171-176`, `logic/bits.go:10-12`). -/
def logicFactors [Zero α] [One α] [Add α] [Div α] : List (String × Logic α) := [
  ("not", .bool [false, true]),
  ("and", .bool [true, false, false, false]),
  ("not-and", .bool [false, false, true, false]),
  ("and-not", .bool [false, true, false, false]),
  ("not-and-not", .bool [false, false, false, true]),
  ("or", .bool [true, true, true, false]),
  ("not-or", .bool [true, false, true, true]),
  ("or-not", .bool [true, true, false, true]),
  ("not-or-not", .bool [false, true, true, true]),
  ("xor", .bool [false, true, true, false]),
  ("cond", .bool [true, false, true, true]),
  ("not-cond", .bool [true, true, true, false]),
  ("cond-not", .bool [false, true, true, true]),
  ("not-cond-not", .bool [true, true, false, true]),
  ("bicond", .bool [true, false, false, true]),
  ("if-then", .float [1, 0, 1 / (1 + 1), 1 / (1 + 1)]),
  ("if-not-then", .float [1 / (1 + 1), 1 / (1 + 1), 1, 0]),
  ("if-then-not", .float [0, 1, 1 / (1 + 1), 1 / (1 + 1)]),
  ("if-not-then-not", .float [1 / (1 + 1), 1 / (1 + 1), 0, 1]),
  ("equals", .bool [true, false]),
  ("equals-not", .bool [false, true]),
  ("count-true", .countTrue),
  ("count-false", .countFalse),
  ("count-is", .count 0 .is),
  ("count-less", .count 0 .less),
  ("count-greater", .count 0 .greater),
  ("given", .given 0),
  ("given-not", .givenNot 0),
  ("given-excl", .givenExcl 0),
  ("outcome-is", .outcomeIs 0 0),
  ("outcome-is-not", .outcomeIsNot 0 0),
  ("outcome-either", .outcomeEither [] 0),
  ("outcome-less", .outcomeLess 0 0),
  ("outcome-greater", .outcomeGreater 0 0),
  ("bits", .bits)]

/-- The logic objects of the program, as those of `logic/factor.go:19-67`; a pointer is a position (language semantics). -/
abbrev LHeap (α : Type) := List (Logic α)

/-- The heap after package initialisation (`logic/factor.go:19-67`). -/
def initHeap [Zero α] [One α] [Add α] [Div α] : LHeap α := logicFactors.map Prod.snd

/-- `logic/factor.go:14-17`: `Get`. The map itself never changes, only the objects it points to (and its keys do not
depend on the number type). -/
def logicGet (name : String) : Option Nat :=
  (logicFactors (α := Rat)).findIdx? (fun e => e.1 = name)

/-- A method call `f.SetArgs(args...)` through a pointer (`yml.go:121`; `logic/factor.go:4-11`). -/
def LHeap.setArgs (h : LHeap α) (p : Nat) (args : List Int) : Except Fault (LHeap α) := do
  let l ← goGet h p
  let l ← l.setArgs args
  return h.set p l

/-- A method call `f.Table(given)` through a pointer (`yml.go:126`; `logic/factor.go:4-11`). -/
def LHeap.table [Zero α] [One α] (h : LHeap α) (p : Nat) (given : Nat) : Except Fault (List α) := do
  let l ← goGet h p
  l.table given

/-- A constructor call, as `CountIs(2)` (`logic/count.go:13-41,69-71,96-98`, `logic/given.go:12-16,47-51,82-86`,
`logic/outcome.go:14-19,52-57,90-95,131-136,171-176`, `logic/bits.go:10-12`): a new object. The constructors of
`logic/simple.go` return the objects of the map instead. -/
def LHeap.alloc (h : LHeap α) (l : Logic α) : LHeap α × Nat := (h ++ [l], h.length)

end Bbn
