import Verif.Model.Network

/-!
# Goroutines that share networks

`SolveQuery` and `SolveUtility` (`network.go:312-389`) cut into steps between which other goroutines may run. A network
keeps the solver and the map of names of the last call in its fields `ve` and `variableNames` (`network.go:86-87`), and
each step reads these fields anew, as the code does. Simplified: each step is atomic and its effects are seen at once
by all goroutines (Go promises less for code without locks), so there are executions of the real program that are not
modelled here; those that are modelled can happen. A panic ends the call; in Go it ends the program unless it is
recovered.
-/

set_option autoImplicit false

namespace Bbn

variable {α : Type}

/-- A call `SolveQuery(evidence, query, ignorePolicies)` (`network.go:312`; `utility` is `none`) or
`SolveUtility(evidence, query, u, ignorePolicies)` (`network.go:337`; `utility` is `some u`) on the network number
`net`, with the iteration orders that the run-time will choose during the call. -/
structure GoCall (α : Type) where
  net : Nat
  sch : NSched α
  evidence : List (String × String)
  query : List String
  utility : Option String
  ignorePolicies : Bool

/-- What a call returns: the map of marginals (empty for `SolveUtility`, which returns none) and the factor
(`network.go:312, 337`). -/
abbrev Answer (α : Type) : Type := Except Fault (List (String × List α) × Factor α)

/-- `network.go:80-89`: a network and the part of `n.ve` that is not in `Net`. -/
structure SharedNet (α : Type) where
  net : Net α
  ve : Option (VE α)

/-- `n.ve` (`network.go:85`), as it is at present. -/
def SharedNet.solver (s : SharedNet α) : Option (VE α) :=
  match s.ve, s.net.vs with
  | some ve, some vs => some { ve with vs := vs }
  | _, _ => none

/-- How far a call is: entered (`network.go:343`), after line 349, after line 375 (with the local variables `ev`, `q`
and `util`), or in the loop of lines 319-323 (with the local variables `f`, the rest of `query`, and `result`). -/
inductive Stage (α : Type) where
  | entered
  | built
  | named (ev : List Evid) (q : List Var) (u : Option Var)
  | marginals (f : Factor α) (left : List String) (result : List (String × List α))

/-- `network.go:354-384`: the variables and outcomes for the names, read from `n.variableNames`. -/
def GoCall.read (c : GoCall α) (names : List (String × NVar × Var)) :
    Except Fault (List Evid × List Var × Option Var) := do
  let ev ← (c.sch.ev c.evidence).mapM (evidenceOf names)
  let q ← c.query.mapM (queryOf names)
  match c.utility with
  | none => return (ev, q, none)
  | some u => do
    let u ← utilityOf names u
    return (ev, q, u)

/-- `network.go:385-387`: `n.ve.SolveUtility(ev, q, util)` or `n.ve.SolveQuery(ev, q)`. -/
def GoCall.ask [Zero α] [One α] [Add α] [Mul α] (c : GoCall α) (ve : VE α) (ev : List Evid) (q : List Var)
    (u : Option Var) : Except Fault (Factor α × VE α) :=
  match c.utility with
  | none => ve.solveQuery (c.sch.ve 0) ev q
  | some _ => ve.solveUtility (c.sch.ve 0) ev q u

/-- `network.go:312-389`: the next step of a call: the next stage, or what is returned; and the network after it. -/
def GoCall.step [Zero α] [One α] [Add α] [Mul α] [Div α] [DecidableEq α] (c : GoCall α) (st : Stage α) (s : SharedNet α) :
    (Stage α ⊕ Answer α) × SharedNet α :=
  match st with
  | .entered =>
    match s.net.enter c.sch 0 (if c.ignorePolicies then c.evidence else []) with
    | (.error e, n) => (.inr (.error e), { s with net := n })
    | (.ok ve, n) => (.inl .built, ⟨n, some ve⟩)
  | .built =>
    match c.read s.net.names with
    | .error e => (.inr (.error e), s)
    | .ok (ev, q, u) => (.inl (.named ev q u), s)
  | .named ev q u =>
    match s.solver with
    | none => (.inr (.error (.panic "nil pointer dereference")), s)
    | some ve =>
      match c.ask ve ev q u with
      | .error e => (.inr (.error e), s)
      | .ok (f, ve) =>
        (match c.utility with
          | none => .inl (.marginals f c.query [])
          | some _ => .inr (.ok ([], f)), ⟨{ s.net with vs := some ve.vs }, some ve⟩)
  | .marginals f left result =>
    match left with
    | [] => (.inr (.ok (result, f)), s)
    | q :: qs =>
      match s.net.marginal f q with
      | (.error e, n) => (.inr (.error e), { s with net := n })
      | (.ok m, n) =>
        match n.normalize m with
        | (.error e, n) => (.inr (.error e), { s with net := n })
        | (.ok g, n) => (.inl (.marginals f qs (mapSet result q g.data)), { s with net := n })

/-- A goroutine that calls `network.go:312, 337` (language semantics): the calls it will make, the one it is in, and those that have returned, with what they returned. -/
structure Goroutine (α : Type) where
  todo : List (GoCall α)
  now : Option (GoCall α × Stage α)
  returned : List (GoCall α × Answer α)

/-- The networks (`network.go:80-89`) and the goroutines of a program (language semantics). -/
structure Program (α : Type) where
  nets : List (SharedNet α)
  goroutines : List (Goroutine α)

/-- Goroutine `i` runs for one step, on the present networks: it enters its next call or goes on with the present one
(`network.go:312-389`; language semantics). Nothing happens if there is nothing left to do. -/
def Program.step [Zero α] [One α] [Add α] [Mul α] [Div α] [DecidableEq α] (w : Program α) (i : Nat) : Program α :=
  match w.goroutines[i]? with
  | none => w
  | some g =>
    match g.now with
    | none =>
      match g.todo with
      | [] => w
      | c :: cs => { w with goroutines := w.goroutines.set i { g with todo := cs, now := some (c, .entered) } }
    | some (c, st) =>
      match w.nets[c.net]? with
      | none => w
      | some s =>
        match c.step st s with
        | (.inl st, s) =>
          ⟨w.nets.set c.net s, w.goroutines.set i { g with now := some (c, st) }⟩
        | (.inr a, s) =>
          ⟨w.nets.set c.net s, w.goroutines.set i { g with now := none, returned := g.returned ++ [(c, a)] }⟩

/-- The goroutines run for one step each in the given order (language semantics), through `network.go:312-389`. -/
def Program.run [Zero α] [One α] [Add α] [Mul α] [Div α] [DecidableEq α] (w : Program α) (is : List Nat) : Program α :=
  is.foldl Program.step w

/-- Some goroutine is in a call (`network.go:312, 337`) on the network number `k`. -/
def Program.busy (w : Program α) (k : Nat) : Bool :=
  w.goroutines.any (fun g => match g.now with
    | some (c, _) => c.net == k
    | none => false)

/-- A step of a program that locks a mutex of the network before each call and unlocks it after the call (not in
/repo; what users can do around `network.go:312, 337`): a goroutine that wants to enter a call has to wait while another is in one. -/
def Program.lockedStep [Zero α] [One α] [Add α] [Mul α] [Div α] [DecidableEq α] (w : Program α) (i : Nat) : Program α :=
  match w.goroutines[i]? with
  | some ⟨c :: _, none, _⟩ => if w.busy c.net then w else w.step i
  | _ => w.step i

/-- The same for many steps (not in /repo; see `Program.lockedStep`, around `network.go:312, 337`). -/
def Program.lockedRun [Zero α] [One α] [Add α] [Mul α] [Div α] [DecidableEq α] (w : Program α) (is : List Nat) : Program α :=
  is.foldl Program.lockedStep w

end Bbn
