import Verif.Model.Goroutines

/-!
# What goroutines that share networks should get
-/

set_option autoImplicit false

namespace Bbn

variable {α : Type}

/-- What the call returns if nothing else happens to the network. -/
def GoCall.alone [Zero α] [One α] [Add α] [Mul α] [Div α] [DecidableEq α] (c : GoCall α) (n : Net α) : Answer α :=
  match c.utility with
  | none => (n.solveQuery c.sch c.evidence c.query c.ignorePolicies).1
  | some u => (n.solveUtility c.sch c.evidence c.query u c.ignorePolicies).1.map (fun f => ([], f))

/-- Before the goroutines start: no call has been entered, and each network is as it was. -/
def Program.start (nets : List (Net α)) (calls : List (List (GoCall α))) : Program α :=
  ⟨nets.map (fun n => ⟨n, none⟩), calls.map (fun cs => ⟨cs, none, []⟩)⟩

/-- No two goroutines are in a call on the same network. -/
def Program.Apart (w : Program α) : Prop :=
  ∀ (i j : Nat) (gi gj : Goroutine α) (ci cj : GoCall α) (si sj : Stage α), i ≠ j → w.goroutines[i]? = some gi →
    w.goroutines[j]? = some gj → gi.now = some (ci, si) → gj.now = some (cj, sj) → ci.net ≠ cj.net

/-- During the whole execution no two goroutines are in a call on the same network. -/
def Program.AlwaysApart [Zero α] [One α] [Add α] [Mul α] [Div α] [DecidableEq α] (w : Program α) (is : List Nat) : Prop :=
  ∀ k ≤ is.length, (w.run (is.take k)).Apart

/-- All that has been returned so far, to all goroutines. -/
def Program.returned (w : Program α) : List (GoCall α × Answer α) := w.goroutines.flatMap Goroutine.returned

end Bbn
