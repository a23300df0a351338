import Verif.Model.Training
import Verif.Spec.Network

/-!
# Samples and what they say about a network (specification vocabulary)
-/

set_option autoImplicit false

namespace Bbn

variable {α : Type}

/-- The position of the variable of this name. -/
def Net.position (n : Net α) (g : String) : Nat := n.variables.findIdx (fun v => v.name = g)

/-- The outcome of the variable in the sample; `none` if it is missing. -/
def Sample.known (n : Net α) (s : Sample α) (g : String) : Option Nat :=
  match s.values[n.position g]? with
  | some k => if k < 0 then none else some k.toNat
  | none => none

/-- The utility value of the variable in the sample; `none` if it is missing. -/
def Sample.gain (n : Net α) (s : Sample α) (g : String) : Option α :=
  match s.utility with
  | some u => (u[n.position g]?).join
  | none => none

/-- In the sample all the listed variables have known outcomes, those of the world. -/
def Sample.InRow (n : Net α) (s : Sample α) (given : List String) (w : World) : Prop :=
  ∀ g ∈ given, s.known n g = some (w g)

instance (n : Net α) (s : Sample α) (given : List String) (w : World) : Decidable (s.InRow n given w) := by
  unfold Sample.InRow; infer_instance

/-- The sample fits the network: a value for each variable, missing or one of its outcomes, and a utility value for
each variable if the network has utility variables. -/
structure Sample.OK (n : Net α) (s : Sample α) : Prop where
  values : s.values.length = n.variables.length
  range : ∀ (i : Nat) (v : NVar) (k : Int), n.variables[i]? = some v → s.values[i]? = some k → k < v.outcomes.length
  utility : ∀ u, s.utility = some u → u.length = n.variables.length
  utilities : (∃ v ∈ n.variables, v.nodeType = .utility) → s.utility ≠ none

/-- A network as `New` returns it (`linked`), with a table of the right size for each chance and utility variable, and
at least an empty table for each decision. -/
structure Net.Trainable (n : Net α) : Prop where
  names : (n.variables.map NVar.name).Nodup
  outcomes : ∀ v ∈ n.variables, 0 < v.outcomes.length
  tables : (n.factors.map NFactor.forVar).Nodup
  linked : ∀ v ∈ n.variables, ∃ (p : Nat) (f : NFactor α), v.factor = some p ∧ n.factors[p]? = some f ∧
    f.forVar = v.name ∧ f.outcomes = f.given.map n.count ∧ f.columns = v.outcomes.length
  parents : ∀ v ∈ n.variables, ∀ f ∈ n.factors, f.forVar = v.name → ∀ g ∈ f.given, ∃ u ∈ n.variables, u.name = g
  size : ∀ v ∈ n.variables, v.nodeType ≠ .decision → ∀ f ∈ n.factors, f.forVar = v.name →
    f.tab.length = (f.dims.map n.count).prod

/-- A call on a trainer. -/
inductive TrainCall (α : Type) where
  | add (s : Sample α)
  | update

/-- The trainer and its network after a call; a returned error does not stop the program. -/
def TrainCall.run [Add α] [One α] [Div α] [NatCast α] (x : Trainer α × Net α) :
    TrainCall α → Except Fault (Trainer α × Net α)
  | .add s => do
    let t ← addSample x.2 x.1 s
    return (t, x.2)
  | .update => do
    let r ← updateNetwork x.1 x.2
    return (x.1, r.1)

/-- A new trainer for the network, and any sequence of calls on it. -/
def trainRun [Zero α] [Add α] [One α] [Div α] [NatCast α] (n : Net α) (calls : List (TrainCall α)) :
    Except Fault (Trainer α × Net α) := do
  let t ← newTrainer n
  calls.foldlM TrainCall.run (t, n)

/-- The samples added so far. -/
def samplesOf : List (TrainCall α) → List (Sample α)
  | [] => []
  | .add s :: calls => s :: samplesOf calls
  | .update :: calls => samplesOf calls

/-- The whole training: a new trainer, all samples, and an update. -/
def trainOn [Zero α] [Add α] [One α] [Div α] [NatCast α] (n : Net α) (samples : List (Sample α)) :
    Except Fault (Net α × Option String) := do
  let t ← newTrainer n
  let t' ← samples.foldlM (addSample n) t
  updateNetwork t' n

/-- Tables with the same variables, parents and sizes; only entries may differ. -/
def SameTables (fs fs' : List (NFactor α)) : Prop :=
  fs'.length = fs.length ∧ ∀ (p : Nat) (f : NFactor α), fs[p]? = some f →
    ∃ tb, fs'[p]? = some { f with table := tb } ∧ tb.map List.length = f.table.map List.length

/-- What is left alone by training: everything but the tables' entries. -/
def SameNetwork (n n' : Net α) : Prop :=
  n' = { n with factors := n'.factors } ∧ SameTables n.factors n'.factors

end Bbn
