import Verif.Spec.Text
import Verif.Spec.NewNet
import Verif.Spec.TrainCsv
import Verif.Lemmas.TuiShown

/-!
# What the commands print (specification)
-/

set_option autoImplicit false

namespace Bbn

variable {α : Type}

/-- A text filled up with blanks on the left to at least `w` letters. -/
def rightAligned (w : Nat) (s : String) : String := String.ofList (List.replicate (w - s.length) ' ' ++ s.toList)

/-- The numbers of a variable given the evidence: the posterior probabilities of its outcomes; for a utility variable its
expected utility and the expected total; for the total-utility node the weighted expected utilities of its parents and
the expected total. -/
def Net.numbers [Field α] [DecidableEq α] (n : Net α) (ev : List (String × String)) (v : NVar) : List α :=
  if v.nodeType ≠ .utility then n.posterior ev false v.name
  else if v ∈ n.utilityVars then [n.expected ev false v.name, n.expected ev false ""]
  else ((tableFor n.factors v).map NFactor.given).getD [] |>.map (fun g => n.weight g * n.expected ev false g)
    |>.append [n.expected ev false ""]

/-- The two lines for a variable: the outcomes, and below the name, the numbers (probabilities in percent), and a plus sign
if the variable is in the evidence. -/
def Net.printedLines [Field α] [LinearOrder α] [IsStrictOrderedRing α] [FloorRing α] (n : Net α) (ev : List (String × String))
    (v : NVar) : List String :=
  [rightAligned 30 "" ++ String.join (v.outcomes.map (fun o => " " ++ rightAligned 10 o)),
   rightAligned 30 v.name ++ String.join ((n.numbers ev v).map (fun x =>
      if v.nodeType = .utility then " " ++ fixedText 10 x else " " ++ fixedText 9 (x * 100) ++ "%")) ++
    (if v.name ∈ ev.map Prod.fst then "  +" else "")]

/-- Lines as a text. -/
def textOf (lines : List String) : String := String.join (lines.map (· ++ "\n"))

/-- The record has these outcomes of these variables. -/
def RecordIn (n : Net α) (header record : List String) (names : List String) (w : World) : Prop :=
  ∀ g ∈ names, ∀ v ∈ n.variables, v.name = g → v.outcomes[w g]? = some (csvCell header record g)

instance (n : Net α) (header record : List String) (names : List String) (w : World) :
    Decidable (RecordIn n header record names w) := by
  unfold RecordIn; infer_instance

end Bbn
