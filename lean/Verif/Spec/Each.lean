import Verif.Spec.NetOptimal

/-!
# What can be expected when earlier and later decisions are taken as planned (specification vocabulary)
-/

set_option autoImplicit false

namespace Bbn

variable {α : Type}

/-- The chance and decision variables that are not known to the decisions `ds`. -/
def Net.unknownTo (n : Net α) (ds : List String) : List NVar :=
  n.stateVars.filter (fun v => ¬ n.Known ds v.name)

/-- What can be expected in a world for the decision `d`, after the decisions in `earlier`, if the decisions in `later`
are taken as `δ` says: the sum of probability times utility over all that is known neither to `d` nor to an earlier
decision. -/
def Net.worthAmong [Field α] [DecidableEq α] (n : Net α) (δ : String → World → α) (earlier later : List String) (d : String)
    (w : World) : α :=
  sumWorlds (n.unknownTo (earlier ++ [d])) (fun w => (n.chanceTables.map (fun f => n.prob f w)).prod *
    (later.map (fun e => δ e w)).prod * n.totalIn w) w

end Bbn
