import Verif.Spec.Box
import Verif.Spec.Colors
import Verif.Model.TuiApp

/-!
# What the graph widget shows (specification)
-/

set_option autoImplicit false

namespace Bbn

variable {α : Type}

/-- A variable is to be shown in this colour: the one it names; without a name, chance variables are white, utilities
green and decisions blue. -/
def HasColor (v : NVar) (c : Color) : Prop :=
  if v.color = "" then
    c = (if v.nodeType = .utility then .green else if v.nodeType = .decision then .blue else .white)
  else v.color = c.name

/-- The colour of a place of the canvas: that of the box there (of the last one, if boxes overlap), otherwise white. -/
def App.CellColor (a : App α) (y x : Int) (c : Color) : Prop :=
  match a.nodes.reverse.find? (fun n => n.bounds.contains x y) with
  | some n => HasColor n.var c
  | none => c = .white

/-- How a text widget with dynamic colours (of `tview`) reads a text: the tag of a colour switches to that colour and is not
shown (`[-]` switches to the default colour, white here); every other character is shown in the present colour. Tags that
are not used by the program are not considered. -/
inductive Reads : Color → List Char → List (Char × Color) → Prop
  | done (c : Color) : Reads c [] []
  | tag (c d : Color) (text : List Char) (shown : List (Char × Color)) : Reads d text shown →
      Reads c (d.mark ++ text) shown
  | char (c : Color) (r : Char) (text : List Char) (shown : List (Char × Color)) :
      (∀ d : Color, ¬ d.mark <+: r :: text) → Reads c text shown → Reads c (r :: text) ((r, c) :: shown)

/-- No tag is part of these characters. -/
def NoTag (row : List Char) : Prop := ∀ d : Color, ¬ d.mark <:+: row

/-- Lines one below the other. The colour of a line break does not matter; it is white here. -/
def joinLines (lines : List (List (Char × Color))) : List (Char × Color) := List.intercalate [('\n', .white)] lines

/-- The widget shows these lines. -/
def App.Shows (a : App α) (lines : List (List (Char × Color))) : Prop := Reads .white a.text.toList (joinLines lines)

end Bbn
