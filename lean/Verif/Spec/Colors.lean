import Verif.Model.Tui

/-!
# Colours (specification)
-/

set_option autoImplicit false

namespace Bbn

/-- The name of a colour. -/
def Color.name : Color → String
  | .black => "black"
  | .maroon => "maroon"
  | .green => "green"
  | .olive => "olive"
  | .navy => "navy"
  | .purple => "purple"
  | .teal => "teal"
  | .silver => "silver"
  | .gray => "gray"
  | .red => "red"
  | .lime => "lime"
  | .yellow => "yellow"
  | .blue => "blue"
  | .fuchsia => "fuchsia"
  | .aqua => "aqua"
  | .white => "white"

/-- The names of the sixteen colours. -/
def ColorName (s : String) : Prop := ∃ c : Color, s = c.name

instance (s : String) : Decidable (ColorName s) :=
  decidable_of_iff (∃ c ∈ [Color.black, .maroon, .green, .olive, .navy, .purple, .teal, .silver, .gray, .red, .lime, .yellow,
    .blue, .fuchsia, .aqua, .white], s = c.name)
    ⟨fun ⟨c, _, h⟩ => ⟨c, h⟩, fun ⟨c, h⟩ => ⟨c, by cases c <;> decide, h⟩⟩

/-- The tag that switches to a colour in a text of `tview`: its name in brackets. The default colour, which is white here,
has the tag `[-]`. -/
def Color.mark (c : Color) : List Char := if c = .white then ['[', '-', ']'] else '[' :: c.name.toList ++ [']']

end Bbn
