import Verif.Model.Tui

/-!
# What a node's box shows (specification)

Rows and columns count from 0 at the upper left corner of the box.
-/

set_option autoImplicit false

namespace Bbn

variable {α : Type}

/-- The grid (of characters, or of colours) has `h` rows of `w` cells, and the cell in row `y` and column `x` is `F y x`. -/
structure Pictures {β : Type} (g : List (List β)) (h w : Int) (F : Int → Int → β) : Prop where
  rows : (g.length : Int) = h
  columns : ∀ row ∈ g, (row.length : Int) = w
  cell : ∀ (y x : Nat) (row : List β) (c : β), g[y]? = some row → row[x]? = some c → c = F y x

/-- How a node is to be shown: its numbers (`none` is NaN), whether it is the selected node, which outcome is selected,
and whether there is evidence for it. -/
structure Look (α : Type) where
  values : List (Option α)
  selected : Bool
  state : Int
  evidence : Bool

/-- Letter `k` of a text; blank beyond its end. -/
def letter (s : String) (k : Int) : Char := if k < 0 then ' ' else s.toList.getD k.toNat ' '

/-- The columns for outcome names: as many as the longest name needs, but at most 16. -/
def labelWidth (v : NVar) : Int := min ((v.outcomes.map String.length).foldr max 0 : Nat) 16

/-- The first column of the bars (and of the numbers of a utility node). -/
def barsColumn (v : NVar) : Int := labelWidth v + 3

/-- The width of a box: room for marks, names, bars and numbers, or for the title (of which 48 letters count). -/
def boxWidth (v : NVar) : Int :=
  max (labelWidth v + (if v.nodeType = .utility then 14 else 19)) (min (v.name.length : Int) 48) + 4

/-- The height of a box: frame, title, one line per outcome; a utility node has one more line. -/
def boxHeight (v : NVar) : Int := v.outcomes.length + 3 + (if v.nodeType = .utility then 1 else 0)

/-- The frame of a box of this size: double for the selected node. -/
def frameRune (selected : Bool) (h w y x : Int) : Char :=
  if y = 0 then
    if x = 0 then (if selected then '╔' else '┌')
    else if x = w - 1 then (if selected then '╗' else '┐')
    else (if selected then '═' else '─')
  else if y = h - 1 then
    if x = 0 then (if selected then '╚' else '└')
    else if x = w - 1 then (if selected then '╝' else '┘')
    else (if selected then '═' else '─')
  else (if selected then '║' else '│')

/-- The title line: the name, from column 2; decisions and utilities have a sign at the right. -/
def titleRune (v : NVar) (x : Int) : Char :=
  if x = boxWidth v - 3 ∧ v.nodeType = .decision then '!'
  else if x = boxWidth v - 3 ∧ v.nodeType = .utility then '$'
  else if 2 ≤ x ∧ x < boxWidth v - 2 then letter v.name (x - 2)
  else ' '

/-- Cell `j` of a bar: full cells, a partial cell, then shade. -/
def barRune (fm : Fmt α) (p : Option α) (j : Int) : Char :=
  match p with
  | none => '░'
  | some a =>
    if j < fm.full a then '█'
    else if j = fm.full a ∧ 0 < fm.fracIdx a then ['▏', '▎', '▍', '▌', '▋', '▊', '▉'].getD (fm.fracIdx a).toNat ' '
    else '░'

/-- The text of a probability in percent. -/
def percentText (fm : Fmt α) : Option α → String
  | none => "    ???"
  | some a => fm.percent a

/-- The text of a utility. -/
def utilityText (fm : Fmt α) : Option α → String
  | none => "         ???"
  | some a => fm.utility a

/-- The name in the line of outcome `i`; the line after the last outcome (of a utility node) is for the total. -/
def lineLabel (v : NVar) (i : Nat) : String := (v.outcomes[i]?).getD "total"

/-- A mark of outcome `i`: `sel` at the selected outcome of the selected node, otherwise `+` if there is evidence for
the node. -/
def markRune (l : Look α) (i : Nat) (sel : Char) : Char :=
  if l.selected = true ∧ l.state = (i : Int) then sel else if l.evidence = true then '+' else ' '

/-- The line of outcome `i` in a box. -/
def lineRune (fm : Fmt α) (v : NVar) (l : Look α) (i : Nat) (x : Int) : Char :=
  if 2 ≤ x ∧ x < barsColumn v - 1 then letter (lineLabel v i) (x - 2)
  else match l.values[i]? with
  | none => ' '
  | some p =>
    if v.nodeType = .utility then
      if barsColumn v + 1 ≤ x ∧ x < barsColumn v + 13 then letter (utilityText fm p) (x - (barsColumn v + 1)) else ' '
    else if x = 1 then markRune l i '['
    else if x = boxWidth v - 2 then markRune l i ']'
    else if barsColumn v ≤ x ∧ x < barsColumn v + 10 then barRune fm p (x - barsColumn v)
    else if barsColumn v + 11 ≤ x ∧ x < barsColumn v + 18 then letter (percentText fm p) (x - (barsColumn v + 11))
    else ' '

/-- The character in row `y` and column `x` of a node's box. -/
def boxRune (fm : Fmt α) (v : NVar) (l : Look α) (y x : Int) : Char :=
  if y = 0 ∨ y = boxHeight v - 1 ∨ x = 0 ∨ x = boxWidth v - 1 then frameRune l.selected (boxHeight v) (boxWidth v) y x
  else if y = 1 then titleRune v x
  else lineRune fm v l (y - 2).toNat x

/-- The numbers fit into the box: one per line, bars of at most 10 cells, texts of 7 (percent) or 12 (utility) letters,
as `%7.3f` and `%12.3f` give for all but very large numbers. -/
def Look.Fits (fm : Fmt α) (v : NVar) (l : Look α) : Prop :=
  if v.nodeType = .utility then
    l.values.length ≤ v.outcomes.length + 1 ∧ ∀ a, some a ∈ l.values → (fm.utility a).length = 12
  else
    l.values.length = v.outcomes.length ∧ ∀ a, some a ∈ l.values → (fm.percent a).length = 7 ∧
      0 ≤ fm.full a ∧ fm.fracIdx a ≤ 6 ∧ (fm.full a < 10 ∨ (fm.full a = 10 ∧ fm.fracIdx a ≤ 0))

end Bbn
