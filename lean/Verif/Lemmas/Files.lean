import Verif.Model.Files
import Verif.Props.Logic
import Verif.Props.NetNew

/-!
# Lemmas on loading and saving
-/

set_option autoImplicit false

namespace Bbn

variable {α : Type}

theorem splitChars_ne_nil (c : Char) (cs : List Char) : splitChars c cs ≠ [] := by
  cases cs with
  | nil => simp [splitChars]
  | cons x xs =>
    unfold splitChars
    split
    · simp
    · split <;> simp

theorem splitChars_none {c : Char} {cs : List Char} (h : c ∉ cs) : splitChars c cs = [cs] := by
  induction cs with
  | nil => rfl
  | cons x xs ih =>
    rw [List.mem_cons, not_or] at h
    unfold splitChars
    rw [if_neg (Ne.symm h.1), ih h.2]

theorem splitChars_append {c : Char} {a b : List Char} (h : c ∉ a) : splitChars c (a ++ c :: b) = a :: splitChars c b := by
  induction a with
  | nil => rw [List.nil_append, splitChars, if_pos rfl]
  | cons x xs ih =>
    rw [List.mem_cons, not_or] at h
    rw [List.cons_append, splitChars, if_neg (Ne.symm h.1), ih h.2]

/-- Splitting at the separator undoes joining with it. -/
theorem splitChars_intercalate {c : Char} : ∀ {parts : List (List Char)}, parts ≠ [] → (∀ p ∈ parts, c ∉ p) →
    splitChars c (List.intercalate [c] parts) = parts
  | [], h, _ => absurd rfl h
  | [p], _, h => by
    rw [show List.intercalate [c] [p] = p by simp [List.intercalate]]
    exact splitChars_none (h p List.mem_cons_self)
  | p :: q :: ps, _, h => by
    have e : List.intercalate [c] (p :: q :: ps) = p ++ c :: List.intercalate [c] (q :: ps) := by
      simp [List.intercalate, List.intersperse]
    rw [e, splitChars_append (h p List.mem_cons_self), splitChars_intercalate (by simp) (fun r hr => h r (List.mem_cons_of_mem _ hr))]

theorem flatten_rows {β : Type} (l : List β) (c : Nat) : ∀ k, ((List.range k).map (fun i => (l.drop (i * c)).take c)).flatten =
    l.take (k * c) := by
  intro k
  induction k with
  | zero => simp
  | succ k ih =>
    rw [List.range_succ, List.map_append, List.flatten_append, ih, Nat.succ_mul, List.take_add]
    simp

theorem nodeTypeOf_name (t : NodeType) : nodeTypeOf (nodeTypeName t) = some t := by
  cases t <;> decide

end Bbn
