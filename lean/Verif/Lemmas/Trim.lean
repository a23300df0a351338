import Verif.Lemmas.Text

/-!
# Lemmas on trimming and on fields of texts
-/

set_option autoImplicit false

namespace Bbn

theorem dropWhile_all {p : Char → Bool} {a : List Char} (h : ∀ c ∈ a, p c = true) (b : List Char) :
    (a ++ b).dropWhile p = b.dropWhile p := by
  induction a with
  | nil => rfl
  | cons c a ih =>
    rw [List.cons_append, List.dropWhile_cons_of_pos (h c (by simp))]
    exact ih (fun x hx => h x (by simp [hx]))

theorem dropWhile_head {p : Char → Bool} {l : List Char} (h : ∀ c, l.head? = some c → p c = false) :
    l.dropWhile p = l := by
  cases l with
  | nil => rfl
  | cons c l => exact List.dropWhile_cons_of_neg (by simp [h c rfl])

/-- Trimming removes what is to be removed at both ends, and no more. -/
theorem trimChars_spec {p : Char → Bool} {a m b : List Char} (ha : ∀ c ∈ a, p c = true) (hb : ∀ c ∈ b, p c = true)
    (h1 : ∀ c, m.head? = some c → p c = false) (h2 : ∀ c, m.getLast? = some c → p c = false) :
    trimChars p (a ++ m ++ b) = m := by
  unfold trimChars
  rw [List.append_assoc, dropWhile_all ha]
  cases m with
  | nil =>
    rw [List.nil_append]
    have : b.dropWhile p = [] := by
      have := dropWhile_all hb []
      rwa [List.append_nil] at this
    rw [this]; rfl
  | cons c m =>
    have e : ((c :: m) ++ b).dropWhile p = (c :: m) ++ b := dropWhile_head (fun d hd => h1 d (by simpa using hd))
    rw [e, List.reverse_append, dropWhile_all (fun d hd => hb d (by simpa using hd)), dropWhile_head, List.reverse_reverse]
    intro d hd
    rw [List.head?_reverse] at hd
    exact h2 d hd

/-- Fields of words separated and surrounded by white space are the words. -/
theorem fieldsChars_spaces {a : List Char} (ha : ∀ c ∈ a, isGoSpace c = true) (b : List Char) :
    fieldsChars [] (a ++ b) = fieldsChars [] b := by
  induction a with
  | nil => rfl
  | cons c a ih =>
    rw [List.cons_append, fieldsChars, if_pos (ha c (by simp)), if_pos rfl]
    exact ih (fun x hx => ha x (by simp [hx]))

theorem fieldsChars_word {w : List Char} (hw : ∀ c ∈ w, isGoSpace c = false) (cur b : List Char) :
    fieldsChars cur (w ++ b) = fieldsChars (cur ++ w) b := by
  induction w generalizing cur with
  | nil => simp
  | cons c w ih =>
    rw [List.cons_append, fieldsChars, if_neg (by simp [hw c (by simp)]), ih (fun x hx => hw x (by simp [hx]))]
    simp

/-- The text consisting of words, each followed by white space. -/
def spaced : List (List Char × List Char) → List Char
  | [] => []
  | (w, s) :: rest => w ++ s ++ spaced rest

theorem fieldsChars_spaced {l : List (List Char × List Char)} (hl : ∀ e ∈ l, e.1 ≠ [] ∧ e.2 ≠ [] ∧
    (∀ c ∈ e.1, isGoSpace c = false) ∧ ∀ c ∈ e.2, isGoSpace c = true) (last : List Char)
    (hlast : ∀ c ∈ last, isGoSpace c = false) :
    fieldsChars [] (spaced l ++ last) = l.map Prod.fst ++ (if last = [] then [] else [last]) := by
  induction l with
  | nil =>
    have := fieldsChars_word hlast [] []
    rw [List.append_nil, List.nil_append] at this
    simp only [spaced, List.nil_append, List.map_nil, this]
    rfl
  | cons e l ih =>
    obtain ⟨w, s⟩ := e
    obtain ⟨h1, h2, h3, h4⟩ := hl (w, s) (by simp)
    dsimp only at h1 h2 h3 h4
    rw [spaced, List.append_assoc, List.append_assoc, fieldsChars_word h3, List.nil_append]
    cases s with
    | nil => exact absurd rfl h2
    | cons c s =>
      rw [List.cons_append, fieldsChars, if_pos (h4 c (by simp)), if_neg h1,
        fieldsChars_spaces (fun x hx => h4 x (by simp [hx])), ih (fun x hx => hl x (by simp [hx]))]
      simp

theorem splitChars_length (c : Char) (cs : List Char) : (splitChars c cs).length = cs.count c + 1 := by
  induction cs with
  | nil => rfl
  | cons x xs ih =>
    unfold splitChars
    split
    · rename_i h; subst h; simp [ih]
    · rename_i h
      rw [List.count_cons_of_ne h, ← ih]
      split
      · rename_i e; exact absurd e (splitChars_ne_nil c xs)
      · rename_i e; rw [e]; rfl

/-- Joining undoes splitting, and the pieces do not contain the separator. -/
theorem splitChars_join (c : Char) (cs : List Char) :
    List.intercalate [c] (splitChars c cs) = cs ∧ ∀ p ∈ splitChars c cs, c ∉ p := by
  induction cs with
  | nil => exact ⟨rfl, by simp [splitChars]⟩
  | cons x xs ih =>
    obtain ⟨h1, h2⟩ := ih
    unfold splitChars
    split
    · rename_i h
      subst h
      constructor
      · cases hs : splitChars x xs with
        | nil => exact absurd hs (splitChars_ne_nil x xs)
        | cons w ws =>
          rw [hs] at h1
          rw [← h1]
          simp [List.intercalate, List.intersperse]
      · intro p hp
        rcases List.mem_cons.1 hp with rfl | hp
        · simp
        · exact h2 p hp
    · rename_i h
      cases hs : splitChars c xs with
      | nil => exact absurd hs (splitChars_ne_nil c xs)
      | cons w ws =>
        rw [hs] at h1 h2
        dsimp only
        constructor
        · rw [← h1]
          cases ws <;> simp [List.intercalate, List.intersperse]
        · intro p hp
          rcases List.mem_cons.1 hp with rfl | hp
          · rw [List.mem_cons, not_or]
            exact ⟨Ne.symm h, h2 w (by simp)⟩
          · exact h2 p (by simp [hp])

end Bbn
