import Verif.Spec.Texts
import Verif.Lemmas.Trim
import Verif.Model.Files
import Verif.Model.Commands

/-!
# Lemmas: the functions on texts do what the specification says
-/

set_option autoImplicit false

namespace Bbn

theorem space_iff {c : Char} : isGoSpace c = true ↔ White c := by
  unfold isGoSpace White
  simp only [List.mem_cons, List.not_mem_nil, or_false, Bool.or_eq_true, decide_eq_true_eq, Bool.and_eq_true]
  omega

theorem space_not {c : Char} (h : ¬ White c) : isGoSpace c = false := by
  rw [Bool.eq_false_iff, ne_eq, space_iff]; exact h

theorem blank_space {s : String} (h : Blank s) : ∀ c ∈ s.toList, isGoSpace c = true := fun c hc => space_iff.2 (h c hc)

/-! ## Trimming -/

theorem dropWhile_split (p : Char → Bool) (l : List Char) :
    ∃ a, l = a ++ l.dropWhile p ∧ (∀ c ∈ a, p c = true) ∧ ∀ c, (l.dropWhile p).head? = some c → p c = false := by
  refine ⟨l.takeWhile p, (List.takeWhile_append_dropWhile).symm, fun c hc => List.all_eq_true.1 List.all_takeWhile c hc, ?_⟩
  intro c hc
  induction l with
  | nil => cases hc
  | cons x l ih =>
    by_cases hx : p x = true
    · rw [List.dropWhile_cons_of_pos hx] at hc; exact ih hc
    · rw [List.dropWhile_cons_of_neg hx] at hc
      cases hc
      simpa using hx

theorem trimChars_split (p : Char → Bool) (l : List Char) :
    ∃ a b, l = a ++ trimChars p l ++ b ∧ (∀ c ∈ a, p c = true) ∧ (∀ c ∈ b, p c = true) ∧
      (∀ c, (trimChars p l).head? = some c → p c = false) ∧ ∀ c, (trimChars p l).getLast? = some c → p c = false := by
  obtain ⟨a, e1, a1, a2⟩ := dropWhile_split p l
  obtain ⟨b, e2, b1, b2⟩ := dropWhile_split p (l.dropWhile p).reverse
  have e3 : l.dropWhile p = trimChars p l ++ b.reverse := by
    have := congrArg List.reverse e2
    rwa [List.reverse_reverse, List.reverse_append] at this
  refine ⟨a, b.reverse, ?_, a1, by simpa using b1, ?_, ?_⟩
  · rw [List.append_assoc, ← e3]; exact e1
  · intro c hc
    apply a2
    rw [e3, List.head?_append, hc]; rfl
  · intro c hc
    apply b2
    rw [← List.head?_reverse] at hc
    unfold trimChars at hc
    rwa [List.reverse_reverse] at hc

theorem stripped_iff {p : Char → Bool} {q : Char → Prop} (h : ∀ c, p c = true ↔ q c) {s m : String} :
    String.ofList (trimChars p s.toList) = m ↔ Stripped q s m := by
  have h' : ∀ c, p c = false ↔ ¬ q c := fun c => by rw [Bool.eq_false_iff, ne_eq, h]
  constructor
  · rintro rfl
    obtain ⟨a, b, e, h1, h2, h3, h4⟩ := trimChars_split p s.toList
    refine ⟨String.ofList a, String.ofList b, ?_, ?_, ?_, ?_, ?_⟩
    · apply String.toList_inj.1
      simpa using e
    · simpa [h] using h1
    · simpa [h] using h2
    · simpa [h'] using h3
    · simpa [h'] using h4
  · rintro ⟨a, b, rfl, h1, h2, h3, h4⟩
    rw [String.toList_append, String.toList_append, trimChars_spec]
    · exact String.ofList_toList
    · exact fun c hc => (h c).2 (h1 c hc)
    · exact fun c hc => (h c).2 (h2 c hc)
    · exact fun c hc => (h' c).2 (h3 c hc)
    · exact fun c hc => (h' c).2 (h4 c hc)

theorem trimmed_iff {s m : String} : goTrimSpace s = m ↔ Trimmed s m := stripped_iff (fun _ => space_iff)

theorem unwrapped_iff {s m : String} : goTrimParens s = m ↔ Unwrapped s m := by
  unfold goTrimParens Unwrapped
  exact stripped_iff (fun c => by simp)

/-! ## Integers -/

theorem digitsValue_iff {cs : List Char} {n : Nat} : digitsValue cs = some n ↔
    cs ≠ [] ∧ (∀ c ∈ cs, c.isDigit = true) ∧ n = Nat.ofDigits 10 (cs.reverse.map (fun c => c.toNat - 48)) := by
  have key : ∀ (cs : List Char) (k : Nat),
      cs.foldl (fun acc c => acc.bind (fun n => if c.isDigit then some (n * 10 + (c.toNat - 48)) else none)) (some k) =
        if ∀ c ∈ cs, c.isDigit = true then
          some (k * 10 ^ cs.length + Nat.ofDigits 10 (cs.reverse.map (fun c => c.toNat - 48))) else none := by
    intro cs
    induction cs with
    | nil => intro k; simp
    | cons c cs ih =>
      intro k
      rw [List.foldl_cons]
      by_cases hc : c.isDigit = true
      · simp only [Option.bind_some, hc, if_true]
        rw [ih]
        by_cases hall : ∀ c ∈ cs, c.isDigit = true
        · rw [if_pos hall, if_pos (by simpa [hc] using hall)]
          simp only [List.reverse_cons, List.map_append, Nat.ofDigits_append, List.length_map, List.length_reverse,
            List.map_cons, List.map_nil, Nat.ofDigits_singleton, List.length_cons]
          congr 1
          ring
        · rw [if_neg hall, if_neg (by simpa [hc] using hall)]
      · rw [if_neg (by simp [hc])]
        simp only [Option.bind_some, hc, Bool.false_eq_true, if_false]
        clear ih
        induction cs with
        | nil => rfl
        | cons d cs ih => rw [List.foldl_cons]; exact ih
  unfold digitsValue
  by_cases h : cs = []
  · simp [h]
  · rw [if_neg h, key]
    by_cases hall : ∀ c ∈ cs, c.isDigit = true
    · rw [if_pos hall]
      simp only [Nat.zero_mul, Nat.zero_add, Option.some.injEq]
      exact ⟨fun e => ⟨h, hall, e.symm⟩, fun e => e.2.2.symm⟩
    · rw [if_neg hall]
      constructor
      · intro e; cases e
      · intro e; exact absurd e.2.1 hall

theorem goAtoi_iff {s : String} {i : Int} : goAtoi s = some i ↔ IntText s i := by
  unfold goAtoi IntText
  constructor
  · intro h
    unfold atoiChars at h
    split at h
    · rename_i cs e
      obtain ⟨n, hn, h⟩ := Option.bind_eq_some_iff.1 h
      obtain ⟨h1, h2, h3⟩ := digitsValue_iff.1 hn
      split at h
      · cases h
        refine ⟨"-", String.ofList cs, String.toList_inj.1 (by simpa using e), by simpa using h1, by simpa using h2,
          .inl ⟨rfl, by simp [h3]⟩, by omega, by omega⟩
      · cases h
    · rename_i cs e
      obtain ⟨n, hn, h⟩ := Option.bind_eq_some_iff.1 h
      obtain ⟨h1, h2, h3⟩ := digitsValue_iff.1 hn
      split at h
      · cases h
        refine ⟨"+", String.ofList cs, String.toList_inj.1 (by simpa using e), by simpa using h1, by simpa using h2,
          .inr ⟨.inr rfl, by simp [h3]⟩, by omega, by omega⟩
      · cases h
    · obtain ⟨n, hn, h⟩ := Option.bind_eq_some_iff.1 h
      obtain ⟨h1, h2, h3⟩ := digitsValue_iff.1 hn
      split at h
      · cases h
        refine ⟨"", s, by simp, by simpa using h1, h2, .inr ⟨.inl rfl, by simp [h3]⟩, by omega, by omega⟩
      · cases h
  · rintro ⟨sign, digits, rfl, h1, h2, h3, h4, h5⟩
    have hv := digitsValue_iff.2 ⟨by simpa using h1, h2, rfl⟩
    generalize Nat.ofDigits 10 (digits.toList.reverse.map (fun c => c.toNat - 48)) = n at hv h3
    rw [String.toList_append]
    rcases h3 with ⟨rfl, h3⟩ | ⟨rfl | rfl, h3⟩
    · change (digitsValue digits.toList).bind _ = _
      rw [hv]
      subst h3
      simp only [Option.bind_some]
      rw [if_pos (by omega)]
    · rw [show "".toList ++ digits.toList = digits.toList from rfl, atoiChars_digits h2, hv]
      subst h3
      simp only [Option.bind_some]
      rw [if_pos (by omega)]
    · change (digitsValue digits.toList).bind _ = _
      rw [hv]
      subst h3
      simp only [Option.bind_some]
      rw [if_pos (by omega)]

/-! ## Words -/

theorem goFields_words {s : String} {ws : List String} (h : Words s ws) : goFields s = ws := by
  induction h with
  | blank s hs =>
    unfold goFields
    have := fieldsChars_spaces (blank_space hs) []
    rw [List.append_nil] at this
    rw [this]; rfl
  | word a w rest ws ha hw hn hr _ ih =>
    unfold goFields at ih ⊢
    rw [String.toList_append, String.toList_append, List.append_assoc, fieldsChars_spaces (blank_space ha),
      fieldsChars_word (fun c hc => space_not (hn c hc)), List.nil_append]
    have hw' : w.toList ≠ [] := by simpa using hw
    cases hx : rest.toList with
    | nil =>
      rw [hx] at ih
      simp only [fieldsChars] at ih ⊢
      rw [if_neg hw', ← ih]
      simp
    | cons c cs =>
      rw [hx] at ih
      have hc : isGoSpace c = true := space_iff.2 (hr c (by rw [hx]; rfl))
      simp only [fieldsChars, hc, if_true] at ih ⊢
      rw [if_neg hw', List.map_cons, ih]
      simp

theorem words_exist (s : String) : ∃ ws, Words s ws := by
  have key : ∀ (k : Nat) (l : List Char), l.length ≤ k → ∃ ws, Words (String.ofList l) ws := by
    intro k
    induction k with
    | zero =>
      intro l hl
      have : l = [] := List.length_eq_zero_iff.1 (by omega)
      subst this
      exact ⟨[], .blank _ (by intro c hc; simp at hc)⟩
    | succ k ih =>
      intro l hl
      obtain ⟨a, e1, a1, a2⟩ := dropWhile_split isGoSpace l
      have hl2 : (l.dropWhile isGoSpace).length ≤ l.length := by
        conv_rhs => rw [e1]
        simp
      generalize l.dropWhile isGoSpace = l1 at *
      by_cases h1 : l1 = []
      · refine ⟨[], .blank _ ?_⟩
        intro c hc
        rw [String.toList_ofList, e1, h1, List.append_nil] at hc
        exact space_iff.1 (a1 c hc)
      · obtain ⟨w, e2, w1, w2⟩ := dropWhile_split (fun c => !isGoSpace c) l1
        generalize l1.dropWhile (fun c => !isGoSpace c) = l2 at *
        have hw : w ≠ [] := by
          rintro rfl
          rw [List.nil_append] at e2
          subst e2
          cases l1 with
          | nil => exact h1 rfl
          | cons c cs =>
            have p1 := a2 c rfl
            have p2 := w2 c rfl
            rw [p1] at p2
            cases p2
        have hlen : l2.length ≤ k := by
          have : l1.length = w.length + l2.length := by rw [e2]; simp
          have := List.length_pos_iff.2 hw
          omega
        obtain ⟨ws, hws⟩ := ih l2 hlen
        refine ⟨String.ofList w :: ws, ?_⟩
        have e3 : String.ofList l = String.ofList a ++ String.ofList w ++ String.ofList l2 := by
          apply String.toList_inj.1
          simp only [String.toList_append, String.toList_ofList]
          rw [List.append_assoc, ← e2]; exact e1
        rw [e3]
        refine .word _ _ _ _ ?_ (by simpa using hw) ?_ ?_ hws
        · intro c hc; exact space_iff.1 (a1 c (by simpa using hc))
        · intro c hc h
          have := w1 c (by simpa using hc)
          rw [space_iff.2 h] at this
          cases this
        · intro c hc
          have := w2 c (by simpa using hc)
          exact space_iff.1 (by simpa using this)
  obtain ⟨ws, h⟩ := key s.toList.length s.toList (Nat.le_refl _)
  exact ⟨ws, by rwa [String.ofList_toList] at h⟩

theorem words_iff {s : String} {ws : List String} : goFields s = ws ↔ Words s ws := by
  refine ⟨?_, goFields_words⟩
  rintro rfl
  obtain ⟨ws, h⟩ := words_exist s
  rwa [goFields_words h]

/-! ## Types -/

theorem kind_iff {s : String} {t : NodeType} : nodeTypeOf s = some t ↔ KindText s t := by
  unfold nodeTypeOf KindText
  by_cases h1 : s = ""
  · subst h1; cases t <;> decide
  by_cases h2 : s = "nature"
  · subst h2; cases t <;> decide
  by_cases h3 : s = "decision"
  · subst h3; cases t <;> decide
  by_cases h4 : s = "utility"
  · subst h4; cases t <;> decide
  simp [h1, h2, h3, h4]

/-! ## Tables -/

theorem csvAt_iff {α B : Type} {lib : Lib α B} {disk : Disk B} {path : String} {delim : Char} {header : List String}
    {records : List (List String)} : readCsv lib disk path delim = .ok (header, records) ↔
      CsvAt lib disk path delim header records := by
  unfold readCsv CsvAt
  cases disk path with
  | none => simp
  | some b => simp

end Bbn
