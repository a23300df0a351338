import Verif.Lemmas.Texts
import Verif.Props.YamlNodes
import Verif.Props.NetCalls

/-!
# Loading BIF-XML: C58, C59
-/

set_option autoImplicit false

namespace Bbn

variable {α : Type}

/-! ## C59 -/

theorem goTrimSpace_spec {a m b : String} (ha : Blank a) (hb : Blank b) (h : ∀ c ∈ m.toList, isGoSpace c = false) :
    goTrimSpace (a ++ m ++ b) = m := by
  unfold goTrimSpace
  rw [String.toList_append, String.toList_append, trimChars_spec (blank_space ha) (blank_space hb)]
  · simp
  · intro c hc; exact h c (List.mem_of_head? hc)
  · intro c hc; exact h c (List.mem_of_getLast? hc)

/-- The characters of a decimal integer. -/
theorem toString_chars (i : Int) : ∀ c ∈ (toString i).toList, c = '-' ∨ c.isDigit = true := by
  intro c hc
  cases i with
  | ofNat n => exact .inr (digits_repr n c hc)
  | negSucc n =>
    change c ∈ ("-" ++ (n + 1).repr).toList at hc
    rw [String.toList_append, List.mem_append] at hc
    rcases hc with h | h
    · left; simpa using h
    · exact .inr (digits_repr _ c h)

theorem digit_plain {c : Char} (h : c = '-' ∨ c.isDigit = true) :
    isGoSpace c = false ∧ c ≠ '=' ∧ c ≠ ',' ∧ c ≠ '(' ∧ c ≠ ')' := by
  rcases h with rfl | h
  · decide
  · have : 48 ≤ c.toNat ∧ c.toNat ≤ 57 := by
      simp [Char.isDigit] at h
      exact ⟨h.1, h.2⟩
    refine ⟨?_, ?_, ?_, ?_, ?_⟩
    · unfold isGoSpace
      simp only [List.mem_cons, List.not_mem_nil, or_false, Bool.or_eq_false_iff, decide_eq_false_iff_not,
        Bool.and_eq_false_iff]
      omega
    all_goals
      rintro rfl
      revert this
      decide

theorem blank_plain {c : Char} (h : White c) : c ≠ '=' ∧ c ≠ ',' ∧ c ≠ '(' ∧ c ≠ ')' := by
  refine ⟨?_, ?_, ?_, ?_⟩ <;> (rintro rfl; revert h; decide)

theorem goSplit_two {c : Char} {s t : String} (hs : c ∉ s.toList) (ht : c ∉ t.toList) :
    goSplit (s ++ String.singleton c ++ t) c = [s, t] := by
  have := goSplit_intercalate (c := c) (parts := [s, t]) (by simp) (by
    intro p hp
    simp only [List.mem_cons, List.not_mem_nil, or_false] at hp
    rcases hp with rfl | rfl
    · exact hs
    · exact ht)
  rwa [String.intercalate_cons_cons, String.intercalate_singleton] at this

/-- The text `x, y` with white space. -/
def pairText (d e f g : String) (x y : Int) : String := d ++ toString x ++ e ++ "," ++ (f ++ toString y ++ g)

theorem parsePair {d e f g : String} (hd : Blank d) (he : Blank e) (hf : Blank f) (hg : Blank g) {x y : Int}
    (hx : -2 ^ 63 ≤ x ∧ x < 2 ^ 63) (hy : -2 ^ 63 ≤ y ∧ y < 2 ^ 63) :
    ∃ s t, goSplit (pairText d e f g x y) ',' = [s, t] ∧ goAtoi (goTrimSpace s) = some x ∧ goAtoi (goTrimSpace t) = some y := by
  have key : ∀ {d e : String}, Blank d → Blank e → ∀ {x : Int}, ',' ∉ (d ++ toString x ++ e).toList := by
    intro d e hd he x hm
    rw [String.toList_append, String.toList_append, List.mem_append, List.mem_append] at hm
    rcases hm with (h | h) | h
    · exact (blank_plain (hd _ h)).2.1 rfl
    · exact (digit_plain (toString_chars x _ h)).2.2.1 rfl
    · exact (blank_plain (he _ h)).2.1 rfl
  refine ⟨_, _, goSplit_two (c := ',') (key hd he) (key hf hg), ?_, ?_⟩
  · rw [goTrimSpace_spec hd he (fun c hc => (digit_plain (toString_chars x c hc)).1)]
    exact goAtoi_toString hx.1 hx.2
  · rw [goTrimSpace_spec hf hg (fun c hc => (digit_plain (toString_chars y c hc)).1)]
    exact goAtoi_toString hy.1 hy.2

theorem pairText_chars {d e f g : String} (hd : Blank d) (he : Blank e) (hf : Blank f) (hg : Blank g) {x y : Int} :
    ∀ c ∈ (pairText d e f g x y).toList, c ≠ '=' ∧ c ≠ '(' ∧ c ≠ ')' := by
  intro c hc
  unfold pairText at hc
  simp only [String.toList_append, List.mem_append] at hc
  have hb : ∀ {s : String}, Blank s → c ∈ s.toList → c ≠ '=' ∧ c ≠ '(' ∧ c ≠ ')' := by
    intro s hs h
    exact ⟨(blank_plain (hs c h)).1, (blank_plain (hs c h)).2.2.1, (blank_plain (hs c h)).2.2.2⟩
  have hn : ∀ {i : Int}, c ∈ (toString i).toList → c ≠ '=' ∧ c ≠ '(' ∧ c ≠ ')' := by
    intro i h
    have := digit_plain (toString_chars i c h)
    exact ⟨this.2.1, this.2.2.2.1, this.2.2.2.2⟩
  rcases hc with (((h | h) | h) | h) | ((h | h) | h)
  · exact hb hd h
  · exact hn h
  · exact hb he h
  · have : c = ',' := by simpa using h
    subst this; decide
  · exact hb hf h
  · exact hn h
  · exact hb hg h

/-- A property text `position = ( x , y )`; all other parameters are white space. -/
def positionText (a b c d e f g h : String) (x y : Int) : String :=
  a ++ "position" ++ b ++ "=" ++ (c ++ ("(" ++ pairText d e f g x y ++ ")") ++ h)

theorem parseProperty_position {a b c d e f g h : String} (ha : Blank a) (hb : Blank b) (hc : Blank c) (hd : Blank d)
    (he : Blank e) (hf : Blank f) (hg : Blank g) (hh : Blank h) {x y : Int} (hx : -2 ^ 63 ≤ x ∧ x < 2 ^ 63)
    (hy : -2 ^ 63 ≤ y ∧ y < 2 ^ 63) (pos : Int × Int) :
    parseProperty pos (positionText a b c d e f g h x y) = .ok (x.tdiv 2, y.tdiv 12) := by
  have e1 : goSplit (positionText a b c d e f g h x y) '=' =
      [a ++ "position" ++ b, c ++ ("(" ++ pairText d e f g x y ++ ")") ++ h] := by
    refine goSplit_two (c := '=') ?_ ?_
    · simp only [String.toList_append, List.mem_append]
      rintro ((h | h) | h)
      · exact (blank_plain (ha _ h)).1 rfl
      · exact absurd h (by decide)
      · exact (blank_plain (hb _ h)).1 rfl
    · simp only [String.toList_append (s := c), String.toList_append (t := h), String.toList_append (t := ")"),
        String.toList_append (s := "("), List.mem_append]
      rintro ((h | ((h | h) | h)) | h)
      · exact (blank_plain (hc _ h)).1 rfl
      · exact absurd h (by decide)
      · exact (pairText_chars hd he hf hg _ h).1 rfl
      · exact absurd h (by decide)
      · exact (blank_plain (hh _ h)).1 rfl
  have e2 : goTrimSpace (a ++ "position" ++ b) = "position" := goTrimSpace_spec ha hb (by decide)
  have e3 : goTrimSpace (c ++ ("(" ++ pairText d e f g x y ++ ")") ++ h) = "(" ++ pairText d e f g x y ++ ")" := by
    unfold goTrimSpace
    rw [String.toList_append, String.toList_append, trimChars_spec (blank_space hc) (blank_space hh)]
    · exact String.ofList_toList
    · intro k hk
      simp only [String.toList_append] at hk
      have : k = '(' := by simpa using hk.symm
      subst this; decide
    · intro k hk
      simp only [String.toList_append] at hk
      rw [show ")".toList = [')'] from rfl, List.getLast?_concat] at hk
      cases hk; decide
  have e4 : goTrimParens ("(" ++ pairText d e f g x y ++ ")") = pairText d e f g x y := by
    unfold goTrimParens
    rw [String.toList_append, String.toList_append, trimChars_spec (by decide) (by decide)]
    · simp
    · intro k hk
      have := pairText_chars hd he hf hg k (List.mem_of_head? hk)
      simp [this.2.1, this.2.2]
    · intro k hk
      have := pairText_chars hd he hf hg k (List.mem_of_getLast? hk)
      simp [this.2.1, this.2.2]
  obtain ⟨s, t, e5, e6, e7⟩ := parsePair hd he hf hg hx hy
  unfold parseProperty
  rw [e1]
  dsimp only
  rw [if_neg (by rw [e2]; simp), e3, e4, e5]
  dsimp only
  rw [e6]
  dsimp only
  rw [e7]

/-- A property that is no position: it is not of the form `key = value`, or the key is not `position`. -/
def OtherProperty (s : String) : Prop :=
  s.toList.count '=' ≠ 1 ∨ ∃ key value, s = key ++ "=" ++ value ∧ '=' ∉ key.toList ∧ '=' ∉ value.toList ∧
    ∃ name, Trimmed key name ∧ name ≠ "position"

theorem parseProperty_other {s : String} (h : OtherProperty s) (pos : Int × Int) : parseProperty pos s = .ok pos := by
  unfold parseProperty
  rcases h with h | ⟨key, value, rfl, h1, h2, name, h0, h3⟩
  · have hl : (goSplit s '=').length ≠ 2 := by
      unfold goSplit; rw [List.length_map, splitChars_length]; omega
    split
    · rename_i e; rw [e] at hl; exact absurd rfl hl
    · rfl
  · rw [show key ++ "=" ++ value = key ++ String.singleton '=' ++ value from rfl, goSplit_two h1 h2]
    dsimp only
    rw [if_pos (by rw [trimmed_iff.2 h0]; exact h3)]

theorem foldlM_other : ∀ {l : List String}, (∀ s ∈ l, OtherProperty s) → ∀ pos, l.foldlM parseProperty pos = .ok pos := by
  intro l
  induction l with
  | nil => intro _ pos; rfl
  | cons s l ih =>
    intro h pos
    rw [List.foldlM_cons, parseProperty_other (h s (by simp)), ok_bind]
    exact ih (fun x hx => h x (by simp [hx])) pos

/-- **C59.** A position property in the documented format (with any white space around its parts) is read as its two
integers, scaled to terminal cells (rounding towards zero); other properties before and after it are ignored. Without a
position property the position is zero. -/
theorem C59_position {pre post : List String} (hpre : ∀ s ∈ pre, OtherProperty s) (hpost : ∀ s ∈ post, OtherProperty s) :
    parsePosition pre = .ok (0, 0) ∧
    ∀ {a b c d e f g h : String}, Blank a → Blank b → Blank c → Blank d → Blank e → Blank f → Blank g → Blank h →
      ∀ {x y : Int}, -2 ^ 63 ≤ x ∧ x < 2 ^ 63 → -2 ^ 63 ≤ y ∧ y < 2 ^ 63 →
      parsePosition (pre ++ positionText a b c d e f g h x y :: post) = .ok (x.tdiv 2, y.tdiv 12) := by
  refine ⟨foldlM_other hpre _, ?_⟩
  intro a b c d e f g h ha hb hc hd he hf hg hh x y hx hy
  unfold parsePosition
  rw [List.foldlM_append, foldlM_other hpre, ok_bind, List.foldlM_cons,
    parseProperty_position ha hb hc hd he hf hg hh hx hy, ok_bind, foldlM_other hpost]

/-- A position property whose value is not two integers separated by a comma, after removing parentheses. -/
def BadPosition (s : String) : Prop :=
  ∃ key value, s = key ++ "=" ++ value ∧ '=' ∉ key.toList ∧ '=' ∉ value.toList ∧ Trimmed key "position" ∧
    ¬ ∃ inner pair p q p' q' x y, Trimmed value inner ∧ Unwrapped inner pair ∧ pair = p ++ "," ++ q ∧ ',' ∉ p.toList ∧
      ',' ∉ q.toList ∧ Trimmed p p' ∧ Trimmed q q' ∧ IntText p' x ∧ IntText q' y

theorem goSplit_pair {s p q : String} {c : Char} (h : goSplit s c = [p, q]) :
    s = p ++ String.singleton c ++ q ∧ c ∉ p.toList ∧ c ∉ q.toList := by
  unfold goSplit at h
  obtain ⟨e1, e2⟩ := splitChars_join c s.toList
  obtain ⟨p', q', hs, rfl, rfl⟩ : ∃ p' q', splitChars c s.toList = [p', q'] ∧ String.ofList p' = p ∧
      String.ofList q' = q := by
    match hs : splitChars c s.toList, h with
    | [p', q'], h =>
      simp only [List.map_cons, List.map_nil, List.cons.injEq, and_true] at h
      exact ⟨p', q', rfl, h.1, h.2⟩
  rw [hs] at e1 e2
  refine ⟨?_, by simpa using e2 p' (by simp), by simpa using e2 q' (by simp)⟩
  apply String.toList_inj.1
  rw [← e1]
  simp [List.intercalate]

theorem parseProperty_cases (pos : Int × Int) (s : String) :
    (∃ p, parseProperty pos s = .ok p) ∨ Errors (parseProperty pos s) := by
  unfold parseProperty
  split
  · split
    · exact .inl ⟨_, rfl⟩
    · split
      · split
        · exact .inr ⟨_, rfl⟩
        · split
          · exact .inr ⟨_, rfl⟩
          · exact .inl ⟨_, rfl⟩
      · exact .inr ⟨_, rfl⟩
  · exact .inl ⟨_, rfl⟩

theorem parsePosition_cases (l : List String) : (∃ p, parsePosition l = .ok p) ∨ Errors (parsePosition l) := by
  unfold parsePosition
  generalize ((0, 0) : Int × Int) = pos
  induction l generalizing pos with
  | nil => exact .inl ⟨_, rfl⟩
  | cons s l ih =>
    rw [List.foldlM_cons]
    rcases parseProperty_cases pos s with ⟨p, h⟩ | ⟨m, h⟩
    · rw [h, ok_bind]; exact ih p
    · rw [h]; exact .inr ⟨m, rfl⟩

theorem parseProperty_bad {s : String} (h : BadPosition s) (pos : Int × Int) : Errors (parseProperty pos s) := by
  obtain ⟨key, value, rfl, h1, h2, h3, h4⟩ := h
  unfold parseProperty
  rw [show key ++ "=" ++ value = key ++ String.singleton '=' ++ value from rfl, goSplit_two h1 h2]
  dsimp only
  rw [if_neg (by simp [trimmed_iff.2 h3])]
  split
  · rename_i p q e
    split
    · exact ⟨_, rfl⟩
    · rename_i x hx
      split
      · exact ⟨_, rfl⟩
      · rename_i y hy
        obtain ⟨e1, e2, e3⟩ := goSplit_pair e
        exact absurd ⟨_, _, p, q, _, _, x, y, trimmed_iff.1 rfl, unwrapped_iff.1 rfl, e1, e2, e3, trimmed_iff.1 rfl,
          trimmed_iff.1 rfl, goAtoi_iff.1 hx, goAtoi_iff.1 hy⟩ h4
  · exact ⟨_, rfl⟩

/-- **C59, errors.** A position whose value is not two integers is an error, wherever it is among the properties. -/
theorem C59_malformed {pre post : List String} {s : String} (h : BadPosition s) :
    Errors (parsePosition (pre ++ s :: post)) := by
  unfold parsePosition
  rw [List.foldlM_append]
  rcases parsePosition_cases pre with ⟨p, e⟩ | ⟨m, e⟩
  · unfold parsePosition at e
    rw [e, ok_bind, List.foldlM_cons]
    obtain ⟨m, hm⟩ := parseProperty_bad h p
    rw [hm]
    exact ⟨m, rfl⟩
  · unfold parsePosition at e
    rw [e]
    exact ⟨m, rfl⟩

/-- A file with a position and another property. -/
example : parsePosition ["color = red", "position = (-100, 36)"] = .ok (-50, 3) := by
  obtain ⟨_, h⟩ := C59_position (pre := ["color = red"]) (post := []) (by
    intro s hs
    rw [List.mem_singleton] at hs
    subst hs
    exact .inr ⟨"color ", " red", by decide, by decide, by decide, "color", trimmed_iff.1 (by decide), by decide⟩) (by simp)
  have e : positionText "" " " " " "" "" " " "" "" (-100) 36 = "position = (-100, 36)" := by decide +kernel
  rw [← e]
  exact h (a := "") (b := " ") (c := " ") (d := "") (e := "") (f := " ") (g := "") (h := "") (by decide) (by decide) (by decide)
    (by decide) (by decide) (by decide) (by decide) (by decide) (x := -100) (y := 36) (by decide) (by decide)

/-! ## C58 -/

/-- The definition for a name: the last one listed for it. -/
def definitionFor (ds : List DefXml) (s : String) : Option DefXml := ds.reverse.find? (fun d => d.forVar = s)

theorem xmlDefs_get (ds : List DefXml) (s : String) : mapGet (xmlDefs ds) s = definitionFor ds s := by
  unfold xmlDefs definitionFor
  have : ∀ m : List (String × DefXml), mapGet (ds.foldl (fun m d => mapSet m d.forVar d) m) s =
      ((ds.reverse.find? (fun d => d.forVar = s)).or (mapGet m s)) := by
    induction ds with
    | nil => intro m; rfl
    | cons d ds ih =>
      intro m
      rw [List.foldl_cons, ih, mapGet_mapSet, List.reverse_cons, List.find?_append]
      by_cases h : d.forVar = s
      · rw [if_pos h.symm]
        cases ds.reverse.find? (fun d => d.forVar = s) with
        | none => simp [h]
        | some e => simp
      · rw [if_neg (Ne.symm h)]
        cases ds.reverse.find? (fun d => d.forVar = s) with
        | none => simp [h]
        | some e => simp
  rw [this]
  simp [mapGet]

theorem mapM_inv {β γ : Type} {f : β → Except Fault γ} : ∀ {l : List β} {ys : List γ}, l.mapM f = .ok ys →
    ys.length = l.length ∧ ∀ (i : Nat) (x : β), l[i]? = some x → ∃ y, ys[i]? = some y ∧ f x = .ok y := by
  intro l
  induction l with
  | nil => intro ys h; cases h; exact ⟨rfl, by simp⟩
  | cons a l ih =>
    intro ys h
    rw [List.mapM_cons] at h
    cases ha : f a with
    | error e => rw [ha] at h; cases h
    | ok b =>
      rw [ha, ok_bind] at h
      cases hl : l.mapM f with
      | error e => rw [hl] at h; cases h
      | ok bs =>
        rw [hl, ok_bind] at h
        cases h
        obtain ⟨h1, h2⟩ := ih hl
        refine ⟨by simp [h1], ?_⟩
        intro i x hx
        cases i with
        | zero => simp only [List.getElem?_cons_zero, Option.some.injEq] at hx; subst hx; exact ⟨b, rfl, ha⟩
        | succ i => rw [List.getElem?_cons_succ] at hx ⊢; exact h2 i x hx

theorem Built.factor_at {name info : String} {vars : List NVar} {factors : List (NFactor α)} {n : Net α}
    (hb : Built name info vars factors n) {i : Nat} {f : NFactor α} (hf : factors[i]? = some f) :
    ∃ g, n.factors[i]? = some g ∧ g.core = f.core := by
  have := congrArg (fun l => l[i]?) hb.tables
  simp only [List.getElem?_map, hf, Option.map_some] at this
  exact Option.map_eq_some_iff.1 this

theorem Built.variable_at {name info : String} {vars : List NVar} {factors : List (NFactor α)} {n : Net α}
    (hb : Built name info vars factors n) {i : Nat} {v : NVar} (hv : vars[i]? = some v) :
    ∃ u, n.variables[i]? = some u ∧ u.name = v.name ∧ u.nodeType = v.nodeType ∧ u.outcomes = v.outcomes ∧
      u.position = v.position ∧ u.color = v.color := by
  refine ⟨linked factors v, by rw [hb.links, List.getElem?_map, hv]; rfl, ?_⟩
  unfold linked; split <;> exact ⟨rfl, rfl, rfl, rfl, rfl⟩

theorem parseTable_ok {pf : String → Option α} {values : List String} {t : Option (List α)}
    (h : parseTable pf values = .ok t) : values.map pf = (t.getD []).map some ∧ (t = none ↔ values = []) := by
  unfold parseTable at h
  split at h
  · rename_i hl
    cases hm : values.mapM (parseValue pf) with
    | error e => rw [hm] at h; cases h
    | ok ys =>
      rw [hm] at h
      cases h
      obtain ⟨h1, h2⟩ := mapM_inv hm
      refine ⟨?_, by simp; rintro rfl; simp at hl⟩
      apply List.ext_getElem?
      intro i
      rw [List.getElem?_map, List.getElem?_map, Option.getD_some]
      cases hv : values[i]? with
      | none =>
        rw [List.getElem?_eq_none_iff] at hv
        rw [List.getElem?_eq_none (by omega)]; rfl
      | some s =>
        obtain ⟨y, hy, hp⟩ := h2 i s hv
        rw [hy]
        cases hs : pf s with
        | none => unfold parseValue at hp; rw [hs] at hp; cases hp
        | some x => unfold parseValue at hp; rw [hs] at hp; cases hp; simp [hs]
  · rename_i hl
    cases h
    have : values = [] := List.length_eq_zero_iff.1 (by omega)
    subst this
    simp

theorem xmlNode_ok {pf : String → Option α} {ds : List DefXml} {v : VarXml} {e : NVar × NFactor α}
    (h : xmlNode pf (xmlDefs ds) v = .ok e) : ∃ d, definitionFor ds v.name = some d ∧ e.1.name = v.name ∧
      nodeTypeOf v.type = some e.1.nodeType ∧ e.1.outcomes = v.outcomes ∧ e.1.color = "" ∧ e.1.factor = none ∧
      parsePosition v.properties = .ok e.1.position ∧ e.2.forVar = v.name ∧ e.2.given = d.given ∧
      (v.outcomes.length > 0 → v.outcomes.length ∣ (goFields d.table).length) ∧
      (goFields d.table).map pf = e.2.tab.map some ∧ (e.2.table = none ↔ goFields d.table = []) := by
  unfold xmlNode at h
  rw [xmlDefs_get] at h
  split at h
  · cases h
  rename_i d hd
  dsimp only at h
  split at h
  · cases h
  rename_i hc
  cases hp : parsePosition v.properties with
  | error e => rw [hp] at h; cases h
  | ok pos =>
    rw [hp, ok_bind] at h
    split at h
    · cases h
    rename_i tp htp
    cases ht : parseTable pf (goFields d.table) with
    | error e => rw [ht] at h; cases h
    | ok t =>
      rw [ht, ok_bind] at h
      cases h
      obtain ⟨t1, t2⟩ := parseTable_ok ht
      refine ⟨d, hd, rfl, htp, rfl, rfl, rfl, rfl, rfl, rfl, ?_, t1, t2⟩
      intro h0
      by_contra hnd
      exact hc ⟨h0, fun e => hnd (Nat.dvd_of_mod_eq_zero e)⟩

/-- **C58, matching.** In a loaded network, each variable has the outcomes and the type of the file, and the parents and
the table of the (last) definition for its name: the values are the white-space separated words of the definition. -/
theorem C58_matched {pf : String → Option α} {x : NetXml} {n : Net α} (h : fromXml pf x = .ok n) :
    n.name = x.name ∧ n.variables.length = x.variables.length ∧ n.factors.length = x.variables.length ∧
    ∀ (i : Nat) (v : VarXml), x.variables[i]? = some v → ∃ u f d, n.variables[i]? = some u ∧ n.factors[i]? = some f ∧
      definitionFor x.definitions v.name = some d ∧ u.name = v.name ∧ KindText v.type u.nodeType ∧
      u.outcomes = v.outcomes ∧ parsePosition v.properties = .ok u.position ∧ f.forVar = v.name ∧ f.given = d.given ∧
      ∃ values, Words d.table values ∧ values.map pf = f.tab.map some := by
  unfold fromXml at h
  cases hm : x.variables.mapM (xmlNode pf (xmlDefs x.definitions)) with
  | error e => rw [hm] at h; cases h
  | ok nodes =>
    rw [hm, ok_bind] at h
    obtain ⟨h1, h2⟩ := mapM_inv hm
    have hptr : ∀ v ∈ nodes.map Prod.fst, v.factor = none := by
      intro u hu
      obtain ⟨e, he, rfl⟩ := List.mem_map.1 hu
      obtain ⟨i, hi⟩ := List.mem_iff_getElem?.1 he
      have hlt : i < x.variables.length := by
        rw [← h1]; exact (List.getElem?_eq_some_iff.1 hi).1
      obtain ⟨y, hy, hf⟩ := h2 i _ (List.getElem?_eq_getElem hlt)
      rw [hi] at hy
      cases hy
      obtain ⟨d, _, _, _, _, _, hn, _⟩ := xmlNode_ok hf
      exact hn
    have hb := C35_new_result _ _ _ _ hptr h
    refine ⟨hb.sameName, by rw [hb.links]; simp [h1], ?_, ?_⟩
    · have := congrArg List.length hb.tables
      simpa [h1] using this
    · intro i v hv
      obtain ⟨e, he, hf⟩ := h2 i v hv
      obtain ⟨d, d1, d2, d3, d4, _, _, d5, d6, d7, _, d8, _⟩ := xmlNode_ok hf
      obtain ⟨u, u1, u2, u3, u4, u5, _⟩ := hb.variable_at (i := i) (v := e.1) (by rw [List.getElem?_map, he]; rfl)
      obtain ⟨g, g1, g2⟩ := hb.factor_at (i := i) (f := e.2) (by rw [List.getElem?_map, he]; rfl)
      obtain ⟨c1, c2, c3⟩ := core_parts g2
      refine ⟨u, g, d, u1, g1, d1, by rw [u2, d2], kind_iff.1 (by rw [d3, u3]), by rw [u4, d4], by rw [d5, u5],
        by rw [c1, d6], by rw [c2, d7], _, words_iff.1 rfl, by rw [d8, c3]⟩

/-- **C58, order.** The order of the definitions does not matter if no two are for the same name. -/
theorem C58_order (pf : String → Option α) (x : NetXml) (ds : List DefXml) (hp : x.definitions.Perm ds)
    (hn : (x.definitions.map DefXml.forVar).Nodup) : fromXml pf { x with definitions := ds } = fromXml pf x := by
  have hget : ∀ s, definitionFor ds s = definitionFor x.definitions s := by
    intro s
    unfold definitionFor
    have hn' : (ds.map DefXml.forVar).Nodup := (hp.map _).nodup_iff.1 hn
    ext d
    have key : ∀ {l : List DefXml}, (l.map DefXml.forVar).Nodup →
        (l.reverse.find? (fun d => d.forVar = s) = some d ↔ d ∈ l ∧ d.forVar = s) := by
      intro l hl
      constructor
      · intro h
        exact ⟨List.mem_reverse.1 (List.mem_of_find?_eq_some h), by simpa using List.find?_some h⟩
      · rintro ⟨h1, h2⟩
        cases hq : l.reverse.find? (fun d => d.forVar = s) with
        | none =>
          have := List.find?_eq_none.1 hq d (List.mem_reverse.2 h1)
          simp [h2] at this
        | some e =>
          have e1 := List.mem_reverse.1 (List.mem_of_find?_eq_some hq)
          have e2 : e.forVar = s := by simpa using List.find?_some hq
          rw [List.inj_on_of_nodup_map hl e1 h1 (by rw [e2, h2])]
    rw [key hn', key hn, hp.mem_iff]
  unfold fromXml
  have : xmlNode pf (xmlDefs ds) = xmlNode pf (xmlDefs x.definitions) := by
    funext v
    unfold xmlNode
    rw [xmlDefs_get, xmlDefs_get, hget]
  dsimp only
  rw [this]

theorem parseTable_cases (pf : String → Option α) (values : List String) :
    (∃ t, parseTable pf values = .ok t) ∨ Errors (parseTable pf values) := by
  unfold parseTable
  split
  · rcases (mapM_errors (f := parseValue pf) (l := values) (by
        intro s _
        unfold parseValue
        cases hs : pf s with
        | none => exact .inr ⟨_, rfl⟩
        | some x => exact .inl ⟨x, rfl⟩)).2 with ⟨ys, h⟩ | ⟨m, h⟩
    · rw [h]; exact .inl ⟨_, rfl⟩
    · rw [h]; exact .inr ⟨m, rfl⟩
  · exact .inl ⟨_, rfl⟩

theorem xmlNode_cases (pf : String → Option α) {ds : List DefXml} {v : VarXml} (hd : ∃ d ∈ ds, d.forVar = v.name) :
    (∃ e, xmlNode pf (xmlDefs ds) v = .ok e) ∨ Errors (xmlNode pf (xmlDefs ds) v) := by
  unfold xmlNode
  rw [xmlDefs_get]
  split
  · rename_i h
    obtain ⟨d, h1, h2⟩ := hd
    unfold definitionFor at h
    have := List.find?_eq_none.1 h d (List.mem_reverse.2 h1)
    simp [h2] at this
  · dsimp only
    split
    · exact .inr ⟨_, rfl⟩
    · rcases parsePosition_cases v.properties with ⟨p, h⟩ | ⟨m, h⟩
      · rw [h, ok_bind]
        split
        · exact .inr ⟨_, rfl⟩
        · rename_i d _ _ _ _ _
          rcases parseTable_cases pf (goFields d.table) with ⟨t, h⟩ | ⟨m, h⟩
          · rw [h]; exact .inl ⟨_, rfl⟩
          · rw [h]; exact .inr ⟨m, rfl⟩
      · rw [h]; exact .inr ⟨m, rfl⟩

/-- The mistakes in a variable's definition that have to be reported. -/
inductive XmlFault (pf : String → Option α) (ds : List DefXml) (v : VarXml) : Prop
  /-- The type is none of the documented ones. -/
  | type : v.type ≠ "" → v.type ≠ "nature" → v.type ≠ "decision" → v.type ≠ "utility" → XmlFault pf ds v
  /-- The number of values is not a multiple of the number of outcomes. -/
  | values (d : DefXml) (values : List String) : definitionFor ds v.name = some d → 0 < v.outcomes.length →
    Words d.table values → ¬ v.outcomes.length ∣ values.length → XmlFault pf ds v
  /-- A value is not a number. -/
  | number (d : DefXml) (values : List String) (s : String) : definitionFor ds v.name = some d → Words d.table values →
    s ∈ values → pf s = none → XmlFault pf ds v
  /-- A position is malformed. -/
  | position (pre post : List String) (s : String) : v.properties = pre ++ s :: post → BadPosition s → XmlFault pf ds v

theorem xmlNode_fault {pf : String → Option α} {ds : List DefXml} {v : VarXml} (hf : XmlFault pf ds v) :
    ∀ e, xmlNode pf (xmlDefs ds) v ≠ .ok e := by
  intro e he
  obtain ⟨d, d1, _, d3, _, _, _, d5, _, _, d8, d9, _⟩ := xmlNode_ok he
  cases hf with
  | type h1 h2 h3 h4 =>
    unfold nodeTypeOf at d3
    rw [if_neg h1, if_neg h2, if_neg h3, if_neg h4] at d3
    cases d3
  | values d' values h1 h2 h0 h3 =>
    rw [d1] at h1
    cases h1
    rw [← words_iff.2 h0] at h3
    exact h3 (d8 h2)
  | number d' values s h1 h0 h2 h3 =>
    rw [d1] at h1
    cases h1
    rw [← words_iff.2 h0] at h2
    have : none ∈ (goFields d.table).map pf := by rw [← h3]; exact List.mem_map_of_mem h2
    rw [d9] at this
    simp at this
  | position pre post s h1 h2 =>
    obtain ⟨m, hm⟩ := C59_malformed (pre := pre) (post := post) h2
    rw [h1, hm] at d5
    cases d5

/-- **C58, errors.** If every variable has a definition, loading a file ends with a network or an error, never with a
panic; it ends with an error if any variable has an unknown type, a malformed position, a number of values that does
not fit, or a value that is not a number. -/
theorem C58_errors_partial {pf : String → Option α} {x : NetXml}
    (hd : ∀ v ∈ x.variables, ∃ d ∈ x.definitions, d.forVar = v.name) :
    ((∃ n, fromXml pf x = .ok n) ∨ Errors (fromXml pf x)) ∧
    ((∃ v ∈ x.variables, XmlFault pf x.definitions v) → Errors (fromXml pf x)) := by
  have hcases : (∃ n, fromXml pf x = .ok n) ∨ Errors (fromXml pf x) := by
    unfold fromXml
    rcases (mapM_errors (l := x.variables) (fun v hv => xmlNode_cases pf (hd v hv))).2 with ⟨nodes, h⟩ | ⟨m, h⟩
    swap
    · rw [h]; exact .inr ⟨m, rfl⟩
    rw [h, ok_bind]
    obtain ⟨h1, h2⟩ := mapM_inv h
    have hnode : ∀ e ∈ nodes, e.1.factor = none ∧ e.2.forVar = e.1.name := by
      intro e he
      obtain ⟨i, hi⟩ := List.mem_iff_getElem?.1 he
      have hlt : i < x.variables.length := by
        rw [← h1]; exact (List.getElem?_eq_some_iff.1 hi).1
      obtain ⟨y, hy, hf⟩ := h2 i _ (List.getElem?_eq_getElem hlt)
      rw [hi] at hy
      cases hy
      obtain ⟨d, _, e1, _, _, _, hn, _, e2, _⟩ := xmlNode_ok hf
      exact ⟨hn, by rw [e1, e2]⟩
    obtain ⟨c1, c2⟩ := C35_new_partial x.name "" (nodes.map Prod.fst) (nodes.map Prod.snd) (by
      intro v hv
      obtain ⟨e, he, rfl⟩ := List.mem_map.1 hv
      exact (hnode e he).1)
    by_cases ha : Accepted (nodes.map Prod.fst) (nodes.map Prod.snd)
    · exact .inl (c1.2 ha)
    · refine .inr (c2 ?_ ha)
      intro v hv _ hnone
      obtain ⟨e, he, rfl⟩ := List.mem_map.1 hv
      unfold tableFor at hnone
      have := List.find?_eq_none.1 hnone e.2 (List.mem_map_of_mem he)
      simp [(hnode e he).2] at this
  refine ⟨hcases, ?_⟩
  rintro ⟨v, hv, hf⟩
  rcases hcases with ⟨n, hn⟩ | h
  swap
  · exact h
  exfalso
  unfold fromXml at hn
  cases hm : x.variables.mapM (xmlNode pf (xmlDefs x.definitions)) with
  | error e => rw [hm] at hn; cases hn
  | ok nodes =>
    obtain ⟨h1, h2⟩ := mapM_inv hm
    obtain ⟨i, hi⟩ := List.mem_iff_getElem?.1 hv
    obtain ⟨y, _, hy⟩ := h2 i v hi
    exact xmlNode_fault hf y hy

/-- **C58, refuted.** A variable without definition makes loading panic. -/
theorem C58_refuted (pf : String → Option α) :
    Panics (fromXml pf ⟨"n", [⟨"Rain", "nature", ["yes", "no"], []⟩], []⟩) := ⟨_, rfl⟩

/-- The text consisting of the given words, each followed by the given white space. -/
def wordsText : List (String × String) → String
  | [] => ""
  | (w, s) :: rest => w ++ s ++ wordsText rest

/-- **C58, words.** The values of a table are its words, whatever white space surrounds and separates them. -/
theorem C58_words {l : List (String × String)} (hl : ∀ e ∈ l, e.1 ≠ "" ∧ e.2 ≠ "" ∧
    (∀ c ∈ e.1.toList, ¬ White c) ∧ Blank e.2) {first last : String} (hfirst : Blank first)
    (hlast : ∀ c ∈ last.toList, ¬ White c) :
    goFields (first ++ wordsText l ++ last) = l.map Prod.fst ++ (if last = "" then [] else [last]) := by
  have e : (wordsText l).toList = spaced (l.map (fun e => (e.1.toList, e.2.toList))) := by
    clear hl
    induction l with
    | nil => rfl
    | cons e l ih =>
      obtain ⟨w, s⟩ := e
      rw [wordsText, String.toList_append, String.toList_append, ih]; rfl
  unfold goFields
  rw [String.toList_append, String.toList_append, List.append_assoc, fieldsChars_spaces (blank_space hfirst), e,
    fieldsChars_spaced _ _ (fun c hc => space_not (hlast c hc))]
  · rw [List.map_append, List.map_map, List.map_map]
    congr 1
    · apply List.map_congr_left
      intro e _
      exact String.ofList_toList
    · by_cases h : last = ""
      · subst h; rfl
      · rw [if_neg (by simpa using h), if_neg h]
        simp
  · intro e he
    obtain ⟨x, hx, rfl⟩ := List.mem_map.1 he
    obtain ⟨h1, h2, h3, h4⟩ := hl x hx
    exact ⟨by simpa using h1, by simpa using h2, fun c hc => space_not (h3 c hc), blank_space h4⟩

/-- A file whose definitions are in another order than its variables. -/
def Ex.xml : NetXml :=
  ⟨"n", [⟨"Rain", "nature", ["yes", "no"], ["position = (10, 24)"]⟩, ⟨"Grass", "", ["wet", "dry"], []⟩],
    [⟨"Grass", ["Rain"], " 9 1\n 3 7 "⟩, ⟨"Rain", [], "2 8"⟩]⟩

example : ∃ n : Net ℚ, fromXml (fun s => (goAtoi s).map (fun i => (i : ℚ))) Ex.xml = .ok n ∧
    n.factors.map NFactor.tab = [[2, 8], [9, 1, 3, 7]] ∧ n.variables.map NVar.position = [(5, 2), (0, 0)] := by
  have h : ∀ v ∈ Ex.xml.variables, ∃ d ∈ Ex.xml.definitions, d.forVar = v.name := by decide
  have hm : Ex.xml.variables.mapM (xmlNode (fun s => (goAtoi s).map (fun i => (i : ℚ))) (xmlDefs Ex.xml.definitions)) =
      .ok [(⟨"Rain", .chance, ["yes", "no"], (5, 2), "", none⟩, ⟨"Rain", [], some [2, 8], [], 0⟩),
        (⟨"Grass", .chance, ["wet", "dry"], (0, 0), "", none⟩, ⟨"Grass", ["Rain"], some [9, 1, 3, 7], [], 0⟩)] := by
    decide +kernel
  refine ⟨_, by unfold fromXml; rw [hm]; rfl, by decide +kernel, by decide +kernel⟩

/-! ## C57, loaded networks -/

/-- **C57, loading.** In a loaded network, each variable is as defined in the file, with its parents; its table is the
one of its definition. -/
theorem C57_loaded [Zero α] [One α] [Add α] [Div α] {lower : String → String} {y : NetYaml α} {h h' : LHeap α}
    (hr : LReach h) {n : Net α} (hn : fromYaml lower y h = (.ok n, h')) :
    n.name = y.name ∧ n.info = y.info ∧ n.variables.length = y.variables.length ∧
    n.factors.length = y.variables.length ∧
    ∀ (i : Nat) (v : VarYaml α), y.variables[i]? = some v → ∃ u f, n.variables[i]? = some u ∧ n.factors[i]? = some f ∧
      u.name = v.name ∧ KindText v.type u.nodeType ∧ u.outcomes = v.outcomes ∧ u.position = v.position ∧
      u.color = v.color ∧ f.forVar = v.name ∧ f.given = v.given ∧
      ∃ t, (toTable lower v initHeap).1 = .ok t ∧ t.getD [] = f.tab := by
  have key : ∀ (vs : List (VarYaml α)) {h h' : LHeap α} {vars : List NVar} {fs : List (NFactor α)}, LReach h →
      yamlNodes lower vs h = (.ok (vars, fs), h') → vars.length = vs.length ∧ fs.length = vs.length ∧
      (∀ v ∈ vars, v.factor = none) ∧
      ∀ (i : Nat) (v : VarYaml α), vs[i]? = some v → ∃ u f, vars[i]? = some u ∧ fs[i]? = some f ∧
        u.name = v.name ∧ nodeTypeOf v.type = some u.nodeType ∧ u.outcomes = v.outcomes ∧ u.position = v.position ∧
        u.color = v.color ∧ f.forVar = v.name ∧ f.given = v.given ∧ (toTable lower v initHeap).1 = .ok f.table := by
    intro vs
    induction vs with
    | nil =>
      intro h h' vars fs _ e
      rw [yamlNodes] at e
      cases e
      exact ⟨rfl, rfl, by simp, by simp⟩
    | cons v vs ih =>
      intro h h' vars fs hr e
      rw [yamlNodes] at e
      cases htp : nodeTypeOf v.type with
      | none => rw [htp] at e; cases e
      | some tp =>
        rw [htp] at e
        dsimp only at e
        obtain ⟨a1, a2⟩ := toTable_reach lower v hr
        generalize toTable lower v h = r at a1 a2 e
        obtain ⟨r, h⟩ := r
        dsimp only at a1 a2
        cases r with
        | error e' => cases e
        | ok t =>
          dsimp only at e
          cases hs : yamlNodes lower vs h with
          | mk s h1 =>
          rw [hs] at e
          cases s with
          | error e' => cases e
          | ok p =>
            obtain ⟨vars', fs'⟩ := p
            cases e
            obtain ⟨i1, i2, i3, i4⟩ := ih a2 hs
            refine ⟨by simp [i1], by simp [i2], ?_, ?_⟩
            · intro u hu
              rcases List.mem_cons.1 hu with rfl | hu
              · rfl
              · exact i3 u hu
            · intro i w hw
              cases i with
              | zero =>
                simp only [List.getElem?_cons_zero, Option.some.injEq] at hw
                subst hw
                exact ⟨_, _, rfl, rfl, rfl, htp, rfl, rfl, rfl, rfl, rfl, a1.symm⟩
              | succ i =>
                rw [List.getElem?_cons_succ] at hw
                obtain ⟨u, f, h⟩ := i4 i w hw
                exact ⟨u, f, by simpa using h⟩
  unfold fromYaml at hn
  cases hs : yamlNodes lower y.variables h with
  | mk s h1 =>
  rw [hs] at hn
  cases s with
  | error e' => cases hn
  | ok p =>
    obtain ⟨vars, fs⟩ := p
    dsimp only at hn
    obtain ⟨i1, i2, i3, i4⟩ := key y.variables hr hs
    rw [Prod.mk.injEq] at hn
    have hb := C35_new_result _ _ _ _ i3 hn.1
    refine ⟨hb.sameName, hb.sameInfo, by rw [hb.links]; simp [i1], ?_, ?_⟩
    · have := congrArg List.length hb.tables
      simpa [i2] using this
    · intro i v hv
      obtain ⟨u, f, h1, h2, h3, h4, h5, h6, h7, h8, h9, h10⟩ := i4 i v hv
      obtain ⟨u', u1, u2, u3, u4, u5, u6⟩ := hb.variable_at h1
      obtain ⟨g, g1, g2⟩ := hb.factor_at h2
      obtain ⟨c1, c2, c3⟩ := core_parts g2
      exact ⟨u', g, u1, g1, by rw [u2, h3], kind_iff.1 (by rw [h4, u3]), by rw [u4, h5], by rw [u5, h6], by rw [u6, h7],
        by rw [c1, h8], by rw [c2, h9], f.table, h10, c3.symm⟩

end Bbn
