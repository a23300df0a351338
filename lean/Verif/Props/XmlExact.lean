import Verif.Props.Xml

/-!
# Loading BIF-XML: exactly when it succeeds, fails and panics (C58, C59)
-/

set_option autoImplicit false

namespace Bbn

variable {α : Type}

/-! ## C59 -/

theorem parseProperty_error {pos : Int × Int} {s : String} (h : Errors (parseProperty pos s)) : BadPosition s := by
  obtain ⟨m, h⟩ := h
  unfold parseProperty at h
  split at h
  · rename_i key value e
    obtain ⟨e1, e2, e3⟩ := goSplit_pair e
    split at h
    · cases h
    · rename_i hk
      refine ⟨key, value, e1, e2, e3, trimmed_iff.1 (by simpa using hk), ?_⟩
      rintro ⟨inner, pair, p, q, p', q', x, y, h1, h2, h3, h4, h5, h6, h7, h8, h9⟩
      rw [trimmed_iff.2 h1, unwrapped_iff.2 h2, h3,
        show p ++ "," ++ q = p ++ String.singleton ',' ++ q from rfl, goSplit_two h4 h5] at h
      dsimp only at h
      rw [trimmed_iff.2 h6, trimmed_iff.2 h7, goAtoi_iff.2 h8] at h
      dsimp only at h
      rw [goAtoi_iff.2 h9] at h
      cases h
  · cases h

/-- A position property with two integers, and the cell of the terminal that it describes. -/
def GoodPosition (s : String) (cell : Int × Int) : Prop :=
  ∃ key value inner pair p q p' q' x y, s = key ++ "=" ++ value ∧ '=' ∉ key.toList ∧ '=' ∉ value.toList ∧
    Trimmed key "position" ∧ Trimmed value inner ∧ Unwrapped inner pair ∧ pair = p ++ "," ++ q ∧ ',' ∉ p.toList ∧
    ',' ∉ q.toList ∧ Trimmed p p' ∧ Trimmed q q' ∧ IntText p' x ∧ IntText q' y ∧ cell = (x.tdiv 2, y.tdiv 12)

/-- The cell that the properties of a variable describe: that of the last position. No position may be malformed. -/
def CellOf (properties : List String) (cell : Int × Int) : Prop :=
  (∀ s ∈ properties, ¬ BadPosition s) ∧
  (((∀ s ∈ properties, OtherProperty s) ∧ cell = (0, 0)) ∨
    ∃ pre s post, properties = pre ++ s :: post ∧ GoodPosition s cell ∧ ∀ t ∈ post, OtherProperty t)

theorem parseProperty_good {s : String} {cell : Int × Int} (h : GoodPosition s cell) (pos : Int × Int) :
    parseProperty pos s = .ok cell := by
  obtain ⟨key, value, inner, pair, p, q, p', q', x, y, rfl, e1, e2, e3, h1, h2, h3, h4, h5, h6, h7, h8, h9, rfl⟩ := h
  unfold parseProperty
  rw [show key ++ "=" ++ value = key ++ String.singleton '=' ++ value from rfl, goSplit_two e1 e2]
  dsimp only
  rw [if_neg (by rw [trimmed_iff.2 e3]; simp)]
  rw [trimmed_iff.2 h1, unwrapped_iff.2 h2, h3,
    show p ++ "," ++ q = p ++ String.singleton ',' ++ q from rfl, goSplit_two h4 h5]
  dsimp only
  rw [trimmed_iff.2 h6, trimmed_iff.2 h7, goAtoi_iff.2 h8]
  dsimp only
  rw [goAtoi_iff.2 h9]

theorem parseProperty_ok {s : String} {pos cell : Int × Int} (h : parseProperty pos s = .ok cell) :
    (OtherProperty s ∧ cell = pos) ∨ GoodPosition s cell := by
  unfold parseProperty at h
  split at h
  · rename_i key value e
    obtain ⟨e1, e2, e3⟩ := goSplit_pair e
    split at h
    · rename_i hk
      cases h
      exact .inl ⟨.inr ⟨key, value, e1, e2, e3, _, trimmed_iff.1 rfl, hk⟩, rfl⟩
    · rename_i hk
      split at h
      · rename_i a b e'
        obtain ⟨e1', e2', e3'⟩ := goSplit_pair e'
        split at h
        · cases h
        rename_i x hx
        split at h
        · cases h
        rename_i y hy
        cases h
        exact .inr ⟨key, value, _, _, a, b, _, _, x, y, e1, e2, e3, trimmed_iff.1 (by simpa using hk), trimmed_iff.1 rfl,
          unwrapped_iff.1 rfl, e1', e2', e3', trimmed_iff.1 rfl, trimmed_iff.1 rfl, goAtoi_iff.1 hx, goAtoi_iff.1 hy, rfl⟩
      · cases h
  · rename_i hne
    cases h
    refine .inl ⟨.inl ?_, rfl⟩
    intro hc
    have hl : (goSplit s '=').length = 2 := by
      unfold goSplit; rw [List.length_map, splitChars_length, hc]
    obtain ⟨a, b, hab⟩ := List.length_eq_two.1 hl
    exact hne a b hab

theorem parseProperties_ok : ∀ {l : List String} {pos cell : Int × Int}, l.foldlM parseProperty pos = .ok cell →
    ((∀ s ∈ l, OtherProperty s) ∧ cell = pos) ∨
      ∃ pre s post, l = pre ++ s :: post ∧ GoodPosition s cell ∧ ∀ t ∈ post, OtherProperty t := by
  intro l
  induction l with
  | nil => intro pos cell h; cases h; exact .inl ⟨by simp, rfl⟩
  | cons s l ih =>
    intro pos cell h
    rw [List.foldlM_cons] at h
    cases hs : parseProperty pos s with
    | error e => rw [hs] at h; cases h
    | ok p =>
      rw [hs, ok_bind] at h
      rcases ih h with ⟨h1, rfl⟩ | ⟨pre, t, post, rfl, h2, h3⟩
      · rcases parseProperty_ok hs with ⟨h4, rfl⟩ | h4
        · refine .inl ⟨?_, rfl⟩
          intro t ht
          rcases List.mem_cons.1 ht with rfl | ht
          · exact h4
          · exact h1 t ht
        · exact .inr ⟨[], s, l, rfl, h4, h1⟩
      · exact .inr ⟨s :: pre, t, post, rfl, h2, h3⟩

/-- **C59, exactly.** The position read is that which the properties describe: the last one, or the origin if there is none.
If one of the properties is a malformed position, the result is an error, and only then. -/
theorem C59_exact (properties : List String) :
    (∀ cell, parsePosition properties = .ok cell ↔ CellOf properties cell) ∧
    (Errors (parsePosition properties) ↔ ∃ s ∈ properties, BadPosition s) ∧ ¬ Panics (parsePosition properties) := by
  have hbad : Errors (parsePosition properties) ↔ ∃ s ∈ properties, BadPosition s := by
    constructor
    · unfold parsePosition
      generalize ((0, 0) : Int × Int) = pos
      induction properties generalizing pos with
      | nil => rintro ⟨m, h⟩; cases h
      | cons s l ih =>
        rw [List.foldlM_cons]
        rcases parseProperty_cases pos s with ⟨p, h⟩ | h
        · rw [h, ok_bind]
          intro he
          obtain ⟨t, ht, hb⟩ := ih p he
          exact ⟨t, List.mem_cons_of_mem _ ht, hb⟩
        · intro _
          exact ⟨s, List.mem_cons_self, parseProperty_error h⟩
    · rintro ⟨s, hs, hb⟩
      obtain ⟨pre, post, rfl⟩ := List.append_of_mem hs
      exact C59_malformed hb
  refine ⟨fun cell => ⟨fun h => ⟨?_, parseProperties_ok h⟩, ?_⟩, hbad, ?_⟩
  · intro s hs hb
    obtain ⟨m, hm⟩ := hbad.2 ⟨s, hs, hb⟩
    rw [h] at hm; cases hm
  · rintro ⟨hb, ⟨ho, rfl⟩ | ⟨pre, s, post, rfl, hg, ho⟩⟩
    · exact foldlM_other ho _
    · have hpre : ∃ p, parsePosition pre = .ok p := by
        rcases parsePosition_cases (pre ++ s :: post) with ⟨p, hp⟩ | he
        · unfold parsePosition at hp ⊢
          rw [List.foldlM_append] at hp
          cases h : pre.foldlM parseProperty (0, 0) with
          | ok p => exact ⟨p, rfl⟩
          | error e => rw [h] at hp; cases hp
        · obtain ⟨t, ht, hbt⟩ := hbad.1 he
          exact absurd hbt (hb t ht)
      obtain ⟨p, hp⟩ := hpre
      unfold parsePosition at hp ⊢
      rw [List.foldlM_append, hp, ok_bind, List.foldlM_cons, parseProperty_good hg, ok_bind, foldlM_other ho]
  · rintro ⟨m, hm⟩
    rcases parsePosition_cases properties with ⟨p, hp⟩ | ⟨m', hp⟩ <;> rw [hm] at hp <;> cases hp

/-- A position with one number only. -/
example : Errors (parsePosition ["color = red", "position = (3)"]) :=
  (C59_exact _).2.1.2 ⟨"position = (3)", by simp, "position ", " (3)", rfl, by decide, by decide, trimmed_iff.1 (by decide), by
    rintro ⟨inner, pair, p, q, p', q', x, y, h1, h2, h3, _⟩
    have e1 : inner = "(3)" := (trimmed_iff.2 h1).symm.trans (by decide)
    subst e1
    have e2 : pair = "3" := (unwrapped_iff.2 h2).symm.trans (by decide)
    subst e2
    have : ',' ∈ ("3" : String).toList := by rw [h3]; simp
    exact absurd this (by decide)⟩

/-! ## C58 -/

/-- The variable and the table that a file describes with an entry: the table is that of the last definition for the name.
Its values are the words of the definition, all of them numbers; their number fits the number of outcomes. -/
def XmlEntry (pf : String → Option α) (ds : List DefXml) (v : VarXml) (u : NVar) (f : NFactor α) : Prop :=
  ∃ d values position type table, definitionFor ds v.name = some d ∧ Words d.table values ∧
    (0 < v.outcomes.length → v.outcomes.length ∣ values.length) ∧ values.map pf = table.map some ∧
    CellOf v.properties position ∧ KindText v.type type ∧
    u = ⟨v.name, type, v.outcomes, position, "", none⟩ ∧
    f = ⟨v.name, d.given, if values = [] then none else some table, [], 0⟩

theorem mapM_parse {pf : String → Option α} : ∀ {values : List String} {t : List α}, values.map pf = t.map some →
    values.mapM (parseValue pf) = .ok t := by
  intro values
  induction values with
  | nil =>
    intro t h
    have : t = [] := by simpa using h.symm
    subst this; rfl
  | cons s l ih =>
    intro t h
    cases t with
    | nil => simp at h
    | cons x t =>
      simp only [List.map_cons, List.cons.injEq] at h
      rw [List.mapM_cons, ih h.2]
      unfold parseValue
      rw [h.1]; rfl

theorem xmlNode_iff {pf : String → Option α} {ds : List DefXml} {v : VarXml} {u : NVar} {f : NFactor α} :
    xmlNode pf (xmlDefs ds) v = .ok (u, f) ↔ XmlEntry pf ds v u f := by
  constructor
  · intro h
    unfold xmlNode at h
    rw [xmlDefs_get] at h
    split at h
    · cases h
    rename_i d hd
    dsimp only at h
    split at h
    · cases h
    rename_i hc
    cases hp : parsePosition v.properties with
    | error e => rw [hp] at h; cases h
    | ok pos =>
      rw [hp, ok_bind] at h
      split at h
      · cases h
      rename_i tp htp
      cases ht : parseTable pf (goFields d.table) with
      | error e => rw [ht] at h; cases h
      | ok t =>
        rw [ht, ok_bind] at h
        cases h
        obtain ⟨t1, t2⟩ := parseTable_ok ht
        refine ⟨d, _, pos, tp, t.getD [], hd, words_iff.1 rfl, ?_, t1, ((C59_exact _).1 _).1 hp, kind_iff.1 htp, rfl, ?_⟩
        · intro h0
          by_contra hnd
          exact hc ⟨h0, fun e => hnd (Nat.dvd_of_mod_eq_zero e)⟩
        · cases t with
          | none => rw [if_pos (t2.1 rfl)]
          | some t => rw [if_neg (fun e => by have := t2.2 e; cases this)]; rfl
  · rintro ⟨d, values, pos, tp, table, hd, hw, hdiv, hv, hp, hk, rfl, rfl⟩
    obtain rfl := words_iff.2 hw
    unfold xmlNode
    rw [xmlDefs_get, hd]
    dsimp only
    rw [if_neg (by rintro ⟨h1, h2⟩; exact h2 (Nat.mod_eq_zero_of_dvd (hdiv h1))), ((C59_exact _).1 _).2 hp, ok_bind, kind_iff.2 hk]
    dsimp only
    unfold parseTable
    split
    · rename_i hl
      rw [mapM_parse hv, ok_bind]
      rw [if_neg (List.length_pos_iff.1 hl)]; rfl
    · rename_i hl
      rw [if_pos (by simpa using hl)]; rfl

/-- Every variable has a definition, and no mistake. -/
theorem xmlNode_sound {pf : String → Option α} {ds : List DefXml} {v : VarXml} :
    (∃ e, xmlNode pf (xmlDefs ds) v = .ok e) ↔ (∃ d ∈ ds, d.forVar = v.name) ∧ ¬ XmlFault pf ds v := by
  constructor
  · rintro ⟨e, he⟩
    refine ⟨?_, fun hf => xmlNode_fault hf e he⟩
    obtain ⟨d, h, _⟩ := xmlNode_ok he
    unfold definitionFor at h
    exact ⟨d, List.mem_reverse.1 (List.mem_of_find?_eq_some h), by simpa using List.find?_some h⟩
  · rintro ⟨hd, hf⟩
    rcases xmlNode_cases pf hd with h | ⟨m, h⟩
    · exact h
    exfalso
    unfold xmlNode at h
    rw [xmlDefs_get] at h
    split at h
    · cases h
    rename_i d hd
    dsimp only at h
    split at h
    · rename_i hc
      exact hf (.values d _ hd hc.1 (words_iff.1 rfl) (fun e => hc.2 (Nat.mod_eq_zero_of_dvd e)))
    · rcases parsePosition_cases v.properties with ⟨p, hp⟩ | hp
      · rw [hp, ok_bind] at h
        split at h
        · rename_i ht
          refine hf (.type ?_ ?_ ?_ ?_) <;> intro e <;> rw [e] at ht <;> revert ht <;> decide
        · by_cases hn : ∃ s ∈ goFields d.table, pf s = none
          · obtain ⟨s, hs, hn⟩ := hn
            exact hf (.number d _ s hd (words_iff.1 rfl) hs hn)
          · have hall : ∃ t : List α, (goFields d.table).map pf = t.map some := by
              push Not at hn
              generalize goFields d.table = l at hn
              induction l with
              | nil => exact ⟨[], rfl⟩
              | cons s l ih =>
                obtain ⟨t, ht⟩ := ih (fun x hx => hn x (List.mem_cons_of_mem _ hx))
                obtain ⟨y, hy⟩ := Option.ne_none_iff_exists'.1 (hn s List.mem_cons_self)
                exact ⟨y :: t, by rw [List.map_cons, List.map_cons, hy, ht]⟩
            obtain ⟨t, ht⟩ := hall
            unfold parseTable at h
            split at h
            · rw [mapM_parse ht] at h; cases h
            · cases h
      · obtain ⟨s, hs, hb⟩ := (C59_exact v.properties).2.1.1 hp
        obtain ⟨pre, post, e⟩ := List.append_of_mem hs
        exact hf (.position pre post s e hb)

/-- **C58, exactly when a file is loaded.** A file is loaded exactly if its entries describe variables and tables that `New`
accepts. -/
theorem C58_loads (pf : String → Option α) (x : NetXml) :
    (∃ n, fromXml pf x = .ok n) ↔
      ∃ (vars : List NVar) (factors : List (NFactor α)), vars.length = x.variables.length ∧
        factors.length = x.variables.length ∧
        (∀ (i : Nat) (v : VarXml), x.variables[i]? = some v → ∃ u f, vars[i]? = some u ∧ factors[i]? = some f ∧
          XmlEntry pf x.definitions v u f) ∧ Accepted vars factors := by
  have hptr : ∀ {nodes : List (NVar × NFactor α)}, x.variables.mapM (xmlNode pf (xmlDefs x.definitions)) = .ok nodes →
      ∀ v ∈ nodes.map Prod.fst, v.factor = none := by
    intro nodes hm u hu
    obtain ⟨h1, h2⟩ := mapM_inv hm
    obtain ⟨e, he, rfl⟩ := List.mem_map.1 hu
    obtain ⟨i, hi⟩ := List.mem_iff_getElem?.1 he
    have hlt : i < x.variables.length := by
      rw [← h1]; exact (List.getElem?_eq_some_iff.1 hi).1
    obtain ⟨y, hy, hf⟩ := h2 i _ (List.getElem?_eq_getElem hlt)
    rw [hi] at hy
    cases hy
    obtain ⟨_, _, _, _, _, _, hn, _⟩ := xmlNode_ok hf
    exact hn
  constructor
  · rintro ⟨n, h⟩
    unfold fromXml at h
    cases hm : x.variables.mapM (xmlNode pf (xmlDefs x.definitions)) with
    | error e => rw [hm] at h; cases h
    | ok nodes =>
      rw [hm, ok_bind] at h
      obtain ⟨h1, h2⟩ := mapM_inv hm
      refine ⟨nodes.map Prod.fst, nodes.map Prod.snd, by simpa using h1, by simpa using h1, ?_,
        (C35_new_partial _ _ _ _ (hptr hm)).1.1 ⟨n, h⟩⟩
      intro i v hv
      obtain ⟨⟨u, f⟩, hy, hf⟩ := h2 i v hv
      exact ⟨u, f, by rw [List.getElem?_map, hy]; rfl, by rw [List.getElem?_map, hy]; rfl, xmlNode_iff.1 hf⟩
  · rintro ⟨vars, factors, l1, l2, hent, hacc⟩
    have hm : x.variables.mapM (xmlNode pf (xmlDefs x.definitions)) = .ok (vars.zip factors) := by
      generalize x.variables = xs at l1 l2 hent
      clear hptr hacc
      induction xs generalizing vars factors with
      | nil =>
        have : vars = [] := List.length_eq_zero_iff.1 (by simpa using l1)
        subst this; rfl
      | cons v xs ih =>
        cases vars with
        | nil => simp at l1
        | cons u vars =>
          cases factors with
          | nil => simp at l2
          | cons f factors =>
            obtain ⟨u', f', e1, e2, he⟩ := hent 0 v rfl
            cases e1; cases e2
            rw [List.mapM_cons, xmlNode_iff.2 he, ok_bind, ih vars factors (by simpa using l1) (by simpa using l2)
              (fun i w hw => hent (i + 1) w hw)]
            rfl
    have hp := hptr hm
    unfold fromXml
    rw [hm, ok_bind]
    have e1 : (vars.zip factors).map Prod.fst = vars := List.map_fst_zip (by omega)
    have e2 : (vars.zip factors).map Prod.snd = factors := List.map_snd_zip (by omega)
    rw [e1] at hp
    rw [e1, e2]
    exact (C35_new_partial _ _ _ _ hp).1.2 hacc

theorem mapM_first {β γ : Type} {f : β → Except Fault γ} : ∀ {l : List β} {m : Fault}, l.mapM f = .error m →
    ∃ pre x post, l = pre ++ x :: post ∧ (∀ y ∈ pre, ∃ z, f y = .ok z) ∧ f x = .error m := by
  intro l
  induction l with
  | nil => intro m h; cases h
  | cons a l ih =>
    intro m h
    rw [List.mapM_cons] at h
    cases ha : f a with
    | error e =>
      rw [ha] at h
      cases h
      exact ⟨[], a, l, rfl, by simp, ha⟩
    | ok b =>
      rw [ha, ok_bind] at h
      cases hl : l.mapM f with
      | ok ys => rw [hl] at h; cases h
      | error e =>
        rw [hl] at h
        cases h
        obtain ⟨pre, x, post, rfl, h1, h2⟩ := ih hl
        refine ⟨a :: pre, x, post, rfl, ?_, h2⟩
        intro y hy
        rcases List.mem_cons.1 hy with rfl | hy
        · exact ⟨b, ha⟩
        · exact h1 y hy

theorem mapM_at {β γ : Type} {f : β → Except Fault γ} : ∀ {pre post : List β} {x : β} {m : Fault},
    (∀ y ∈ pre, ∃ z, f y = .ok z) → f x = .error m → (pre ++ x :: post).mapM f = .error m := by
  intro pre
  induction pre with
  | nil =>
    intro post x m _ h
    rw [List.nil_append, List.mapM_cons, h]; rfl
  | cons a pre ih =>
    intro post x m h1 h2
    obtain ⟨z, hz⟩ := h1 a List.mem_cons_self
    rw [List.cons_append, List.mapM_cons, hz, ok_bind, ih (fun y hy => h1 y (List.mem_cons_of_mem _ hy)) h2]
    rfl

/-- **C58, exactly when loading panics.** Loading a file panics exactly if there is a variable without definition, and all
variables before it have one, without mistakes. -/
theorem C58_panics_partial (pf : String → Option α) (x : NetXml) :
    Panics (fromXml pf x) ↔ ∃ pre v post, x.variables = pre ++ v :: post ∧
      (∀ u ∈ pre, (∃ d ∈ x.definitions, d.forVar = u.name) ∧ ¬ XmlFault pf x.definitions u) ∧
      ¬ ∃ d ∈ x.definitions, d.forVar = v.name := by
  have hmiss : ∀ {v : VarXml}, (¬ ∃ d ∈ x.definitions, d.forVar = v.name) →
      Panics (xmlNode pf (xmlDefs x.definitions) v) := by
    intro v hv
    unfold xmlNode
    rw [xmlDefs_get]
    have : definitionFor x.definitions v.name = none := by
      unfold definitionFor
      rw [List.find?_eq_none]
      intro d hd
      simp only [decide_eq_true_eq]
      exact fun e => hv ⟨d, List.mem_reverse.1 hd, e⟩
    rw [this]
    exact ⟨_, rfl⟩
  constructor
  · rintro ⟨m, h⟩
    cases hm : x.variables.mapM (xmlNode pf (xmlDefs x.definitions)) with
    | ok nodes =>
      exfalso
      obtain ⟨_, h2⟩ := mapM_inv hm
      have hd : ∀ v ∈ x.variables, ∃ d ∈ x.definitions, d.forVar = v.name := by
        intro v hv
        obtain ⟨i, hi⟩ := List.mem_iff_getElem?.1 hv
        obtain ⟨y, _, hy⟩ := h2 i v hi
        exact (xmlNode_sound.1 ⟨y, hy⟩).1
      rcases (C58_errors_partial (pf := pf) hd).1 with ⟨n, hn⟩ | ⟨m', hn⟩ <;> rw [h] at hn <;> cases hn
    | error e =>
      unfold fromXml at h
      rw [hm] at h
      cases h
      obtain ⟨pre, v, post, e1, e2, e3⟩ := mapM_first hm
      refine ⟨pre, v, post, e1, fun u hu => xmlNode_sound.1 (e2 u hu), ?_⟩
      intro hd
      rcases xmlNode_cases pf hd with ⟨y, hy⟩ | ⟨m', hy⟩ <;> rw [e3] at hy <;> cases hy
  · rintro ⟨pre, v, post, e1, e2, e3⟩
    obtain ⟨m, hm⟩ := hmiss e3
    refine ⟨m, ?_⟩
    unfold fromXml
    rw [e1, mapM_at (fun u hu => xmlNode_sound.2 (e2 u hu)) hm]
    rfl

/-- Two positions: the last one counts. -/
example : CellOf ["position = (200, 12)", "color = red", "position = (-100, 36)"] (-50, 3) :=
  ((C59_exact _).1 _).1 (by decide +kernel)

/-- The example file of C58 is loaded. -/
example : ∃ (vars : List NVar) (factors : List (NFactor ℚ)), vars.length = 2 ∧ factors.length = 2 ∧ Accepted vars factors := by
  have hm : Ex.xml.variables.mapM (xmlNode (fun s => (goAtoi s).map (fun i => (i : ℚ))) (xmlDefs Ex.xml.definitions)) =
      .ok [(⟨"Rain", .chance, ["yes", "no"], (5, 2), "", none⟩, ⟨"Rain", [], some [2, 8], [], 0⟩),
        (⟨"Grass", .chance, ["wet", "dry"], (0, 0), "", none⟩, ⟨"Grass", ["Rain"], some [9, 1, 3, 7], [], 0⟩)] := by
    decide +kernel
  obtain ⟨vars, factors, h1, h2, _, h3⟩ := (C58_loads (fun s => (goAtoi s).map (fun i => (i : ℚ))) Ex.xml).1
    ⟨_, by unfold fromXml; rw [hm]; rfl⟩
  exact ⟨vars, factors, h1, h2, h3⟩

/-- A file with two variables, the second of which has no definition. -/
example : Panics (fromXml (fun s => if s = "1" then some 1 else if s = "4" then some 4 else none) ⟨"n", [⟨"Rain", "nature", ["yes", "no"], []⟩, ⟨"Grass", "nature", ["wet", "dry"], []⟩],
    [⟨"Rain", [], "1 4"⟩]⟩) :=
  (C58_panics_partial _ _).2 ⟨[⟨"Rain", "nature", ["yes", "no"], []⟩], ⟨"Grass", "nature", ["wet", "dry"], []⟩, [], rfl, by
    intro u hu
    rw [List.mem_singleton] at hu
    subst hu
    exact xmlNode_sound.1 ⟨(⟨"Rain", .chance, ["yes", "no"], (0, 0), "", none⟩, ⟨"Rain", [], some [1, 4], [], 0⟩), by
      decide +kernel⟩, by decide⟩

end Bbn
