import Verif.Spec.TrainCsv
import Verif.Lemmas.NetVars
import Verif.Props.TrainExamples

/-!
# Training from a CSV file
-/

set_option autoImplicit false

namespace Bbn

variable {α : Type}

/-- The entry of the outcome map: the last position at which the outcome is listed, counted from `k`. -/
theorem outcomeMap_spec (noData : String) : ∀ (l : List String) (k : Nat) (m : List (String × Int)), noData ∉ l →
    ∃ m', outcomeMap noData (l.zipIdx k) m = some m' ∧ ∀ s,
      (s = noData → mapGet m' s = some (-1)) ∧
      (s ≠ noData → s ∉ l → mapGet m' s = mapGet m s) ∧
      (s ∈ l → ∃ i < l.length, mapGet m' s = some ((k + i : Nat) : Int) ∧ l[i]? = some s) := by
  intro l
  induction l with
  | nil =>
    intro k m _
    refine ⟨mapSet m noData (-1), rfl, fun s => ⟨?_, ?_, by simp⟩⟩
    · rintro rfl; rw [mapGet_mapSet, if_pos rfl]
    · intro h _; rw [mapGet_mapSet, if_neg h]
  | cons o l ih =>
    intro k m hno
    rw [List.mem_cons, not_or] at hno
    obtain ⟨m', h1, h2⟩ := ih (k + 1) (mapSet m o k) hno.2
    refine ⟨m', ?_, ?_⟩
    · rw [List.zipIdx_cons, outcomeMap, if_neg (fun h => hno.1 h.symm)]
      exact h1
    · intro s
      obtain ⟨a, b, c⟩ := h2 s
      refine ⟨a, ?_, ?_⟩
      · intro hs hl
        rw [List.mem_cons, not_or] at hl
        rw [b hs hl.2, mapGet_mapSet, if_neg hl.1]
      · intro hs
        by_cases hl : s ∈ l
        · obtain ⟨i, hi, e, g⟩ := c hl
          refine ⟨i + 1, by simp [hi], ?_, by simpa using g⟩
          rw [e]; congr 2; omega
        · have : s = o := by rcases List.mem_cons.1 hs with h | h; exacts [h, absurd h hl]
          subst this
          refine ⟨0, by simp, ?_, by simp⟩
          rw [b (fun h => hno.1 h.symm) hl, mapGet_mapSet, if_pos rfl]
          simp

theorem outcomeMap_none (noData : String) : ∀ (l : List String) (k : Nat) (m : List (String × Int)), noData ∈ l →
    outcomeMap noData (l.zipIdx k) m = none := by
  intro l
  induction l with
  | nil => simp
  | cons o l ih =>
    intro k m h
    rw [List.zipIdx_cons, outcomeMap]
    split_ifs with ho
    · rfl
    · exact ih _ _ (by rcases List.mem_cons.1 h with h | h; exacts [absurd h.symm ho, h])

/-- The outcome maps of the variables. -/
def OutcomeMapOf (noData : String) (v : NVar) (m : List (String × Int)) : Prop :=
  ∀ s, (s = noData → mapGet m s = some (-1)) ∧ (s ≠ noData → s ∉ v.outcomes → mapGet m s = none) ∧
    (s ∈ v.outcomes → ∃ i < v.outcomes.length, mapGet m s = some (i : Int) ∧ v.outcomes[i]? = some s)

theorem prepareNode_spec (header : List String) (noData : String) (v : NVar) :
    (v.name ∈ header ∧ noData ∉ v.outcomes ∧ ∃ m, prepareNode header noData v = .ok (header.idxOf v.name, m) ∧
      OutcomeMapOf noData v m) ∨
    ((v.name ∉ header ∨ noData ∈ v.outcomes) ∧ Errors (prepareNode header noData v)) := by
  unfold prepareNode
  by_cases h1 : v.name ∈ header
  · rw [slicesIndex_idxOf h1]
    dsimp only
    by_cases h2 : noData ∈ v.outcomes
    · rw [outcomeMap_none noData _ 0 [] h2]
      exact .inr ⟨.inr h2, _, rfl⟩
    · obtain ⟨m, e, h⟩ := outcomeMap_spec noData v.outcomes 0 [] h2
      rw [e]
      refine .inl ⟨h1, h2, m, rfl, fun s => ⟨(h s).1, (h s).2.1, fun hs => ?_⟩⟩
      obtain ⟨i, hi, e, g⟩ := (h s).2.2 hs
      exact ⟨i, hi, by simpa using e, g⟩
  · rw [slicesIndex_none.2 h1]
    exact .inr ⟨.inl h1, _, rfl⟩

/-- The columns found by `prepare`. -/
def ColsOf (header : List String) (noData : String) (vs : List NVar) (cols : List (Nat × List (String × Int))) : Prop :=
  List.Forall₂ (fun v c => v.name ∈ header ∧ noData ∉ v.outcomes ∧ c.1 = header.idxOf v.name ∧ OutcomeMapOf noData v c.2)
    vs cols

theorem prepare_spec (header : List String) (noData : String) : ∀ (vs : List NVar),
    (∃ cols, vs.mapM (prepareNode header noData) = .ok cols ∧ ColsOf header noData vs cols) ∨
    ((∃ v ∈ vs, v.name ∉ header ∨ noData ∈ v.outcomes) ∧ Errors (vs.mapM (prepareNode header noData))) := by
  intro vs
  induction vs with
  | nil => exact .inl ⟨[], rfl, .nil⟩
  | cons v vs ih =>
    rw [List.mapM_cons]
    rcases prepareNode_spec header noData v with ⟨h1, h2, m, e, hm⟩ | ⟨h, m, e⟩
    · rw [e, ok_bind]
      rcases ih with ⟨cols, e', hc⟩ | ⟨⟨u, hu, hb⟩, m', e'⟩
      · rw [e']
        exact .inl ⟨_, rfl, .cons ⟨h1, h2, rfl, hm⟩ hc⟩
      · rw [e']
        exact .inr ⟨⟨u, List.mem_cons_of_mem _ hu, hb⟩, m', rfl⟩
    · rw [e]
      exact .inr ⟨⟨v, by simp, h⟩, m, rfl⟩

theorem csvCell_get {header record : List String} {name : String} (hl : record.length = header.length)
    (h : name ∈ header) : goGet record (header.idxOf name) = .ok (csvCell header record name) := by
  rw [goGet_eq]
  have : header.idxOf name < record.length := by rw [hl]; exact List.idxOf_lt_length_of_mem h
  unfold csvCell
  rw [List.getD_eq_getElem?_getD]
  simp [this]

/-- What is read from a cell, in any case. -/
theorem readCell_spec [Zero α] (pf : String → Option (Option α)) {header record : List String} {noData : String} {v : NVar}
    {c : Nat × List (String × Int)} (hl : record.length = header.length) (hn : v.name ∈ header)
    (hc : c.1 = header.idxOf v.name) (hm : OutcomeMapOf noData v c.2) :
    (v.nodeType = .utility → (∃ u, pf (csvCell header record v.name) = some u ∧ readCell pf record v c = .ok (0, u)) ∨
      (pf (csvCell header record v.name) = none ∧ Errors (readCell pf record v c))) ∧
    (v.nodeType ≠ .utility →
      (csvCell header record v.name = noData → readCell pf record v c = .ok (-1, some 0)) ∧
      (csvCell header record v.name ∈ v.outcomes → ∃ i < v.outcomes.length,
        readCell pf record v c = .ok ((i : Int), some 0) ∧ v.outcomes[i]? = some (csvCell header record v.name)) ∧
      (csvCell header record v.name ≠ noData → csvCell header record v.name ∉ v.outcomes →
        Errors (readCell pf record v c))) := by
  have hg := csvCell_get hl hn
  unfold readCell
  rw [hc, hg, ok_bind]
  constructor
  · intro hu
    rw [if_pos hu]
    cases hp : pf (csvCell header record v.name) with
    | none => exact .inr ⟨rfl, _, rfl⟩
    | some u => exact .inl ⟨u, rfl, rfl⟩
  · intro hu
    rw [if_neg hu]
    obtain ⟨a, b, d⟩ := hm (csvCell header record v.name)
    refine ⟨fun h => ?_, fun h => ?_, fun h1 h2 => ?_⟩
    · rw [a h]; rfl
    · obtain ⟨i, hi, e, g⟩ := d h
      rw [e]
      exact ⟨i, hi, rfl, g⟩
    · rw [b h1 h2]; exact ⟨_, rfl⟩

/-- Reading a record gives a value for each variable, or an error. -/
theorem readCells_spec [Zero α] (pf : String → Option (Option α)) {header record : List String} {noData : String}
    (hl : record.length = header.length) : ∀ {vs : List NVar} {cols : List (Nat × List (String × Int))},
    ColsOf header noData vs cols →
    (∃ cells, (vs.zip cols).mapM (fun p => readCell pf record p.1 p.2) = .ok cells ∧
      List.Forall₂ (fun (v : NVar) (x : Int × Option α) => x.1 < v.outcomes.length ∨ v.nodeType = .utility ∧ x.1 = 0) vs cells ∧
      ∀ v ∈ vs, (v.nodeType ≠ .utility → csvCell header record v.name = noData ∨ csvCell header record v.name ∈ v.outcomes) ∧
        (v.nodeType = .utility → pf (csvCell header record v.name) ≠ none)) ∨
    Errors ((vs.zip cols).mapM (fun p => readCell pf record p.1 p.2)) := by
  intro vs cols h
  induction h with
  | nil => exact .inl ⟨[], rfl, .nil, by simp⟩
  | @cons v c vs cols hvc _ ih =>
    obtain ⟨h1, h2, h3, h4⟩ := hvc
    obtain ⟨hu, hx⟩ := readCell_spec pf hl h1 h3 h4
    rw [List.zip_cons_cons, List.mapM_cons]
    dsimp only
    have key : (∃ x : Int × Option α, readCell pf record v c = .ok x ∧ (x.1 < v.outcomes.length ∨ v.nodeType = .utility ∧ x.1 = 0) ∧
        (v.nodeType ≠ .utility → csvCell header record v.name = noData ∨ csvCell header record v.name ∈ v.outcomes) ∧
        (v.nodeType = .utility → pf (csvCell header record v.name) ≠ none)) ∨ Errors (readCell pf record v c) := by
      by_cases hk : v.nodeType = .utility
      · rcases hu hk with ⟨u, e1, e2⟩ | ⟨_, e⟩
        · exact .inl ⟨_, e2, .inr ⟨hk, rfl⟩, fun h => absurd hk h, fun _ => by rw [e1]; simp⟩
        · exact .inr e
      · obtain ⟨a, b, d⟩ := hx hk
        by_cases hb : csvCell header record v.name = noData
        · exact .inl ⟨_, a hb, .inl (by show (-1 : Int) < _; omega), fun _ => .inl hb, fun h => absurd h hk⟩
        · by_cases hm : csvCell header record v.name ∈ v.outcomes
          · obtain ⟨i, hi, e, _⟩ := b hm
            exact .inl ⟨_, e, .inl (by show (i : Int) < _; omega), fun _ => .inr hm, fun h => absurd h hk⟩
          · exact .inr (d hb hm)
    rcases key with ⟨x, e, hx1, hx2⟩ | ⟨m, e⟩
    · rw [e, ok_bind]
      rcases ih with ⟨cells, e', f, g⟩ | ⟨m, e'⟩
      · rw [e']
        refine .inl ⟨_, rfl, .cons hx1 f, ?_⟩
        intro u hu
        rcases List.mem_cons.1 hu with rfl | hu
        · exact hx2
        · exact g u hu
      · rw [e']; exact .inr ⟨m, rfl⟩
    · rw [e]; exact .inr ⟨m, rfl⟩

theorem forall₂_get {β γ : Type} {R : β → γ → Prop} {l : List β} {l' : List γ} (h : List.Forall₂ R l l') {i : Nat} {x : β}
    {y : γ} (hx : l[i]? = some x) (hy : l'[i]? = some y) : R x y := by
  induction h generalizing i with
  | nil => simp at hx
  | cons hr _ ih =>
    cases i with
    | zero => simp at hx hy; subst hx; subst hy; exact hr
    | succ i => exact ih (by simpa using hx) (by simpa using hy)

/-- A record is read as a sample that fits the network, or the reading ends with an error; it does so for every record
that is not `CsvOK`. -/
theorem readRecord_spec [Zero α] (pf : String → Option (Option α)) {n : Net α} {header : List String} {noData : String}
    {cols : List (Nat × List (String × Int))} (hc : ColsOf header noData n.variables cols)
    (hout : ∀ v ∈ n.variables, 0 < v.outcomes.length) (record : List String) :
    (∃ s, readRecord pf header n.variables cols record = .ok s ∧ s.OK n ∧ CsvOK pf n header noData record) ∨
    Errors (readRecord pf header n.variables cols record) := by
  unfold readRecord
  by_cases hl : record.length = header.length
  · rw [if_neg (not_not.2 hl)]
    rcases readCells_spec pf hl hc with ⟨cells, e, f, g⟩ | ⟨m, e⟩
    · rw [e, ok_bind]
      have hlen := f.length_eq
      refine .inl ⟨_, rfl, ?_, hl, fun v hv hk => (g v hv).1 hk, fun v hv hk => .inr ((g v hv).2 hk)⟩
      refine ⟨by simp [hlen], ?_, ?_, fun _ => by simp⟩
      · intro i v k hv hk
        dsimp only at hk
        rw [List.getElem?_map] at hk
        obtain ⟨x, hx, rfl⟩ := Option.map_eq_some_iff.1 hk
        rcases forall₂_get f hv hx with h | ⟨_, h⟩
        · exact h
        · rw [h]
          have := hout v (List.mem_of_getElem? hv)
          omega
      · intro u hu
        injection hu with hu
        subst hu
        simp [hlen]
    · rw [e]; exact .inr ⟨m, rfl⟩
  · rw [if_pos hl]; exact .inr ⟨_, rfl⟩

/-- **C65 (errors).** Training from any file ends with a network or an error, never with a panic. It ends with an error
if there is no column for a variable, the no-data value is an outcome, or some record has a wrong number of fields, a
cell that is neither an outcome nor the no-data value, or a utility cell that is neither a number nor the no-data
value. -/
theorem C65_errors [Field α] (pf : String → Option (Option α)) {n : Net α} (hn : n.Trainable) (header : List String)
    (records : List (List String)) (noData : String) :
    ((∃ n', trainNetwork pf n header records noData = .ok n') ∨ Errors (trainNetwork pf n header records noData)) ∧
    ((∃ v ∈ n.variables, v.name ∉ header) ∨ (∃ v ∈ n.variables, noData ∈ v.outcomes) ∨
      (∃ r ∈ records, ¬ CsvOK pf n header noData r) → Errors (trainNetwork pf n header records noData)) := by
  unfold trainNetwork
  rcases prepare_spec header noData n.variables with ⟨cols, e, hc⟩ | ⟨_, m, e⟩
  · rw [e, ok_bind]
    obtain ⟨t, e0, hf, hcnt⟩ := newTrainer_spec hn
    rw [e0, ok_bind]
    have fold : ∀ (rs : List (List String)) (t : Trainer α) (done : List (Sample α)), Fit n t.shape → Counted n done t →
        ((∃ t' : Trainer α, rs.foldlM (fun t record => do
          let s ← readRecord pf header n.variables cols record
          addSample n t s) t = .ok t' ∧ Fit n t'.shape ∧ ∀ r ∈ rs, CsvOK pf n header noData r) ∨
        Errors (rs.foldlM (fun t record => do
          let s ← readRecord pf header n.variables cols record
          addSample n t s) t)) := by
      intro rs
      induction rs with
      | nil => intro t _ h1 _; exact .inl ⟨t, rfl, h1, by simp⟩
      | cons r rs ih =>
        intro t done h1 h2
        rw [List.foldlM_cons]
        rcases readRecord_spec pf hc hn.outcomes r with ⟨s, e, hs, hr⟩ | ⟨m, e⟩
        · obtain ⟨t', e', hsh, hcn⟩ := addSample_counted hn h1 h2 hs
          rw [e, ok_bind, e', ok_bind]
          rcases ih t' _ (by rw [hsh]; exact h1) hcn with ⟨t2, e2, h3, h4⟩ | h
          · refine .inl ⟨t2, e2, h3, ?_⟩
            intro x hx
            rcases List.mem_cons.1 hx with rfl | hx
            exacts [hr, h4 x hx]
          · exact .inr h
        · rw [e]; exact .inr ⟨m, rfl⟩
    have hall : ∀ v ∈ n.variables, v.name ∈ header ∧ noData ∉ v.outcomes := by
      intro v hv
      obtain ⟨i, hi⟩ := List.getElem?_of_mem hv
      have hlt := (List.getElem?_eq_some_iff.1 hi).1
      have hl : i < cols.length := by rw [← hc.length_eq]; exact hlt
      have := forall₂_get hc hi (y := cols[i]) (by simp [hl])
      exact ⟨this.1, this.2.1⟩
    rcases fold records t [] hf hcnt with ⟨t', e1, hf', hok⟩ | ⟨m, e1⟩
    · rw [e1, ok_bind]
      obtain ⟨n', e', eu, _⟩ := updateNetwork_spec hn hf'
      rw [eu, ok_bind]
      constructor
      · cases e' with
        | none => exact .inl ⟨_, rfl⟩
        | some m => exact .inr ⟨m, rfl⟩
      · rintro (⟨v, hv, h⟩ | ⟨v, hv, h⟩ | ⟨r, hr, h⟩)
        · exact absurd (hall v hv).1 h
        · exact absurd h (hall v hv).2
        · exact absurd (hok r hr) h
    · rw [e1]
      exact ⟨.inr ⟨m, rfl⟩, fun _ => ⟨m, rfl⟩⟩
  · rw [e]
    exact ⟨.inr ⟨m, rfl⟩, fun _ => ⟨m, rfl⟩⟩

/-- The cells of a readable record, exactly. -/
theorem readCells_exact [Zero α] (pf : String → Option (Option α)) {n : Net α} {header record : List String} {noData : String}
    (h : CsvOK pf n header noData record)
    (hu : ∀ v ∈ n.variables, v.nodeType = .utility → csvCell header record v.name = noData → pf noData = some none) :
    ∀ {vs : List NVar} {cols : List (Nat × List (String × Int))}, ColsOf header noData vs cols →
    (∀ v ∈ vs, v ∈ n.variables) → (∀ v ∈ vs, v.outcomes.Nodup) →
    (vs.zip cols).mapM (fun p => readCell pf record p.1 p.2) = .ok (vs.map (fun v =>
      (if v.nodeType = .utility then (0 : Int) else if csvCell header record v.name = noData then -1 else
        (v.outcomes.idxOf (csvCell header record v.name) : Int),
       if v.nodeType = .utility then (if csvCell header record v.name = noData then none else
        (pf (csvCell header record v.name)).join) else some 0))) := by
  intro vs cols hc
  induction hc with
  | nil => intro _ _; rfl
  | @cons v c vs cols hvc _ ih =>
    intro hmem hnd
    obtain ⟨h1, h2, h3, h4⟩ := hvc
    obtain ⟨ha, hx⟩ := readCell_spec pf h.length h1 h3 h4
    rw [List.zip_cons_cons, List.mapM_cons, ih (fun v hv => hmem v (List.mem_cons_of_mem _ hv))
      (fun v hv => hnd v (List.mem_cons_of_mem _ hv)), List.map_cons]
    have hv := hmem v (by simp)
    have : readCell pf record v c = .ok
      (if v.nodeType = .utility then (0 : Int) else if csvCell header record v.name = noData then -1 else
        (v.outcomes.idxOf (csvCell header record v.name) : Int),
       if v.nodeType = .utility then (if csvCell header record v.name = noData then none else
        (pf (csvCell header record v.name)).join) else some 0) := by
      by_cases hk : v.nodeType = .utility
      · rw [if_pos hk, if_pos hk]
        by_cases hcell : csvCell header record v.name = noData
        · have hp := hu v hv hk hcell
          rw [if_pos hcell]
          rcases ha hk with ⟨u, e1, e2⟩ | ⟨e, _⟩
          · rw [hcell, hp] at e1
            injection e1 with e1
            rw [e2, ← e1]
          · rw [hcell, hp] at e; simp at e
        · rw [if_neg hcell]
          rcases ha hk with ⟨u, e1, e2⟩ | ⟨e, _⟩
          · rw [e2, e1]; rfl
          · rcases h.number v hv hk with h5 | h5
            · exact absurd h5 hcell
            · exact absurd e h5
      · rw [if_neg hk, if_neg hk]
        obtain ⟨a, b, _⟩ := hx hk
        by_cases hcell : csvCell header record v.name = noData
        · rw [if_pos hcell]; exact a hcell
        · rw [if_neg hcell]
          obtain ⟨i, hi, e, g⟩ := b ((h.outcome v hv hk).resolve_left hcell)
          have hidx : v.outcomes.idxOf (csvCell header record v.name) = i := by
            have h6 := slicesIndex_of_getElem? (hnd v (by simp)) g
            rw [slicesIndex_idxOf (List.mem_of_getElem? g)] at h6
            injection h6
          rw [e, hidx]
    dsimp only
    rw [this]
    rfl

/-- **C65, partial.** Training from a readable file is training with the samples its records stand for, in which a cell
with the no-data value is a missing one. Missing: utility cells with the no-data value, unless this value is itself
read as NaN; see `C65_refuted`. -/
theorem C65_partial [Field α] (pf : String → Option (Option α)) (n : Net α) (header : List String)
    (records : List (List String)) (noData : String) (hcol : ∀ v ∈ n.variables, v.name ∈ header)
    (hno : ∀ v ∈ n.variables, noData ∉ v.outcomes) (hnd : ∀ v ∈ n.variables, v.outcomes.Nodup)
    (hok : ∀ r ∈ records, CsvOK pf n header noData r)
    (hu : ∀ r ∈ records, ∀ v ∈ n.variables, v.nodeType = .utility → csvCell header r v.name = noData →
      pf noData = some none) :
    trainNetwork pf n header records noData =
      (trainOn n (records.map (csvSample pf n header noData)) >>= trainResult) := by
  unfold trainNetwork trainOn
  rcases prepare_spec header noData n.variables with ⟨cols, e, hc⟩ | ⟨⟨v, hv, h⟩, _⟩
  · rw [e, ok_bind]
    cases newTrainer n with
    | error e => rfl
    | ok t =>
      rw [ok_bind, ok_bind]
      have fold : ∀ (rs : List (List String)) (t : Trainer α), (∀ r ∈ rs, r ∈ records) →
          rs.foldlM (fun t record => do
            let s ← readRecord pf header n.variables cols record
            addSample n t s) t = (rs.map (csvSample pf n header noData)).foldlM (addSample n) t := by
        intro rs
        induction rs with
        | nil => intro _ _; rfl
        | cons r rs ih =>
          intro t hr
          have hr0 := hr r (by simp)
          have : readRecord pf header n.variables cols r = .ok (csvSample pf n header noData r) := by
            unfold readRecord
            rw [if_neg (not_not.2 (hok r hr0).length), readCells_exact pf (hok r hr0) (hu r hr0) hc (fun v hv => hv) hnd]
            unfold csvSample
            simp only [ok_bind, List.map_map]
            rfl
          rw [List.foldlM_cons, List.map_cons, List.foldlM_cons, this, ok_bind]
          cases addSample n t (csvSample pf n header noData r) with
          | error e => rfl
          | ok t' => exact ih t' (fun x hx => hr x (List.mem_cons_of_mem _ hx))
      rw [fold records t (fun r h => h)]
      cases (records.map (csvSample pf n header noData)).foldlM (addSample n) t with
      | error e => rfl
      | ok t' =>
        rw [ok_bind, ok_bind]
        rfl
  · exact absurd h (by rintro (h | h); exacts [h (hcol v hv), hno v hv h])

theorem mapM_congr {β γ : Type} {f g : β → Except Fault γ} {l : List β} (h : ∀ x ∈ l, f x = g x) : l.mapM f = l.mapM g := by
  induction l with
  | nil => rfl
  | cons x l ih =>
    rw [List.mapM_cons, List.mapM_cons, h x (by simp), ih (fun y hy => h y (List.mem_cons_of_mem _ hy))]

/-- The part of `prepareNode` that does not depend on where the column is. -/
def prepPart (header : List String) (noData : String) (v : NVar) : Except Fault (List (String × Int)) :=
  if v.name ∈ header then
    match outcomeMap noData v.outcomes.zipIdx [] with
    | none => .error (.error "no-data value appears as outcome")
    | some m => .ok m
  else .error (.error "no column in training data file")

/-- The columns of the variables, with their outcome maps. -/
def placed (header : List String) (vs : List NVar) (ms : List (List (String × Int))) : List (Nat × List (String × Int)) :=
  (vs.zip ms).map (fun p => (header.idxOf p.1.name, p.2))

theorem prepareNode_part (header : List String) (noData : String) (v : NVar) :
    prepareNode header noData v = (prepPart header noData v >>= fun m => .ok (header.idxOf v.name, m)) := by
  unfold prepareNode prepPart
  by_cases h : v.name ∈ header
  · rw [slicesIndex_idxOf h, if_pos h]
    dsimp only
    cases outcomeMap noData v.outcomes.zipIdx [] <;> rfl
  · rw [slicesIndex_none.2 h, if_neg h]; rfl

theorem prepare_part (header : List String) (noData : String) : ∀ (vs : List NVar),
    vs.mapM (prepareNode header noData) = (vs.mapM (prepPart header noData) >>= fun ms =>
      .ok (placed header vs ms)) := by
  intro vs
  induction vs with
  | nil => rfl
  | cons v vs ih =>
    rw [List.mapM_cons, List.mapM_cons, ih, prepareNode_part]
    cases prepPart header noData v with
    | error e => rfl
    | ok m =>
      rw [ok_bind, ok_bind, ok_bind]
      cases vs.mapM (prepPart header noData) <;> rfl

theorem readCells_columns [Zero α] (pf : String → Option (Option α)) {header header' record record' : List String} :
    ∀ (vs : List NVar) (ms : List (List (String × Int))),
    (∀ v ∈ vs, record[header.idxOf v.name]? = record'[header'.idxOf v.name]?) →
    (vs.zip (placed header vs ms)).mapM (fun p => readCell pf record p.1 p.2) =
    (vs.zip (placed header' vs ms)).mapM (fun p => readCell pf record' p.1 p.2) := by
  intro vs
  induction vs with
  | nil => intro _ _; rfl
  | cons v vs ih =>
    intro ms h
    cases ms with
    | nil => rfl
    | cons m ms =>
      simp only [placed, List.zip_cons_cons, List.map_cons, List.mapM_cons]
      simp only [placed] at ih
      rw [ih ms (fun u hu => h u (List.mem_cons_of_mem _ hu))]
      have : readCell pf record v (header.idxOf v.name, m) = readCell pf record' v (header'.idxOf v.name, m) := by
        unfold readCell goGet
        dsimp only
        rw [h v (by simp)]
      rw [this]

/-- **C65 (columns).** Two files with the same cells in the columns of the network's variables give the same result,
whatever the order of the columns and whatever other columns there are. -/
theorem C65_columns [Field α] (pf : String → Option (Option α)) (n : Net α) {header header' : List String}
    {records records' : List (List String)} (noData : String)
    (hh : ∀ v ∈ n.variables, (v.name ∈ header ↔ v.name ∈ header'))
    (hl : ∀ r ∈ records, r.length = header.length) (hl' : ∀ r ∈ records', r.length = header'.length)
    (hr : List.Forall₂ (fun r r' => ∀ v ∈ n.variables, csvCell header r v.name = csvCell header' r' v.name)
      records records') :
    trainNetwork pf n header records noData = trainNetwork pf n header' records' noData := by
  unfold trainNetwork
  rw [prepare_part, prepare_part]
  have hp : n.variables.mapM (prepPart header noData) = n.variables.mapM (prepPart header' noData) := by
    apply mapM_congr
    intro v hv
    unfold prepPart
    simp only [hh v hv]
  rw [hp]
  cases hms : n.variables.mapM (prepPart header' noData) with
  | error e => rfl
  | ok ms =>
    simp only [ok_bind]
    cases newTrainer n with
    | error e => rfl
    | ok t =>
      simp only [ok_bind]
      have hcol : ∀ v ∈ n.variables, v.name ∈ header' := by
        intro v hv
        by_contra hc
        obtain ⟨i, hi⟩ := List.getElem?_of_mem hv
        obtain ⟨y, _, e⟩ := (mapM_inv hms).2 i v hi
        unfold prepPart at e
        rw [if_neg hc] at e
        cases e
      have fold : ∀ (t : Trainer α),
          records.foldlM (fun t record => do
            let s ← readRecord pf header n.variables (placed header n.variables ms) record
            addSample n t s) t =
          records'.foldlM (fun t record => do
            let s ← readRecord pf header' n.variables (placed header' n.variables ms) record
            addSample n t s) t := by
        induction hr with
        | nil => intro _; rfl
        | @cons r r' rs rs' h1 _ ih =>
          intro t
          have hlr := hl r (by simp)
          have hlr' := hl' r' (by simp)
          have : readRecord pf header n.variables (placed header n.variables ms) r =
              readRecord pf header' n.variables (placed header' n.variables ms) r' := by
            unfold readRecord
            rw [if_neg (not_not.2 hlr), if_neg (not_not.2 hlr'), readCells_columns pf n.variables ms]
            intro v hv
            have g1 := goGet_eq.1 (csvCell_get hlr ((hh v hv).2 (hcol v hv)))
            have g2 := goGet_eq.1 (csvCell_get hlr' (hcol v hv))
            rw [g1, g2, h1 v hv]
          rw [List.foldlM_cons, List.foldlM_cons, this]
          have ih' := ih (fun x hx => hl x (List.mem_cons_of_mem _ hx)) (fun x hx => hl' x (List.mem_cons_of_mem _ hx))
          cases readRecord pf header' n.variables (placed header' n.variables ms) r' with
          | error e => rfl
          | ok s =>
            rw [ok_bind]
            cases addSample n t s with
            | error e => rfl
            | ok t' => exact ih' t'
      rw [fold]

namespace Ex

/-- A number reader that knows three numbers and NaN. -/
def pf : String → Option (Option ℚ) := fun s =>
  if s = "10" then some (some 10) else if s = "30" then some (some 30) else if s = "-99" then some (some (-99)) else
    if s = "NaN" then some none else none

def coinVars : List NVar := [nv "Coin" .chance ["heads", "tails"], nv "Gain" .utility ["value"]]
def coinTables : List (NFactor ℚ) := [nf "Coin" [] [1, 1], nf "Gain" ["Coin"] [0, 0]]
def coin : Net ℚ where
  name := "coin"
  info := ""
  «variables» := [⟨"Coin", .chance, ["heads", "tails"], (0, 0), "", some 0⟩, ⟨"Gain", .utility, ["value"], (0, 0), "", some 1⟩]
  factors := [⟨"Coin", [], some [1, 1], [], 2⟩, ⟨"Gain", ["Coin"], some [0, 0], [2], 1⟩]
  policies := []
  vs := none
  names := []
  totalUtility := none

theorem coin_new : newNet "coin" "" coinVars coinTables = .ok coin := by rfl

theorem coin_trainable : coin.Trainable :=
  (C76_partial (name := "coin") (info := "") (vars := coinVars) (factors := coinTables) (by decide) coin_new (by decide)
    (by decide) (by decide) (by decide +kernel)).1

def header : List String := ["Day", "Gain", "Coin"]
def rows (gain : String) : List (List String) :=
  [["1", "10", "heads"], ["2", "30", "tails"], ["3", gain, "heads"]]

theorem rows_ok {noData gain : String} (hg : gain = noData ∨ pf gain ≠ none) :
    ∀ r ∈ rows gain, CsvOK pf coin header noData r := by
  intro r hr
  simp only [rows, List.mem_cons, List.not_mem_nil, or_false] at hr
  rcases hr with rfl | rfl | rfl <;> refine ⟨rfl, ?_, ?_⟩ <;> intro v hv hk <;>
    simp only [coin, List.mem_cons, List.not_mem_nil, or_false] at hv <;> rcases hv with rfl | rfl <;>
    first
    | exact absurd rfl hk
    | exact hg
    | (cases hk; done)
    | exact .inr (by decide)
    | exact .inr (show "heads" ∈ ["heads", "tails"] by decide)

end Ex

/-- **C65, refuted.** A utility cell with the no-data value is not a missing one: with the empty string as no-data value
the training fails; with -99 the number -99 is counted. In both cases the records, read as the property says, are fine
to train with, and give the utility 5 (half of the mean, see C61) for heads. -/
theorem C65_refuted :
    ((∀ r ∈ Ex.rows "", CsvOK Ex.pf Ex.coin Ex.header "" r) ∧
      ((trainOn Ex.coin ((Ex.rows "").map (csvSample Ex.pf Ex.coin Ex.header ""))).map (fun r => (r.2, r.1.factors.map NFactor.tab)) =
        .ok (none, [[2/3, 1/3], [5, 15]])) ∧
      Errors (trainNetwork Ex.pf Ex.coin Ex.header (Ex.rows "") "")) ∧
    ((∀ r ∈ Ex.rows "-99", CsvOK Ex.pf Ex.coin Ex.header "-99" r) ∧
      ((trainOn Ex.coin ((Ex.rows "-99").map (csvSample Ex.pf Ex.coin Ex.header "-99"))).map (fun r => (r.2, r.1.factors.map NFactor.tab)) =
        .ok (none, [[2/3, 1/3], [5, 15]])) ∧
      (trainNetwork Ex.pf Ex.coin Ex.header (Ex.rows "-99") "-99").map (fun n => n.factors.map NFactor.tab) =
        .ok [[2/3, 1/3], [-89/4, 15]]) := by
  refine ⟨⟨Ex.rows_ok (.inl rfl), by decide +kernel, ?_⟩,
    ⟨Ex.rows_ok (.inl rfl), by decide +kernel, by decide +kernel⟩⟩
  have h : (trainNetwork Ex.pf Ex.coin Ex.header (Ex.rows "") "").map (fun n => n.factors) =
    .error (.error "unable to parse utility value") := by decide +kernel
  cases e : trainNetwork Ex.pf Ex.coin Ex.header (Ex.rows "") "" with
  | ok n => rw [e] at h; cases h
  | error m =>
    rw [e] at h
    injection h with h
    exact ⟨_, by rw [h]⟩

/-- The hypotheses of C65_partial can be met, with missing chance and utility cells ("NaN") in the file. -/
example : (∀ v ∈ Ex.coin.variables, v.name ∈ Ex.header) ∧ (∀ v ∈ Ex.coin.variables, "NaN" ∉ v.outcomes) ∧
    (∀ v ∈ Ex.coin.variables, v.outcomes.Nodup) ∧ (∀ r ∈ Ex.rows "NaN", CsvOK Ex.pf Ex.coin Ex.header "NaN" r) ∧
    Ex.pf "NaN" = some none :=
  ⟨by decide, by decide, by decide, Ex.rows_ok (.inl rfl), rfl⟩

/-- The hypotheses of C65_columns can be met. -/
example : trainNetwork Ex.pf Ex.coin ["Gain", "Coin"] [["10", "heads"], ["30", "tails"]] "" =
    trainNetwork Ex.pf Ex.coin ["Coin", "Day", "Gain"] [["heads", "1", "10"], ["tails", "2", "30"]] "" :=
  C65_columns _ _ _ (by decide) (by decide) (by decide)
    (.cons (by decide) (.cons (by decide) .nil))

end Bbn
