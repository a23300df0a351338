import Verif.Lemmas.Texts
import Mathlib.Data.List.TakeWhile
import Verif.Model.Commands
import Verif.Lemmas.SaveApp
import Verif.Props.Xml

/-!
# Lemmas on paths, loaded networks and sessions with files
-/

set_option autoImplicit false

namespace Bbn

variable {α B : Type}

/-! ## Paths -/

theorem takeWhile_stop {β : Type} (p : β → Bool) : ∀ (a : List β) (x : β) (b : List β), (∀ y ∈ a, p y = true) → p x = false →
    (a ++ x :: b).takeWhile p = a := by
  intro a
  induction a with
  | nil => intro x b _ h; simp [h]
  | cons y a ih =>
    intro x b h1 h2
    have := ih x b (fun z hz => h1 z (List.mem_cons_of_mem _ hz)) h2
    simp [h1 y (by simp), this]

/-- The extension of a path that ends with a dot and `ext`. -/
theorem goExt_dot {stem ext : String} (h : ∀ c ∈ ext.toList, c ≠ '.' ∧ c ≠ '/') : goExt (stem ++ "." ++ ext) = "." ++ ext := by
  have e : (stem ++ "." ++ ext).toList.reverse = ext.toList.reverse ++ '.' :: stem.toList.reverse := by
    simp [String.toList_append]
  have w : (ext.toList.reverse ++ '.' :: stem.toList.reverse).takeWhile (fun c => c ≠ '/' && c ≠ '.') = ext.toList.reverse := by
    apply takeWhile_stop
    · intro y hy
      have := h y (by simpa using hy)
      simp [this.1, this.2]
    · rfl
  unfold goExt
  rw [e]
  dsimp only
  rw [w, List.drop_left]
  apply String.toList_inj.1
  simp [String.toList_append]

/-- The extension of a path without a dot after the last slash. -/
theorem goExt_none {dir base : String} (hd : dir = "" ∨ ∃ d, dir = d ++ "/") (h : ∀ c ∈ base.toList, c ≠ '.' ∧ c ≠ '/') :
    goExt (dir ++ base) = "" := by
  unfold goExt
  dsimp only
  rcases hd with rfl | ⟨d, rfl⟩
  · have w : ("" ++ base).toList.reverse.takeWhile (fun c => c ≠ '/' && c ≠ '.') = ("" ++ base).toList.reverse := by
      rw [List.takeWhile_eq_self_iff]
      intro y hy
      have := h y (by simpa [String.toList_append] using hy)
      simp [this.1, this.2]
    rw [w, List.drop_length]
  · have e : (d ++ "/" ++ base).toList.reverse = base.toList.reverse ++ '/' :: d.toList.reverse := by
      simp [String.toList_append]
    have w : (base.toList.reverse ++ '/' :: d.toList.reverse).takeWhile (fun c => c ≠ '/' && c ≠ '.') = base.toList.reverse := by
      apply takeWhile_stop
      · intro y hy
        have := h y (by simpa using hy)
        simp [this.1, this.2]
      · rfl
    rw [e, w, List.drop_left]
    rfl

/-- Any path is a stem and its extension, and the latter is empty or starts with a dot. -/
theorem goExt_split (s : String) : ∃ stem, s = stem ++ goExt s ∧ (goExt s = "" ∨ (goExt s).toList.head? = some '.') := by
  unfold goExt
  dsimp only
  set r := s.toList.reverse with hr
  set w := r.takeWhile (fun c => c ≠ '/' && c ≠ '.') with hw
  split
  · rename_i l e
    refine ⟨String.ofList l.reverse, ?_, .inr (by simp)⟩
    apply String.toList_inj.1
    have h1 : r = w ++ '.' :: l := by
      rw [← e, hw]
      conv_lhs => rw [← List.takeWhile_append_dropWhile (p := fun c => c ≠ '/' && c ≠ '.') (l := r)]
      congr 1
      have := List.takeWhile_append_dropWhile (p := fun c => c ≠ '/' && c ≠ '.') (l := r)
      conv_rhs => rw [← this]
      rw [this]
      conv_rhs => enter [2]; rw [← this]
      rw [List.drop_left]
    have h2 : s.toList = r.reverse := by rw [hr, List.reverse_reverse]
    rw [h2, h1]
    simp [String.toList_append]
  · exact ⟨s, by simp, .inl rfl⟩

theorem goTrimSuffix_append (a b : String) : goTrimSuffix (a ++ b) b = a := by
  unfold goTrimSuffix
  rw [if_pos (by rw [String.toList_append]; exact List.suffix_append _ _)]
  apply String.toList_inj.1
  simp [String.toList_append]

/-- The stem of a path. -/
theorem savePath_split (s : String) : ∃ stem, s = stem ++ goExt s ∧ savePath s = stem ++ "-save.yml" ∧
    (goExt s = "" ∨ (goExt s).toList.head? = some '.') := by
  obtain ⟨stem, h1, h2⟩ := goExt_split s
  refine ⟨stem, h1, ?_, h2⟩
  unfold savePath
  conv_lhs => rw [show goTrimSuffix s (goExt s) = goTrimSuffix (stem ++ goExt s) (goExt s) by rw [← h1]]
  rw [goTrimSuffix_append]

theorem goExt_savePath (s : String) : goExt (savePath s) = ".yml" := by
  obtain ⟨stem, _, h, _⟩ := savePath_split s
  have e : stem ++ "-save.yml" = stem ++ "-save" ++ "." ++ "yml" := by
    apply String.toList_inj.1
    simp [String.toList_append]
  rw [h, e, goExt_dot (by decide)]
  rfl

/-- What `path.Ext` gives is the extension. -/
theorem extension_iff {path ext : String} : goExt path = ext ↔ Extension path ext := by
  constructor
  · rintro rfl
    unfold goExt
    dsimp only
    obtain ⟨w, e1, w1, w2⟩ := dropWhile_split (fun c => c ≠ '/' && c ≠ '.') path.toList.reverse
    generalize hd : path.toList.reverse.dropWhile (fun c => c ≠ '/' && c ≠ '.') = d at *
    have e2 : path.toList = d.reverse ++ w.reverse := by
      rw [← List.reverse_append, ← e1, List.reverse_reverse]
    have ht : path.toList.reverse.takeWhile (fun c => c ≠ '/' && c ≠ '.') = w := by
      have := List.takeWhile_append_dropWhile (p := fun c => c ≠ '/' && c ≠ '.') (l := path.toList.reverse)
      rw [hd] at this
      exact List.append_cancel_right (this.trans e1)
    have w3 : '.' ∉ (String.ofList w.reverse).toList ∧ '/' ∉ (String.ofList w.reverse).toList := by
      constructor <;>
        · intro h
          have := w1 _ (by simpa using h)
          simp at this
    rw [ht, e1, List.drop_left]
    cases d with
    | nil =>
      refine .inr ⟨"", String.ofList w.reverse, String.toList_inj.1 (by simpa using e2), .inl rfl, w3.1, w3.2, rfl⟩
    | cons c d =>
      have hc := w2 c rfl
      by_cases h : c = '.'
      · subst h
        refine .inl ⟨String.ofList d.reverse, String.ofList w.reverse, String.toList_inj.1 (by simpa using e2), w3.1, w3.2, ?_⟩
        apply String.toList_inj.1
        simp
      · have h' : c = '/' := by
          by_contra h'
          simp [h, h'] at hc
        subst h'
        refine .inr ⟨String.ofList ('/' :: d).reverse, String.ofList w.reverse, String.toList_inj.1 (by simpa using e2),
          .inr (by simp), w3.1, w3.2, ?_⟩
        split
        · rename_i e; simp at e
        · rfl
  · rintro (⟨front, last, rfl, h1, h2, rfl⟩ | ⟨front, name, rfl, hf, h1, h2, rfl⟩)
    · exact goExt_dot (fun c hc => ⟨by rintro rfl; exact h1 hc, by rintro rfl; exact h2 hc⟩)
    · refine goExt_none ?_ (fun c hc => ⟨by rintro rfl; exact h1 hc, by rintro rfl; exact h2 hc⟩)
      rcases hf with h | h
      · exact .inl h
      · obtain ⟨l, hl⟩ := List.getLast?_eq_some_iff.1 h
        exact .inr ⟨String.ofList l, String.toList_inj.1 (by simpa using hl)⟩

/-! ## Loaded networks -/

theorem yamlNodes_plain [Zero α] [One α] (lower : String → String) : ∀ (l : List (VarYaml α)) (h h' : LHeap α) (vars : List NVar)
    (fs : List (NFactor α)), yamlNodes lower l h = (.ok (vars, fs), h') → ∀ v ∈ vars, v.factor = none := by
  intro l
  induction l with
  | nil => intro h h' vars fs e; cases e; simp
  | cons v l ih =>
    intro h h' vars fs e
    rw [yamlNodes] at e
    split at e
    · cases e
    · split at e
      · cases e
      · split at e
        · cases e
        · rename_i hrec
          cases e
          intro u hu
          rcases List.mem_cons.1 hu with rfl | hu
          · rfl
          · exact ih _ _ _ _ hrec u hu

theorem xmlNode_plain {pf : String → Option α} {defs : List (String × DefXml)} {v : VarXml} {x : NVar × NFactor α}
    (h : xmlNode pf defs v = .ok x) : x.1.factor = none := by
  unfold xmlNode at h
  split at h
  · cases h
  · dsimp only at h
    split_ifs at h
    obtain ⟨_, _, h⟩ := bind_inv h
    split at h
    · cases h
    · obtain ⟨_, _, h⟩ := bind_inv h
      cases h
      rfl

/-- A loaded network comes from `New`. -/
theorem fromFile_new [Zero α] [One α] {lib : Lib α B} {disk : Disk B} {path : String} {h : LHeap α} {n : Net α}
    (hl : (fromFile lib disk path h).1 = .ok n) : ∃ name info vars fs, (∀ v ∈ vars, v.factor = none) ∧
      newNet name info vars fs = .ok n := by
  unfold fromFile at hl
  cases hd : disk path with
  | none => rw [hd] at hl; cases hl
  | some b =>
    rw [hd] at hl
    dsimp only at hl
    split_ifs at hl
    · cases hy : lib.yaml b with
      | none => rw [hy] at hl; cases hl
      | some y =>
        rw [hy] at hl
        dsimp only [fromYaml] at hl
        rcases hn : yamlNodes lib.lower y.variables h with ⟨e | ⟨vars, fs⟩, h'⟩
        · rw [hn] at hl; cases hl
        · rw [hn] at hl
          exact ⟨_, _, vars, fs, yamlNodes_plain _ _ _ _ _ _ hn, hl⟩
    · cases hy : lib.xml b with
      | none => rw [hy] at hl; cases hl
      | some x =>
        rw [hy] at hl
        dsimp only [fromXml] at hl
        obtain ⟨nodes, h1, hl⟩ := bind_inv hl
        refine ⟨_, _, _, _, ?_, hl⟩
        intro v hv
        obtain ⟨p, hp, rfl⟩ := List.mem_map.1 hv
        obtain ⟨_, _, hx⟩ := forall₂_mem_right (mapM_forall₂ h1) hp
        exact xmlNode_plain hx

/-- A loaded network with an outcome and a table of full rows for each variable can be saved. -/
theorem fromFile_saveable [Zero α] [One α] {lib : Lib α B} {disk : Disk B} {path : String} {h : LHeap α} {n : Net α}
    (hl : (fromFile lib disk path h).1 = .ok n)
    (hall : ∀ v ∈ n.variables, 0 < v.outcomes.length ∧ ∃ f, tableFor n.factors v = some f ∧ v.outcomes.length ∣ f.tab.length) :
    n.Saveable := by
  obtain ⟨name, info, vars, fs, h1, h2⟩ := fromFile_new hl
  refine new_saveable name info h1 h2 ?_
  have hb := C35_new_result name info vars fs h1 h2
  intro v hv
  obtain ⟨k1, f, k2, k3⟩ := hall (linked fs v) (by rw [hb.links]; exact List.mem_map_of_mem hv)
  have ho : (linked fs v).outcomes = v.outcomes := congrArg (fun k => k.2.2) (linked_key fs v)
  rw [ho] at k1 k3
  refine ⟨k1, ?_⟩
  have k2' : tableFor n.factors v = some f := by
    unfold tableFor at k2 ⊢
    rw [linked_name] at k2
    exact k2
  obtain ⟨g, hg, hc⟩ := tableFor_core (h := hb.tables.symm) k2'
  exact ⟨g, hg, by rw [(core_parts hc).2.2]; exact k3⟩

/-! ## Sessions with files -/

section

variable [Zero α] [One α] [Add α] [Mul α] [Div α] [DecidableEq α]

/-- A property kept by all events holds at the end of a session. -/
theorem session_keep (P : App α → Prop) {lib : Lib α B} {writable : String → Bool} {file : String} {fm : Fmt α}
    {sch : Nat → Nat → NSched α} (hs : ∀ k a e a', P a → a.step fm (sch k) e = .ok a' → P a') :
    ∀ (is : List Input) (k : Nat) (a a' : App α) (disk : Disk B),
      (App.session lib writable file fm sch k is a disk).2 = .ok a' → P a → P a' := by
  intro is
  induction is with
  | nil => intro k a a' disk h hp; cases h; exact hp
  | cons i is ih =>
    intro k a a' disk h hp
    cases i with
    | quit => cases h; exact hp
    | save =>
      rw [App.session] at h
      cases hd : a.save lib writable file disk with
      | error e => rw [hd] at h; cases h
      | ok d => rw [hd] at h; exact ih _ _ _ _ h hp
    | event e =>
      rw [App.session] at h
      cases hd : a.step fm (sch k) e with
      | error e => rw [hd] at h; cases h
      | ok b => rw [hd] at h; exact ih _ _ _ _ h (hs _ _ _ _ hp hd)

/-- A session goes on after its first part. -/
theorem session_append {lib : Lib α B} {writable : String → Bool} {file : String} {fm : Fmt α}
    {sch : Nat → Nat → NSched α} : ∀ (is js : List Input) (k : Nat) (a a' : App α) (disk disk' : Disk B), .quit ∉ is →
      App.session lib writable file fm sch k is a disk = (disk', .ok a') →
      App.session lib writable file fm sch k (is ++ js) a disk = App.session lib writable file fm sch (k + is.length) js a' disk' := by
  intro is
  induction is with
  | nil => intro js k a a' disk disk' _ h; cases h; rfl
  | cons i is ih =>
    intro js k a a' disk disk' hq h
    rw [List.mem_cons, not_or] at hq
    have hk : k + (i :: is).length = k + 1 + is.length := by rw [List.length_cons]; omega
    rw [hk]
    cases i with
    | quit => exact absurd rfl hq.1
    | save =>
      rw [App.session] at h
      rw [List.cons_append, App.session]
      cases hd : a.save lib writable file disk with
      | error e => rw [hd] at h; cases h
      | ok d => rw [hd] at h; exact ih _ _ _ _ _ _ hq.2 h
    | event e =>
      rw [App.session] at h
      rw [List.cons_append, App.session]
      cases hd : a.step fm (sch k) e with
      | error e => rw [hd] at h; cases h
      | ok b => rw [hd] at h; exact ih _ _ _ _ _ _ hq.2 h

/-- Only the file of saved networks changes. -/
theorem session_other {lib : Lib α B} {writable : String → Bool} {file : String} {fm : Fmt α}
    {sch : Nat → Nat → NSched α} {p : String} : ∀ (is : List Input) (k : Nat) (a : App α) (disk : Disk B),
      (p ≠ savePath file ∨ .save ∉ is) → (App.session lib writable file fm sch k is a disk).1 p = disk p := by
  intro is
  induction is with
  | nil => intro k a disk _; rfl
  | cons i is ih =>
    intro k a disk h
    have h' : p ≠ savePath file ∨ Input.save ∉ is := h.imp_right (fun h1 h2 => h1 (List.mem_cons_of_mem _ h2))
    cases i with
    | quit => rfl
    | save =>
      rw [App.session]
      cases hd : a.save lib writable file disk with
      | error e => rfl
      | ok d =>
        dsimp only
        rw [ih _ _ _ h']
        have hp : p ≠ savePath file := h.resolve_right (fun h => h (by simp))
        unfold App.save at hd
        split at hd
        · cases hd
        · cases hd
        · split_ifs at hd
          injection hd with hd
          rw [← hd]
          exact if_neg hp
    | event e =>
      rw [App.session]
      cases hd : a.step fm (sch k) e with
      | error e => rfl
      | ok b => exact ih _ _ _ h'

end

end Bbn
