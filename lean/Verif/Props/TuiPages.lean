import Verif.Model.TuiPages
import Verif.Lemmas.Commands
import Verif.Props.TuiInput

/-!
# Dialogs, focus and the border: C104, C105
-/

set_option autoImplicit false

namespace Bbn

variable {α B : Type}

/-- Page `p` is in front and gets the keys; behind it is only the graph. For `p = .graph`, no dialog is open. -/
def Screen.At (s : Screen α B) (p : Page) : Prop :=
  (∀ q, (q, true) ∈ s.pages ↔ q = .graph ∨ q = p) ∧ s.focus = some p

/-- The screens differ at most in which pages are open. -/
def Screen.SameBehind (s t : Screen α B) : Prop :=
  t.app = s.app ∧ t.disk = s.disk ∧ t.blue = s.blue ∧ t.running = s.running

/-- The pages, in their order, with `p` (and the graph) visible. -/
def pagesAt (p : Page) : List (Page × Bool) :=
  [(.graph, true), (.table, decide (p = .table)), (.help, decide (p = .help)), (.info, decide (p = .info))]

theorem pagesAt_mem (p q : Page) : (q, true) ∈ pagesAt p ↔ q = .graph ∨ q = p := by
  cases p <;> cases q <;> decide

/-- The form of the pages in all reachable screens. -/
def Screen.Tidy (s : Screen α B) : Prop := ∃ p, s.pages = pagesAt p ∧ s.focus = some p

theorem Screen.Tidy.at {s : Screen α B} (h : s.Tidy) : ∃ p, s.At p := by
  obtain ⟨p, h1, h2⟩ := h
  exact ⟨p, fun q => by rw [h1]; exact pagesAt_mem p q, h2⟩

theorem Screen.Tidy.pages {s : Screen α B} (h : s.Tidy) {p : Page} (hp : s.At p) : s.pages = pagesAt p ∧ s.focus = some p := by
  obtain ⟨q, h1, h2⟩ := h
  have := hp.2
  rw [h2] at this
  cases this
  exact ⟨h1, h2⟩

theorem openDialog_at {s : Screen α B} (h : s.pages = pagesAt .graph) (p : Page) :
    (s.openDialog p).pages = pagesAt p ∧ (s.openDialog p).focus = some p := by
  refine ⟨?_, rfl⟩
  unfold Screen.openDialog Screen.showPage Screen.refocus
  dsimp only
  rw [h]
  cases p <;> decide

theorem hidePage_at {s : Screen α B} {p : Page} (h : s.pages = pagesAt p) (hp : p ≠ .graph) :
    (s.hidePage p).pages = pagesAt .graph ∧ (s.hidePage p).focus = some .graph := by
  unfold Screen.hidePage Screen.refocus
  dsimp only
  rw [h]
  cases p with
  | graph => exact absurd rfl hp
  | table => decide
  | help => decide
  | info => decide

theorem at_of {s : Screen α B} {p : Page} (h : s.pages = pagesAt p ∧ s.focus = some p) : s.At p :=
  ⟨fun q => by rw [h.1]; exact pagesAt_mem p q, h.2⟩

theorem frontPage_at (p : Page) : frontPage (pagesAt p) = some p := by cases p <;> decide

theorem showTable_inv {s s' : Screen α B} (h : s.showTable = .ok s') :
    ∃ n t, goGetI s.app.nodes s.app.selectedNode = .ok n ∧ newTable s.app.nodes s.app.selectedNode s.app.byName = .ok t ∧
      s' = Screen.openDialog .table { s with content := some (" " ++ n.var.name ++ " ", t) } := by
  unfold Screen.showTable at h
  obtain ⟨n, h1, h⟩ := bind_inv h
  obtain ⟨t, h2, h⟩ := bind_inv h
  obtain ⟨r, h3, h⟩ := bind_inv h
  exact ⟨n, t, h1, h2, (Except.ok.inj h).symm⟩

theorem showTable_tidy {s s' : Screen α B} (hp : s.pages = pagesAt .graph) (h : s.showTable = .ok s') :
    s'.pages = pagesAt .table ∧ s'.focus = some .table := by
  obtain ⟨n, t, _, _, rfl⟩ := showTable_inv h
  exact openDialog_at (s := { s with content := _ }) hp .table

section

variable [Zero α] [One α] [Add α] [Mul α] [Div α] [DecidableEq α]
variable {lib : Lib α B} {writable : String → Bool} {file : String} {isDigit : Char → Bool} {fm : Fmt α}

theorem event_inv {sch : Nat → NSched α} {s s' : Screen α B} {e : Event} (h : s.event fm sch e = .ok s') :
    ∃ a, s.app.step fm sch e = .ok a ∧ s' = { s with app := a } := by
  unfold Screen.event at h
  obtain ⟨a, h1, h⟩ := bind_inv h
  exact ⟨a, h1, (Except.ok.inj h).symm⟩

theorem event_tidy {sch : Nat → NSched α} {s s' : Screen α B} {e : Event} (ht : s.Tidy) (h : s.event fm sch e = .ok s') :
    s'.Tidy := by
  obtain ⟨a, _, rfl⟩ := event_inv h
  exact ht

theorem mainKey_tidy {sch : Nat → NSched α} {s s' : Screen α B} {k : Key} (ht : s.pages = pagesAt .graph ∧ s.focus = some .graph)
    (h : s.mainKey lib writable file isDigit fm sch k = .ok s') : s'.Tidy := by
  have h0 : s.Tidy := ⟨.graph, ht⟩
  cases k with
  | esc => cases h; exact h0
  | tab => exact event_tidy h0 h
  | backtab => exact event_tidy h0 h
  | enter => exact event_tidy h0 h
  | other => exact event_tidy h0 h
  | ctrlS =>
    obtain ⟨d, _, h⟩ := bind_inv h
    cases h
    exact h0
  | rune c =>
    unfold Screen.mainKey at h
    dsimp only at h
    unfold Screen.runeKey at h
    split_ifs at h
    · exact event_tidy h0 h
    · exact event_tidy h0 h
    · cases h; exact ⟨_, openDialog_at ht.1 _⟩
    · cases h; exact ⟨_, openDialog_at ht.1 _⟩
    · exact ⟨_, showTable_tidy ht.1 h⟩
    · exact event_tidy (s := { s with blue := !s.app.ignorePolicies }) h0 h
    · exact event_tidy h0 h

omit [Zero α] [One α] [Add α] [Mul α] [Div α] [DecidableEq α] in
theorem rightClick_inv {s s' : Screen α B} {x y : Int} (h : s.rightClick fm x y = .ok s') :
    s' = s ∨ ∃ i a, App.render fm { s.app with selectedNode := i } true = .ok a ∧
      Screen.showTable { s with app := a } = .ok s' := by
  unfold Screen.rightClick at h
  split at h
  · cases h; exact .inl rfl
  · obtain ⟨a, h1, h⟩ := bind_inv h
    exact .inr ⟨_, a, h1, h⟩

theorem act_tidy {sch : Nat → NSched α} {s s' : Screen α B} {i : Act} (ht : s.Tidy)
    (h : s.act lib writable file isDigit fm sch i = .ok s') : s'.Tidy := by
  obtain ⟨p, h1, h2⟩ := ht
  have h0 : s.Tidy := ⟨p, h1, h2⟩
  cases i with
  | key k =>
    unfold Screen.act at h
    dsimp only at h
    rw [h2] at h
    by_cases hp : p = .graph
    · subst hp
      exact mainKey_tidy ⟨h1, h2⟩ h
    · have e : s.dialogKey p k = s' := by
        cases p with
        | graph => exact absurd rfl hp
        | table => exact Except.ok.inj h
        | help => exact Except.ok.inj h
        | info => exact Except.ok.inj h
      unfold Screen.dialogKey at e
      split_ifs at e
      · subst e; exact ⟨_, hidePage_at h1 hp⟩
      · subst e; exact h0
  | click b q v x y =>
    unfold Screen.act at h
    dsimp only at h
    split_ifs at h with hm
    · rw [h1, pagesAt_mem] at hm
      by_cases hq : q = .graph
      · subst hq
        dsimp only at h
        unfold Screen.graphClick at h
        rw [h1, frontPage_at] at h
        cases p with
        | graph =>
          cases b with
          | left => exact event_tidy h0 h
          | right =>
            rcases rightClick_inv h with rfl | ⟨i, a, _, h3⟩
            · exact h0
            · exact ⟨_, showTable_tidy (s := { s with app := a }) h1 h3⟩
        | table => cases h; exact ⟨_, hidePage_at h1 (by decide)⟩
        | help => cases h; exact ⟨_, hidePage_at h1 (by decide)⟩
        | info => cases h; exact ⟨_, hidePage_at h1 (by decide)⟩
      · have hqp := hm.resolve_left hq
        subst hqp
        have e : s.hidePage q = s' := by
          cases q with
          | graph => exact absurd rfl hq
          | table => exact Except.ok.inj h
          | help => exact Except.ok.inj h
          | info => exact Except.ok.inj h
        subst e
        exact ⟨_, hidePage_at h1 hq⟩
    · cases h; exact h0

/-- A property kept by all inputs holds at the end. -/
theorem screen_keep (P : Screen α B → Prop) {sch : Nat → Nat → NSched α}
    (hs : ∀ k s i s', P s → s.act lib writable file isDigit fm (sch k) i = .ok s' → P s') :
    ∀ (is : List Act) (k : Nat) (s s' : Screen α B),
      (Screen.run lib writable file isDigit fm sch k is s).2 = .ok s' → P s → P s' := by
  intro is
  induction is with
  | nil => intro k s s' h hp; cases h; exact hp
  | cons i is ih =>
    intro k s s' h hp
    rw [Screen.run] at h
    split_ifs at h
    · cases hd : s.act lib writable file isDigit fm (sch k) i with
      | error e => rw [hd] at h; cases h
      | ok b => rw [hd] at h; exact ih _ _ _ h (hs _ _ _ _ hp hd)
    · cases h; exact hp

omit [Zero α] [One α] [Add α] [Mul α] [Div α] [DecidableEq α] in
theorem startScreen_tidy (a : App α) (disk : Disk B) : (startScreen a disk).Tidy := by
  unfold startScreen
  dsimp only
  split_ifs
  · exact ⟨.info, openDialog_at rfl _⟩
  · exact ⟨.graph, rfl, rfl⟩

/-- The screen after some inputs. -/
def Screen.Reached (lib : Lib α B) (writable : String → Bool) (file : String) (isDigit : Char → Bool) (fm : Fmt α)
    (a : App α) (disk : Disk B) (s : Screen α B) : Prop :=
  ∃ sch is, (Screen.run lib writable file isDigit fm sch 0 is (startScreen a disk)).2 = .ok s

theorem reached_tidy {a : App α} {disk : Disk B} {s : Screen α B}
    (h : Screen.Reached lib writable file isDigit fm a disk s) : s.Tidy := by
  obtain ⟨sch, is, h⟩ := h
  exact screen_keep Screen.Tidy (fun _ _ _ _ => act_tidy) is 0 _ _ h (startScreen_tidy a disk)

theorem dialog_act {s : Screen α B} (h : s.Tidy) {p : Page} (hp : s.At p) (hd : p ≠ .graph)
    (sch : Nat → NSched α) (i : Act) :
    ∃ s', s.act lib writable file isDigit fm sch i = .ok s' ∧ s.SameBehind s' ∧
      s'.At (match i with
        | .key k => if k = .esc ∨ k = .enter then .graph else p
        | .click _ q _ _ _ => if q = .graph ∨ q = p then .graph else p) := by
  obtain ⟨h1, h2⟩ := h.pages hp
  have hc : (s.hidePage p).At .graph := at_of (hidePage_at h1 hd)
  cases i with
  | key k =>
    refine ⟨s.dialogKey p k, ?_, ?_, ?_⟩
    · unfold Screen.act
      dsimp only
      rw [h2]
      cases p with
      | graph => exact absurd rfl hd
      | table => rfl
      | help => rfl
      | info => rfl
    · unfold Screen.dialogKey
      split_ifs
      · exact ⟨rfl, rfl, rfl, rfl⟩
      · exact ⟨rfl, rfl, rfl, rfl⟩
    · unfold Screen.dialogKey
      dsimp only
      split_ifs
      · exact hc
      · exact hp
  | click b q v x y =>
    unfold Screen.act
    dsimp only
    by_cases hq : q = .graph ∨ q = p
    · rw [if_pos hq, if_pos (by rw [h1, pagesAt_mem]; exact hq)]
      refine ⟨s.hidePage p, ?_, ⟨rfl, rfl, rfl, rfl⟩, hc⟩
      by_cases hg : q = .graph
      · subst hg
        dsimp only
        unfold Screen.graphClick
        rw [h1, frontPage_at]
        cases p with
        | graph => exact absurd rfl hd
        | table => rfl
        | help => rfl
        | info => rfl
      · have := hq.resolve_left hg
        subst this
        cases q with
        | graph => exact absurd rfl hd
        | table => rfl
        | help => rfl
        | info => rfl
    · rw [if_neg hq, if_neg (by rw [h1, pagesAt_mem]; exact hq)]
      exact ⟨s, rfl, ⟨rfl, rfl, rfl, rfl⟩, hp⟩

/-! ## C104 -/

/-- **C104 (one dialog).** Whatever was pressed and clicked since the start: either no dialog is open and the graph gets
the keys, or exactly one is open and it gets the keys. -/
theorem C104_one {a : App α} {disk : Disk B} {s : Screen α B}
    (h : Screen.Reached lib writable file isDigit fm a disk s) : ∃ p, s.At p :=
  (reached_tidy h).at

omit [Zero α] [One α] [Add α] [Mul α] [Div α] [DecidableEq α] in
theorem startScreen_at (a : App α) (disk : Disk B) :
    (startScreen a disk).At (if a.network.info = "" then .graph else .info) ∧ (startScreen a disk).app = a ∧
      (startScreen a disk).disk = disk ∧ (startScreen a disk).running = true := by
  unfold startScreen
  dsimp only
  by_cases hi : a.network.info = ""
  · rw [if_pos hi, if_neg (by simpa using hi)]
    exact ⟨at_of ⟨rfl, rfl⟩, rfl, rfl, rfl⟩
  · rw [if_neg hi, if_pos hi]
    exact ⟨at_of (openDialog_at rfl _), rfl, rfl, rfl⟩

/-- **C104 (the start).** The app starts with the network's description if it has one, and with the graph otherwise. The
files are as before, and the program runs. -/
theorem C104_start [NatCast α] [LE α] [DecidableLE α] [LT α] [DecidableLT α] {sch0 : NSched α} {sch : Nat → NSched α}
    {n : Net α} {evidence : List (String × String)} {a : App α} (ha : startApp fm sch0 sch n evidence = .ok a)
    (disk : Disk B) :
    (startScreen a disk).At (if n.info = "" then .graph else .info) ∧ (startScreen a disk).app = a ∧
      (startScreen a disk).disk = disk ∧ (startScreen a disk).running = true := by
  have := startScreen_at a disk
  rwa [(startApp_holds ha).info] at this

/-- **C104 (closing).** While a dialog is open, ESC, Enter and every click that reaches a widget close it, all other keys
leave it open, and nothing else happens: the app behind it, the files and the border are the same, and the program goes on. -/
theorem C104_dialog {a : App α} {disk : Disk B} {s : Screen α B}
    (h : Screen.Reached lib writable file isDigit fm a disk s) {p : Page} (hp : s.At p) (hd : p ≠ .graph)
    (sch : Nat → NSched α) (i : Act) :
    ∃ s', s.act lib writable file isDigit fm sch i = .ok s' ∧ s.SameBehind s' ∧
      s'.At (match i with
        | .key k => if k = .esc ∨ k = .enter then .graph else p
        | .click _ q _ _ _ => if q = .graph ∨ q = p then .graph else p) :=
  dialog_act (reached_tidy h) hp hd sch i

/-- What an input is meant for when no dialog is open, according to the help page (`app.go:166-179`): an event of the app,
saving, or leaving; nothing for the keys that open the help and info pages. -/
def Act.meaning (isDigit : Char → Bool) : Act → Option Input
  | .key .esc => some .quit
  | .key .ctrlS => some .save
  | .key .tab => some (.event .tab)
  | .key .backtab => some (.event .backtab)
  | .key .enter => some (.event .enter)
  | .key .other => some (.event (.move (Char.ofNat 0)))
  | .key (.rune c) =>
    if c = ' ' then some (.event .space)
    else if isDigit c then some (.event (.digit c))
    else if c = 'h' ∨ c = 'i' then none
    else if c = 't' then some (.event .showTable)
    else if c = 'p' then some (.event .togglePolicies)
    else some (.event (.move c))
  | .click .left .graph v x y => some (.event (.leftClick (x - v.boxX + v.scrollX) (y - v.boxY + v.scrollY)))
  | .click .right .graph v x y => some (.event (.rightClick (x - v.boxX + v.scrollX) (y - v.boxY + v.scrollY)))
  | .click _ _ _ _ _ => none

/-- Does the event show a table? -/
def Event.opensTable (a : App α) : Event → Prop
  | .showTable => True
  | .rightClick x y => ∃ m ∈ a.nodes, m.bounds.contains x y = true
  | _ => False

omit [Zero α] [One α] [Add α] [Mul α] [Div α] [DecidableEq α] in
theorem showTable_eq (s : Screen α B) :
    (∀ f, s.app.showTable = .error f → s.showTable = .error f) ∧
    (∀ a, s.app.showTable = .ok a → a = s.app ∧ ∃ n t, s.showTable =
      .ok (Screen.openDialog .table { s with content := some (" " ++ n.var.name ++ " ", t) }) ∧
        goGetI s.app.nodes s.app.selectedNode = .ok n ∧ newTable s.app.nodes s.app.selectedNode s.app.byName = .ok t) := by
  unfold App.showTable Screen.showTable
  cases hn : goGetI s.app.nodes s.app.selectedNode with
  | error e =>
    have ht : newTable s.app.nodes s.app.selectedNode s.app.byName = .error e := by unfold newTable; rw [hn]; rfl
    rw [ht]
    exact ⟨fun f h => (by cases h; rfl), fun a h => (by cases h)⟩
  | ok n =>
    rw [ok_bind]
    cases newTable s.app.nodes s.app.selectedNode s.app.byName with
    | error e => exact ⟨fun f h => (by cases h; rfl), fun a h => (by cases h)⟩
    | ok t =>
      rw [ok_bind, ok_bind]
      cases t.rowCount with
      | error e => exact ⟨fun f h => (by cases h; rfl), fun a h => (by cases h)⟩
      | ok r => exact ⟨fun f h => (by cases h), fun a h => ⟨(by cases h; rfl), n, t, rfl, rfl, rfl⟩⟩

/-- What an input does when no dialog is open, for its meaning. -/
def Screen.Does (lib : Lib α B) (writable : String → Bool) (file : String) (fm : Fmt α) (sch : Nat → NSched α)
    (s : Screen α B) (r : Except Fault (Screen α B)) : Option Input → Prop
  | none => ∃ s', r = .ok s' ∧ s.SameBehind s'
  | some .quit => ∃ s', r = .ok s' ∧ s'.At .graph ∧ s'.app = s.app ∧ s'.disk = s.disk ∧ s'.running = false
  | some .save => (∀ f, s.app.save lib writable file s.disk = .error f → r = .error f) ∧
      ∀ d, s.app.save lib writable file s.disk = .ok d →
        ∃ s', r = .ok s' ∧ s'.At .graph ∧ s'.app = s.app ∧ s'.disk = d ∧ s'.running = s.running
  | some (.event e) => (∀ f, s.app.step fm sch e = .error f → r = .error f) ∧
      ∀ a, s.app.step fm sch e = .ok a →
        ∃ s', r = .ok s' ∧ s'.app = a ∧ s'.disk = s.disk ∧ s'.running = s.running ∧
          (e.opensTable s.app → s'.At .table) ∧ (¬ e.opensTable s.app → s'.At .graph)

theorem event_does {sch : Nat → NSched α} {s : Screen α B} (hp : s.At .graph) {e : Event} (he : ¬ e.opensTable s.app) :
    s.Does lib writable file fm sch (s.event fm sch e) (some (.event e)) := by
  unfold Screen.event
  constructor
  · intro f h; rw [h]; rfl
  · intro a h
    rw [h]
    exact ⟨_, rfl, rfl, rfl, rfl, fun h => absurd h he, fun _ => hp⟩

theorem graph_act {s : Screen α B} (h : s.Tidy) (hp : s.At .graph) (sch : Nat → NSched α) (i : Act) :
    s.Does lib writable file fm sch (s.act lib writable file isDigit fm sch i) (i.meaning isDigit) := by
  obtain ⟨h1, h2⟩ := h.pages hp
  cases i with
  | key k =>
    unfold Screen.act
    dsimp only
    rw [h2]
    dsimp only
    cases k with
    | esc => exact ⟨_, rfl, hp, rfl, rfl, rfl⟩
    | tab => exact event_does hp (by rintro ⟨⟩)
    | backtab => exact event_does hp (by rintro ⟨⟩)
    | enter => exact event_does hp (by rintro ⟨⟩)
    | other => exact event_does hp (by rintro ⟨⟩)
    | ctrlS =>
      unfold Screen.mainKey
      constructor
      · intro f h; rw [h]; rfl
      · intro d h; rw [h]; exact ⟨_, rfl, hp, rfl, rfl, rfl⟩
    | rune c =>
      unfold Screen.mainKey Act.meaning Screen.runeKey
      dsimp only
      by_cases c1 : c = ' '
      · rw [if_pos c1, if_pos c1]; exact event_does hp (by rintro ⟨⟩)
      rw [if_neg c1, if_neg c1]
      by_cases c2 : isDigit c = true
      · rw [if_pos c2, if_pos c2]; exact event_does hp (by rintro ⟨⟩)
      rw [if_neg c2, if_neg c2]
      by_cases c3 : c = 'h'
      · rw [if_pos c3, if_pos (.inl c3)]
        exact ⟨_, rfl, rfl, rfl, rfl, rfl⟩
      rw [if_neg c3]
      by_cases c4 : c = 'i'
      · rw [if_pos c4, if_pos (.inr c4)]
        exact ⟨_, rfl, rfl, rfl, rfl, rfl⟩
      have c34 : ¬ (c = 'h' ∨ c = 'i') := fun h => h.elim c3 c4
      rw [if_neg c4, if_neg c34]
      by_cases c5 : c = 't'
      · rw [if_pos c5, if_pos c5]
        obtain ⟨t1, t2⟩ := showTable_eq s
        refine ⟨t1, fun a ha => ?_⟩
        obtain ⟨rfl, n, t, t3, _⟩ := t2 a ha
        refine ⟨_, t3, rfl, rfl, rfl, fun _ => at_of (openDialog_at (s := { s with content := _ }) h1 .table), fun hn => absurd trivial hn⟩
      rw [if_neg c5, if_neg c5]
      by_cases c6 : c = 'p'
      · rw [if_pos c6, if_pos c6]
        exact event_does (lib := lib) (writable := writable) (file := file) (s := { s with blue := !s.app.ignorePolicies }) hp (by rintro ⟨⟩)
      rw [if_neg c6, if_neg c6]
      exact event_does hp (by rintro ⟨⟩)
  | click b q v x y =>
    unfold Screen.act
    dsimp only
    by_cases hq : q = .graph
    · subst hq
      rw [if_pos (by rw [h1, pagesAt_mem]; exact .inl rfl)]
      dsimp only
      unfold Screen.graphClick
      rw [h1, frontPage_at]
      cases b with
      | left => exact event_does hp (by rintro ⟨⟩)
      | right =>
        change s.Does lib writable file fm sch (s.rightClick fm (x - v.boxX + v.scrollX) (y - v.boxY + v.scrollY))
          (some (.event (.rightClick (x - v.boxX + v.scrollX) (y - v.boxY + v.scrollY))))
        generalize x - v.boxX + v.scrollX = x
        generalize y - v.boxY + v.scrollY = y
        unfold Screen.Does App.step App.rightClick Screen.rightClick
        dsimp only
        cases hf : s.app.nodes.zipIdx.find? (fun p => p.1.bounds.contains x y) with
        | none =>
          refine ⟨fun f h => (by cases h), fun a h => ?_⟩
          cases h
          refine ⟨s, rfl, rfl, rfl, rfl, fun ho => ?_, fun _ => hp⟩
          obtain ⟨m, hm, hc⟩ := ho
          obtain ⟨j, hj⟩ := List.getElem?_of_mem hm
          have := List.find?_eq_none.1 hf (m, j) (by rw [List.mem_zipIdx_iff_getElem?]; exact hj)
          exact absurd hc this
        | some mi =>
          obtain ⟨m, j⟩ := mi
          dsimp only
          have ho : (Event.rightClick x y).opensTable s.app := by
            have hmem := List.mem_of_find?_eq_some hf
            rw [List.mem_zipIdx_iff_getElem?] at hmem
            exact ⟨m, List.mem_of_getElem? hmem, by simpa using List.find?_some hf⟩
          cases hr : App.render fm { s.app with selectedNode := (j : Int) } true with
          | error e =>
            exact ⟨fun f h => (by cases h; rfl), fun a h => (by cases h)⟩
          | ok b =>
            rw [ok_bind, ok_bind]
            obtain ⟨t1, t2⟩ := showTable_eq { s with app := b }
            refine ⟨t1, fun a ha => ?_⟩
            obtain ⟨e, n, t, t3, _⟩ := t2 a ha
            subst e
            exact ⟨_, t3, rfl, rfl, rfl, fun _ => at_of (openDialog_at (s := { s with app := _, content := _ }) h1 .table), fun hn => absurd ho hn⟩
    · have : (q, true) ∉ s.pages := by
        rw [h1, pagesAt_mem]
        rintro (h | h) <;> exact hq h
      rw [if_neg this]
      have hm : (Act.click b q v x y).meaning isDigit = none := by
        cases q <;> first | exact absurd rfl hq | (cases b <;> rfl)
      rw [hm]
      exact ⟨s, rfl, rfl, rfl, rfl, rfl⟩

/-- **C104 (the graph).** While no dialog is open, every key and click does what the help page says, to the node at the
place of the click: an event of the app, saving or leaving (`Act.meaning`), with the same faults. A table is opened by `t`
and by a right click on a node, and by nothing else. -/
theorem C104_graph {a : App α} {disk : Disk B} {s : Screen α B}
    (h : Screen.Reached lib writable file isDigit fm a disk s) (hp : s.At .graph) (sch : Nat → NSched α) (i : Act) :
    s.Does lib writable file fm sch (s.act lib writable file isDigit fm sch i) (i.meaning isDigit) :=
  graph_act (reached_tidy h) hp sch i

/-- **C104 (help and info).** While no dialog is open, `h` opens the help page and `i` the network's description. -/
theorem C104_open {a : App α} {disk : Disk B} {s : Screen α B}
    (h : Screen.Reached lib writable file isDigit fm a disk s) (hp : s.At .graph) (hdig : isDigit 'h' = false ∧ isDigit 'i' = false)
    (sch : Nat → NSched α) :
    (∃ s', s.act lib writable file isDigit fm sch (.key (.rune 'h')) = .ok s' ∧ s'.At .help ∧ s.SameBehind s') ∧
    (∃ s', s.act lib writable file isDigit fm sch (.key (.rune 'i')) = .ok s' ∧ s'.At .info ∧ s.SameBehind s') := by
  obtain ⟨h1, h2⟩ := (reached_tidy h).pages hp
  constructor
  · refine ⟨s.openDialog .help, ?_, at_of (openDialog_at h1 _), rfl, rfl, rfl, rfl⟩
    unfold Screen.act
    dsimp only
    rw [h2]
    simp [Screen.mainKey, Screen.runeKey, hdig.1]
  · refine ⟨s.openDialog .info, ?_, at_of (openDialog_at h1 _), rfl, rfl, rfl, rfl⟩
    unfold Screen.act
    dsimp only
    rw [h2]
    simp [Screen.mainKey, Screen.runeKey, hdig.2]

/-! ### Whole sessions -/

theorem session_shift {sch : Nat → Nat → NSched α} : ∀ (is : List Input) (k : Nat) (a : App α) (disk : Disk B),
    App.session lib writable file fm sch (k + 1) is a disk = App.session lib writable file fm (fun n => sch (n + 1)) k is a disk := by
  intro is
  induction is with
  | nil => intros; rfl
  | cons i is ih =>
    intro k a disk
    cases i with
    | quit => rfl
    | save =>
      rw [App.session, App.session]
      cases a.save lib writable file disk with
      | error e => rfl
      | ok d => exact ih _ _ _
    | event e =>
      rw [App.session, App.session]
      cases a.step fm (sch (k + 1)) e with
      | error e => rfl
      | ok b => exact ih _ _ _

/-- A schedule with another one in front. -/
def consSched (s : Nat → NSched α) (sch : Nat → Nat → NSched α) : Nat → Nat → NSched α
  | 0 => s
  | n + 1 => sch n

theorem run_session {sch : Nat → Nat → NSched α} : ∀ (is : List Act) (k : Nat) (s : Screen α B), s.Tidy →
    ∃ sch' js, List.Sublist js (is.filterMap (Act.meaning isDigit)) ∧
      App.session lib writable file fm sch' 0 js s.app s.disk =
        ((Screen.run lib writable file isDigit fm sch k is s).1,
          (Screen.run lib writable file isDigit fm sch k is s).2.map Screen.app) := by
  intro is
  induction is with
  | nil => intro k s _; exact ⟨sch, [], .slnil, rfl⟩
  | cons i is ih =>
    intro k s ht
    rw [Screen.run]
    by_cases hr : s.running = true
    swap
    · rw [if_neg hr]
      exact ⟨sch, [], List.nil_sublist _, rfl⟩
    rw [if_pos hr]
    obtain ⟨p, hp⟩ := ht.at
    by_cases hd : p = .graph
    · subst hd
      have hdo := graph_act (lib := lib) (writable := writable) (file := file) (fm := fm) (isDigit := isDigit) ht hp (sch k) i
      have hnext : ∀ s', s.act lib writable file isDigit fm (sch k) i = .ok s' → s'.Tidy := fun s' h => act_tidy ht h
      cases hm : i.meaning isDigit with
      | none =>
        rw [hm] at hdo
        obtain ⟨s', e, b1, b2, _⟩ := hdo
        obtain ⟨sch', js, j1, j2⟩ := ih (k + 1) s' (hnext s' e)
        rw [e, List.filterMap_cons_none hm, ← b1, ← b2]
        exact ⟨sch', js, j1, j2⟩
      | some inp =>
        rw [hm] at hdo
        rw [List.filterMap_cons_some hm]
        cases inp with
        | quit =>
          obtain ⟨s', e, _, b1, b2, b3⟩ := hdo
          refine ⟨sch, [.quit], (List.nil_sublist _).cons_cons _, ?_⟩
          rw [e]
          dsimp only
          have : Screen.run lib writable file isDigit fm sch (k + 1) is s' = (s'.disk, .ok s') := by
            cases is with
            | nil => rfl
            | cons j is => rw [Screen.run, if_neg (by rw [b3]; decide)]
          rw [this, App.session, b2]
          dsimp only [Except.map]
          rw [b1]
        | save =>
          obtain ⟨d1, d2⟩ := hdo
          cases hs : s.app.save lib writable file s.disk with
          | error f =>
            refine ⟨sch, [.save], (List.nil_sublist _).cons_cons _, ?_⟩
            rw [d1 f hs, App.session, hs]
            rfl
          | ok d =>
            obtain ⟨s', e, _, b1, b2, _⟩ := d2 d hs
            obtain ⟨sch', js, j1, j2⟩ := ih (k + 1) s' (hnext s' e)
            refine ⟨consSched (sch k) sch', .save :: js, j1.cons_cons _, ?_⟩
            rw [e, App.session, hs]
            dsimp only
            rw [session_shift, ← j2, b1, b2]
            rfl
        | event ev =>
          obtain ⟨d1, d2⟩ := hdo
          cases hs : s.app.step fm (sch k) ev with
          | error f =>
            refine ⟨consSched (sch k) sch, [.event ev], (List.nil_sublist _).cons_cons _, ?_⟩
            rw [d1 f hs, App.session]
            change (match s.app.step fm (sch k) ev with
              | .error e => _
              | .ok a => _) = _
            rw [hs]
            rfl
          | ok b =>
            obtain ⟨s', e, b1, b2, _⟩ := d2 b hs
            obtain ⟨sch', js, j1, j2⟩ := ih (k + 1) s' (hnext s' e)
            refine ⟨consSched (sch k) sch', .event ev :: js, j1.cons_cons _, ?_⟩
            rw [e, App.session]
            change (match s.app.step fm (sch k) ev with
              | .error e => _
              | .ok a => _) = _
            rw [hs]
            dsimp only
            rw [session_shift, ← j2, b1, b2]
            rfl
    · obtain ⟨s', e, ⟨b1, b2, _, _⟩, _⟩ := dialog_act (lib := lib) (writable := writable) (file := file) (fm := fm)
        (isDigit := isDigit) ht hp hd (sch k) i
      obtain ⟨sch', js, j1, j2⟩ := ih (k + 1) s' (act_tidy ht e)
      rw [e, ← b1, ← b2]
      refine ⟨sch', js, ?_, j2⟩
      cases hm : i.meaning isDigit with
      | none => rw [List.filterMap_cons_none hm]; exact j1
      | some inp => rw [List.filterMap_cons_some hm]; exact j1.cons _

/-- **C104 (sessions).** Whatever is pressed and clicked, the app, the files and the fault at the end are those of a session
without dialogs: of some of the inputs, in their order and with the meaning they have for the graph. So what was proved for
all such sessions (C69–C71, C78, C79, C90–C94, C102, C103) holds for the app with its dialogs. -/
theorem C104_session (a : App α) (disk : Disk B) (sch : Nat → Nat → NSched α) (is : List Act) :
    ∃ sch' js, List.Sublist js (is.filterMap (Act.meaning isDigit)) ∧
      App.session lib writable file fm sch' 0 js a disk =
        ((Screen.run lib writable file isDigit fm sch 0 is (startScreen a disk)).1,
          (Screen.run lib writable file isDigit fm sch 0 is (startScreen a disk)).2.map Screen.app) := by
  obtain ⟨_, h1, h2, _⟩ := startScreen_at a disk
  obtain ⟨sch', js, j1, j2⟩ := run_session (lib := lib) (writable := writable) (file := file) (fm := fm)
    (isDigit := isDigit) (sch := sch) is 0 (startScreen a disk) (startScreen_tidy a disk)
  rw [h1, h2] at j2
  exact ⟨sch', js, j1, j2⟩

/-! ## C105 -/

theorem step_ignore {sch : Nat → NSched α} {a a' : App α} {e : Event} (h : a.step fm sch e = .ok a') :
    a'.ignorePolicies = match e with
      | .togglePolicies => !a.ignorePolicies
      | _ => a.ignorePolicies := by
  cases e with
  | tab =>
    rw [App.step] at h
    split_ifs at h
    exact (App.render_same h).ignorePolicies
  | backtab =>
    rw [App.step] at h
    exact (App.render_same h).ignorePolicies
  | space =>
    rw [App.step] at h
    obtain ⟨n, _, h⟩ := bind_inv h
    split_ifs at h
    exact (App.render_same h).ignorePolicies
  | digit c =>
    rw [App.step, App.selectNodeOutcome] at h
    cases hg : goAtoi (String.singleton c) with
    | none => rw [hg] at h; cases h
    | some i =>
      rw [hg] at h
      obtain ⟨n, _, h⟩ := bind_inv h
      split_ifs at h
      · exact (App.render_same h).ignorePolicies
      · cases h; rfl
  | enter =>
    rw [App.step] at h
    obtain ⟨b, hb, h⟩ := bind_inv h
    obtain ⟨_, _, _, _, _, _, h6, _⟩ := inputEnter_inv hb
    exact (App.render_same h).ignorePolicies.trans h6
  | showTable =>
    rw [App.step] at h
    obtain ⟨_, _, h⟩ := bind_inv h
    obtain ⟨_, _, h⟩ := bind_inv h
    cases h
    rfl
  | togglePolicies =>
    rw [App.step, App.toggleIgnorePolicy] at h
    have hu := (updateMarginals_same (sch := sch) { a with ignorePolicies := !a.ignorePolicies }).2.2.2.2.2.1
    rcases hs : App.updateMarginals sch { a with ignorePolicies := !a.ignorePolicies } with ⟨r, b⟩
    rw [hs] at h hu
    match r, h with
    | .ok (), h => exact (App.render_same h).ignorePolicies.trans hu
    | .error (.error _), h => exact (App.render_same h).ignorePolicies.trans hu
  | move key =>
    rw [App.step] at h
    unfold App.moveNode at h
    obtain ⟨n, hn, h⟩ := bind_inv h
    obtain ⟨d, _, h⟩ := bind_inv h
    split_ifs at h
    · cases h; rfl
    · obtain ⟨v, hv, h⟩ := bind_inv h
      obtain ⟨ns, hns, h⟩ := bind_inv h
      obtain ⟨vs, hvs, h⟩ := bind_inv h
      obtain ⟨g, _, h⟩ := bind_inv h
      exact (App.render_same h).ignorePolicies
  | leftClick x y =>
    rw [App.step, App.leftClick] at h
    split at h
    · cases h; rfl
    · rename_i n i _
      obtain ⟨b, hb, h⟩ := bind_inv h
      cases ho : n.selectedOutcome x y with
      | some o =>
        rw [ho] at hb
        obtain ⟨_, _, _, _, _, _, h6, _⟩ := inputEnter_inv hb
        exact (App.render_same h).ignorePolicies.trans h6
      | none =>
        rw [ho] at hb; cases hb
        exact (App.render_same h).ignorePolicies
  | rightClick x y =>
    rw [App.step, App.rightClick] at h
    split at h
    · cases h; rfl
    · obtain ⟨b, hb, h⟩ := bind_inv h
      obtain ⟨_, _, h⟩ := bind_inv h
      obtain ⟨_, _, h⟩ := bind_inv h
      cases h
      exact (App.render_same hb).ignorePolicies

/-- What the widgets show beside the graph: the border tells whether policies are ignored, and an open table is that of
the selected node. -/
def Screen.Faithful (s : Screen α B) : Prop :=
  s.blue = s.app.ignorePolicies ∧ (s.focus = some .table → ∃ n t,
    goGetI s.app.nodes s.app.selectedNode = .ok n ∧ newTable s.app.nodes s.app.selectedNode s.app.byName = .ok t ∧
    s.content = some (" " ++ n.var.name ++ " ", t))

omit [Zero α] [One α] [Add α] [Mul α] [Div α] [DecidableEq α] in
theorem showTable_faithful {s s' : Screen α B} (hb : s.blue = s.app.ignorePolicies) (h : s.showTable = .ok s') :
    s'.Faithful := by
  obtain ⟨n, t, h1, h2, rfl⟩ := showTable_inv h
  exact ⟨hb, fun _ => ⟨n, t, h1, h2, rfl⟩⟩

theorem event_faithful {sch : Nat → NSched α} {s s' : Screen α B} {e : Event} (hf : s.focus = some .graph)
    (hb : s.blue = s.app.ignorePolicies) (he : e ≠ .togglePolicies) (h : s.event fm sch e = .ok s') : s'.Faithful := by
  obtain ⟨a, h1, rfl⟩ := event_inv h
  refine ⟨?_, fun h => ?_⟩
  · change s.blue = a.ignorePolicies
    rw [step_ignore h1, hb]
    cases e <;> first | rfl | exact absurd rfl he
  · change s.focus = _ at h
    rw [hf] at h
    cases h

theorem act_faithful {sch : Nat → NSched α} {s s' : Screen α B} {i : Act} (ht : s.Tidy) (hf : s.Faithful)
    (h : s.act lib writable file isDigit fm sch i = .ok s') : s'.Faithful := by
  obtain ⟨p, hp⟩ := ht.at
  obtain ⟨h1, h2⟩ := ht.pages hp
  have hb := hf.1
  have hno : ∀ {t : Screen α B} {q : Page}, q ≠ .table → t.focus = some q → t.blue = t.app.ignorePolicies → t.Faithful := by
    intro t q hq ht hb
    refine ⟨hb, fun h => ?_⟩
    rw [ht] at h
    exact absurd (Option.some.inj h) hq
  by_cases hd : p = .graph
  · subst hd
    cases i with
    | key k =>
      unfold Screen.act at h
      dsimp only at h
      rw [h2] at h
      dsimp only at h
      cases k with
      | esc => cases h; exact hf
      | tab => exact event_faithful h2 hb (by simp) h
      | backtab => exact event_faithful h2 hb (by simp) h
      | enter => exact event_faithful h2 hb (by simp) h
      | other => exact event_faithful h2 hb (by simp) h
      | ctrlS =>
        obtain ⟨d, _, h⟩ := bind_inv h
        cases h
        exact hf
      | rune c =>
        unfold Screen.mainKey at h
        dsimp only at h
        unfold Screen.runeKey at h
        split_ifs at h
        · exact event_faithful h2 hb (by simp) h
        · exact event_faithful h2 hb (by simp) h
        · cases h; exact hno (q := .help) (by simp) rfl hb
        · cases h; exact hno (q := .info) (by simp) rfl hb
        · exact showTable_faithful hb h
        · obtain ⟨a, e1, rfl⟩ := event_inv h
          exact hno (q := .graph) (by simp) h2 (step_ignore e1).symm
        · exact event_faithful h2 hb (by simp) h
    | click b q v x y =>
      unfold Screen.act at h
      dsimp only at h
      split_ifs at h with hm
      · rw [h1, pagesAt_mem] at hm
        have hq : q = .graph := hm.elim id id
        subst hq
        dsimp only at h
        unfold Screen.graphClick at h
        rw [h1, frontPage_at] at h
        cases b with
        | left => exact event_faithful h2 hb (by simp) h
        | right =>
          rcases rightClick_inv h with rfl | ⟨i, a, e, h3⟩
          · exact hf
          · exact showTable_faithful (s := { s with app := a }) (hb.trans (App.render_same e).ignorePolicies.symm) h3
      · cases h; exact hf
  · obtain ⟨s1, e, ⟨b1, b2, b3, b4⟩, b5⟩ := dialog_act (lib := lib) (writable := writable) (file := file) (fm := fm)
      (isDigit := isDigit) ht hp hd sch i
    rw [h] at e
    cases e
    have hb' : s'.blue = s'.app.ignorePolicies := by rw [b3, b1]; exact hb
    by_cases hs : s' = s
    · rw [hs]; exact hf
    · refine hno (q := .graph) (by simp) ?_ hb'
      cases i with
      | key k =>
        unfold Screen.act at h
        dsimp only at h
        rw [h2] at h
        have e : s.dialogKey p k = s' := by
          cases p with
          | graph => exact absurd rfl hd
          | table => exact Except.ok.inj h
          | help => exact Except.ok.inj h
          | info => exact Except.ok.inj h
        unfold Screen.dialogKey at e
        split_ifs at e
        · rw [← e]; exact (hidePage_at h1 hd).2
        · exact absurd e.symm hs
      | click b q v x y =>
        dsimp only at b5
        split_ifs at b5 with hq
        · exact b5.2
        · unfold Screen.act at h
          dsimp only at h
          rw [if_neg (by rw [h1, pagesAt_mem]; exact hq)] at h
          exact absurd (Except.ok.inj h).symm hs

theorem reached_faithful {a : App α} {disk : Disk B} (ha : a.ignorePolicies = false) {s : Screen α B}
    (h : Screen.Reached lib writable file isDigit fm a disk s) : s.Faithful := by
  obtain ⟨sch, is, h⟩ := h
  refine (screen_keep (fun s => s.Tidy ∧ s.Faithful) (fun _ _ _ _ h1 h2 => ⟨act_tidy h1.1 h2, act_faithful h1.1 h1.2 h2⟩)
    is 0 _ _ h ⟨startScreen_tidy a disk, ?_⟩).2
  unfold startScreen
  dsimp only
  split_ifs
  · exact ⟨ha.symm, fun h => by cases h⟩
  · exact ⟨ha.symm, fun h => by cases h⟩

/-- **C105 (the border).** At any time after the app was started, the border of the graph is blue exactly while policies
are ignored. -/
theorem C105_border [NatCast α] [LE α] [DecidableLE α] [LT α] [DecidableLT α] {sch0 : NSched α} {sch : Nat → NSched α}
    {n : Net α} {evidence : List (String × String)} {a : App α} (ha : startApp fm sch0 sch n evidence = .ok a)
    {disk : Disk B} {s : Screen α B} (h : Screen.Reached lib writable file isDigit fm a disk s) :
    s.blue = s.app.ignorePolicies :=
  (reached_faithful (startApp_inv ha).1.ignorePolicies h).1

end

end Bbn
