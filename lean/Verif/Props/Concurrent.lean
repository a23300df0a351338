import Verif.Spec.Concurrent
import Verif.Props.NetCalls
import Verif.Props.NetQuery

/-!
# C129: goroutines that share networks
-/

set_option autoImplicit false

namespace Bbn

variable {α : Type}

section

variable [Zero α] [One α] [Add α] [Mul α] [Div α] [DecidableEq α]

/-- What a call returns if it goes on from the given stage and no other goroutine interferes. -/
def GoCall.finish (c : GoCall α) (st : Stage α) (s : SharedNet α) : Answer α :=
  match st with
  | .entered => c.alone s.net
  | .built =>
    match s.solver with
    | none => c.alone s.net
    | some ve =>
      match c.read s.net.names with
      | .error e => .error e
      | .ok (ev, q, u) =>
        match c.ask ve ev q u with
        | .error e => .error e
        | .ok (f, ve) =>
          match c.utility with
          | none => (Net.queryLoop f c.query [] { s.net with vs := some ve.vs }).1.map (fun r => (r, f))
          | some _ => .ok ([], f)
  | .named ev q u =>
    match s.solver with
    | none => .error (.panic "nil pointer dereference")
    | some ve =>
      match c.ask ve ev q u with
      | .error e => .error e
      | .ok (f, ve) =>
        match c.utility with
        | none => (Net.queryLoop f c.query [] { s.net with vs := some ve.vs }).1.map (fun r => (r, f))
        | some _ => .ok ([], f)
  | .marginals f left result => (Net.queryLoop f left result s.net).1.map (fun r => (r, f))

/-- A stage that can be: after line 349 there is a solver. -/
def Stage.Fits (st : Stage α) (s : SharedNet α) : Prop :=
  match st with
  | .built => s.solver.isSome
  | _ => True

omit [One α] [Mul α] in
theorem enter_ok_vs {sch : NSched α} {n m : Net α} {evd : List (String × String)} {ve : VE α}
    (h : n.enter sch 0 evd = (.ok ve, m)) : m.vs = some ve.vs := by
  unfold Net.enter at h
  split at h
  · cases h; rfl
  · cases h
  · cases h

omit [Div α] [DecidableEq α] in
theorem alone_read (c : GoCall α) (ve : VE α) (names : List (String × NVar × Var)) :
    solveNamed c.sch ve names c.evidence c.query c.utility.isSome (c.utility.getD "") =
      (c.read names >>= fun r => c.ask ve r.1 r.2.1 r.2.2) := by
  unfold solveNamed GoCall.read GoCall.ask
  cases c.utility <;> simp [bind_assoc]

/-- What is returned alone, in terms of the stages. -/
theorem alone_eq (c : GoCall α) (n : Net α) : c.alone n =
    match n.enter c.sch 0 (if c.ignorePolicies then c.evidence else []) with
    | (.error e, _) => .error e
    | (.ok ve, m) =>
      match c.read m.names with
      | .error e => .error e
      | .ok (ev, q, u) =>
        match c.ask ve ev q u with
        | .error e => .error e
        | .ok (f, ve) =>
          match c.utility with
          | none => (Net.queryLoop f c.query [] { m with vs := some ve.vs }).1.map (fun r => (r, f))
          | some _ => .ok ([], f) := by
  have key : n.solve c.sch c.evidence c.query c.utility.isSome (c.utility.getD "") c.ignorePolicies =
      match n.enter c.sch 0 (if c.ignorePolicies then c.evidence else []) with
      | (.error e, n) => (.error e, n)
      | (.ok ve, n) =>
        match (c.read n.names >>= fun r => c.ask ve r.1 r.2.1 r.2.2) with
        | .error e => (.error e, n)
        | .ok (f, ve) => (.ok f, { n with vs := some ve.vs }) := by
    unfold Net.solve
    simp only [alone_read]
    rfl
  unfold GoCall.alone
  generalize n.enter c.sch 0 (if c.ignorePolicies then c.evidence else []) = r at key ⊢
  obtain ⟨r, m⟩ := r
  cases hu : c.utility with
  | none =>
    simp only [hu, Option.isSome_none, Option.getD_none] at key ⊢
    unfold Net.solveQuery
    rw [key]
    cases r with
    | error e => rfl
    | ok ve =>
      dsimp only
      cases c.read m.names with
      | error e => rfl
      | ok r =>
        obtain ⟨ev, q, u⟩ := r
        dsimp only
        rw [ok_bind]
        cases c.ask ve ev q u with
        | error e => rfl
        | ok r =>
          obtain ⟨f, ve⟩ := r
          dsimp only
          generalize Net.queryLoop f c.query [] { m with vs := some ve.vs } = r
          obtain ⟨r, _⟩ := r
          cases r <;> rfl
  | some u =>
    simp only [hu, Option.isSome_some, Option.getD_some] at key ⊢
    unfold Net.solveUtility
    rw [key]
    cases r with
    | error e => rfl
    | ok ve =>
      dsimp only
      cases c.read m.names with
      | error e => rfl
      | ok r =>
        obtain ⟨ev, q, u⟩ := r
        dsimp only
        rw [ok_bind]
        cases c.ask ve ev q u with
        | error e => rfl
        | ok r => rfl

omit [Zero α] [One α] [Add α] [Mul α] [Div α] [DecidableEq α] in
theorem solver_after {n : Net α} {ve : VE α} (h : n.vs = some ve.vs) :
    SharedNet.solver ⟨n, some ve⟩ = some ve := by
  unfold SharedNet.solver
  rw [h]

/-- A step leaves what the call will return as it is. -/
theorem step_finish (c : GoCall α) (st : Stage α) (s : SharedNet α) (hs : st.Fits s) :
    (∀ st' s', c.step st s = (.inl st', s') → st'.Fits s' ∧ c.finish st' s' = c.finish st s) ∧
      ∀ a s', c.step st s = (.inr a, s') → a = c.finish st s := by
  cases st with
  | entered =>
    unfold GoCall.step GoCall.finish
    dsimp only
    rw [alone_eq]
    generalize hr : s.net.enter c.sch 0 (if c.ignorePolicies then c.evidence else []) = r
    obtain ⟨r, m⟩ := r
    cases r with
    | error e =>
      refine ⟨fun st' s' h => (by cases h), fun a s' h => by cases h; rfl⟩
    | ok ve =>
      refine ⟨fun st' s' h => ?_, fun a s' h => by cases h⟩
      cases h
      have := solver_after (enter_ok_vs hr)
      refine ⟨by simp [Stage.Fits, this], ?_⟩
      dsimp only
      rw [this]
  | built =>
    obtain ⟨ve, hve⟩ := Option.isSome_iff_exists.1 hs
    unfold GoCall.step GoCall.finish
    dsimp only
    rw [hve]
    dsimp only
    cases hr : c.read s.net.names with
    | error e => exact ⟨fun st' s' h => (by cases h), fun a s' h => by cases h; rfl⟩
    | ok r =>
      obtain ⟨ev, q, u⟩ := r
      refine ⟨fun st' s' h => ?_, fun a s' h => by cases h⟩
      cases h
      refine ⟨trivial, ?_⟩
      dsimp only
      rw [hve]
  | named ev q u =>
    unfold GoCall.step GoCall.finish
    dsimp only
    cases hve : s.solver with
    | none => exact ⟨fun st' s' h => (by cases h), fun a s' h => by cases h; rfl⟩
    | some ve =>
      dsimp only
      cases c.ask ve ev q u with
      | error e => exact ⟨fun st' s' h => (by cases h), fun a s' h => by cases h; rfl⟩
      | ok r =>
        obtain ⟨f, ve⟩ := r
        dsimp only
        cases c.utility with
        | none => exact ⟨fun st' s' h => (by cases h; exact ⟨trivial, rfl⟩), fun a s' h => by cases h⟩
        | some _ => exact ⟨fun st' s' h => (by cases h), fun a s' h => by cases h; rfl⟩
  | marginals f left result =>
    unfold GoCall.step GoCall.finish
    dsimp only
    cases left with
    | nil => exact ⟨fun st' s' h => (by cases h), fun a s' h => by cases h; rfl⟩
    | cons q qs =>
      rw [Net.queryLoop]
      dsimp only
      generalize s.net.marginal f q = r
      obtain ⟨r, m⟩ := r
      cases r with
      | error e => exact ⟨fun st' s' h => (by cases h), fun a s' h => by cases h; rfl⟩
      | ok g =>
        dsimp only
        generalize m.normalize g = r
        obtain ⟨r, l⟩ := r
        cases r with
        | error e => exact ⟨fun st' s' h => (by cases h), fun a s' h => by cases h; rfl⟩
        | ok g => exact ⟨fun st' s' h => (by cases h; exact ⟨trivial, rfl⟩), fun a s' h => by cases h⟩

/-- A step leaves the tables and policies of the network as they are. -/
theorem step_core (c : GoCall α) (st : Stage α) (s : SharedNet α) : s.net.SameCore (c.step st s).2.net := by
  cases st with
  | entered =>
    unfold GoCall.step
    dsimp only
    have := enter_core c.sch 0 s.net (if c.ignorePolicies then c.evidence else [])
    generalize s.net.enter c.sch 0 (if c.ignorePolicies then c.evidence else []) = r at this ⊢
    obtain ⟨r, m⟩ := r
    cases r <;> exact this
  | built =>
    unfold GoCall.step
    dsimp only
    cases c.read s.net.names <;> exact .rfl
  | named ev q u =>
    unfold GoCall.step
    dsimp only
    cases s.solver with
    | none => exact .rfl
    | some ve =>
      dsimp only
      cases c.ask ve ev q u with
      | error e => exact .rfl
      | ok r => exact ⟨some r.2.vs, s.net.names, rfl⟩
  | marginals f left result =>
    unfold GoCall.step
    dsimp only
    cases left with
    | nil => exact .rfl
    | cons q qs =>
      dsimp only
      have h1 := marginal_core s.net f q
      generalize s.net.marginal f q = r at h1 ⊢
      obtain ⟨r, m⟩ := r
      cases r with
      | error e => exact h1
      | ok g =>
        dsimp only
        have h2 := withVs_core m (fun vs => vs.normalize g)
        change m.SameCore (m.normalize g).2 at h2
        generalize m.normalize g = r at h2 ⊢
        obtain ⟨r, l⟩ := r
        cases r <;> exact h1.trans h2

/-- What is returned alone depends only on tables and policies. -/
theorem alone_core (c : GoCall α) {n m : Net α} (h : n.SameCore m) : c.alone m = c.alone n := by
  obtain ⟨a, b, rfl⟩ := h
  unfold GoCall.alone
  cases c.utility with
  | some u =>
    dsimp only
    unfold Net.solveUtility
    rw [(solve_reset n a b c.sch c.evidence c.query true u c.ignorePolicies).1]
  | none =>
    dsimp only
    obtain ⟨h1, h2⟩ := solve_reset n a b c.sch c.evidence c.query false "" c.ignorePolicies
    unfold Net.solveQuery
    rcases h2 with ⟨e, he⟩ | h2
    · generalize n.solve c.sch c.evidence c.query false "" c.ignorePolicies = r at h1 he ⊢
      change (Net.solve c.sch { n with vs := a, names := b } c.evidence c.query false "" c.ignorePolicies).1 = _ at h1
      generalize Net.solve c.sch { n with vs := a, names := b } c.evidence c.query false "" c.ignorePolicies = r' at h1 ⊢
      obtain ⟨r1, r2⟩ := r
      obtain ⟨r1', r2'⟩ := r'
      dsimp only at h1 he
      subst h1 he
      rfl
    · change Net.solve c.sch { n with vs := a, names := b } c.evidence c.query false "" c.ignorePolicies = _ at h2
      rw [h2]

/-- What holds as long as no two calls on one network overlap. -/
structure Program.Inv (nets : List (Net α)) (w : Program α) : Prop where
  len : w.nets.length = nets.length
  core : ∀ (k : Nat) n s, nets[k]? = some n → w.nets[k]? = some s → n.SameCore s.net
  now : ∀ (i : Nat) (g : Goroutine α) c st, w.goroutines[i]? = some g → g.now = some (c, st) →
    ∀ n s, nets[c.net]? = some n → w.nets[c.net]? = some s → st.Fits s ∧ c.finish st s = c.alone n
  ret : ∀ (i : Nat) (g : Goroutine α) c a, w.goroutines[i]? = some g → (c, a) ∈ g.returned →
    ∃ n, nets[c.net]? = some n ∧ a = c.alone n

theorem start_inv (nets : List (Net α)) (calls : List (List (GoCall α))) : (Program.start nets calls).Inv nets := by
  constructor
  · simp [Program.start]
  · intro k n s h1 h2
    simp only [Program.start, List.getElem?_map, h1, Option.map_some, Option.some.injEq] at h2
    subst h2
    exact .rfl
  · intro i g c st h1 h2
    simp only [Program.start, List.getElem?_map, Option.map_eq_some_iff] at h1
    obtain ⟨cs, _, rfl⟩ := h1
    cases h2
  · intro i g c a h1 h2
    simp only [Program.start, List.getElem?_map, Option.map_eq_some_iff] at h1
    obtain ⟨cs, _, rfl⟩ := h1
    cases h2

theorem program_step_inv {nets : List (Net α)} {w : Program α} (h : w.Inv nets) (ha : w.Apart) (i : Nat) :
    (w.step i).Inv nets := by
  unfold Program.step
  cases hg : w.goroutines[i]? with
  | none => exact h
  | some g =>
    have hi : i < w.goroutines.length := (List.getElem?_eq_some_iff.1 hg).1
    dsimp only
    cases hn : g.now with
    | none =>
      dsimp only
      cases ht : g.todo with
      | nil => exact h
      | cons c cs =>
        dsimp only
        refine ⟨h.len, h.core, fun j g' c' st h1 h2 n s h3 h4 => ?_, fun j g' c' a h1 h2 => ?_⟩
        · dsimp only at h1 h4
          rw [List.getElem?_set] at h1
          split at h1
          · cases h1
            cases h2
            exact ⟨trivial, alone_core c (h.core _ _ _ h3 h4)⟩
          · exact h.now _ _ _ _ h1 h2 _ _ h3 h4
        · dsimp only at h1
          rw [List.getElem?_set] at h1
          split at h1
          · cases h1
            exact h.ret _ _ _ _ hg h2
          · exact h.ret _ _ _ _ h1 h2
    | some p =>
      obtain ⟨c, st⟩ := p
      dsimp only
      cases hs : w.nets[c.net]? with
      | none => exact h
      | some s =>
        have hk : c.net < w.nets.length := (List.getElem?_eq_some_iff.1 hs).1
        have hk' : c.net < nets.length := h.len ▸ hk
        obtain ⟨hf, he⟩ := h.now _ _ _ _ hg hn _ _ (List.getElem?_eq_getElem hk') hs
        have hcore := step_core c st s
        obtain ⟨f1, f2⟩ := step_finish c st s hf
        dsimp only
        generalize c.step st s = r at hcore f1 f2
        obtain ⟨r, s'⟩ := r
        dsimp only at hcore
        have core' : ∀ (k : Nat) n t, nets[k]? = some n → (w.nets.set c.net s')[k]? = some t → n.SameCore t.net := by
          intro k n t h1 h2
          rw [List.getElem?_set] at h2
          split at h2
          · rename_i e
            subst e
            cases h2
            exact (h.core _ _ _ h1 hs).trans hcore
          · exact h.core _ _ _ h1 h2
        have others : ∀ (j : Nat) (g' : Goroutine α) c' st', i ≠ j → w.goroutines[j]? = some g' →
            g'.now = some (c', st') → ∀ n t, nets[c'.net]? = some n → (w.nets.set c.net s')[c'.net]? = some t →
            st'.Fits t ∧ c'.finish st' t = c'.alone n := by
          intro j g' c' st' hij h1 h2 n t h3 h4
          have := ha i j g g' c c' st st' hij hg h1 hn h2
          rw [List.getElem?_set_ne this] at h4
          exact h.now _ _ _ _ h1 h2 _ _ h3 h4
        cases r with
        | inl st' =>
          obtain ⟨f3, f4⟩ := f1 _ _ rfl
          refine ⟨by simp [h.len], core', fun j g' c' st'' h1 h2 n t h3 h4 => ?_, fun j g' c' a h1 h2 => ?_⟩
          · dsimp only at h1 h4
            by_cases hij : i = j
            · subst hij
              rw [List.getElem?_set_self hi] at h1
              cases h1
              cases h2
              rw [List.getElem?_set_self hk] at h4
              cases h4
              rw [List.getElem?_eq_getElem hk'] at h3
              cases h3
              exact ⟨f3, f4.trans he⟩
            · rw [List.getElem?_set_ne hij] at h1
              exact others j g' c' st'' hij h1 h2 n t h3 h4
          · dsimp only at h1
            by_cases hij : i = j
            · subst hij
              rw [List.getElem?_set_self hi] at h1
              cases h1
              exact h.ret _ _ _ _ hg h2
            · rw [List.getElem?_set_ne hij] at h1
              exact h.ret _ _ _ _ h1 h2
        | inr a =>
          have f3 := f2 _ _ rfl
          refine ⟨by simp [h.len], core', fun j g' c' st'' h1 h2 n t h3 h4 => ?_, fun j g' c' a' h1 h2 => ?_⟩
          · dsimp only at h1 h4
            by_cases hij : i = j
            · subst hij
              rw [List.getElem?_set_self hi] at h1
              cases h1
              cases h2
            · rw [List.getElem?_set_ne hij] at h1
              exact others j g' c' st'' hij h1 h2 n t h3 h4
          · dsimp only at h1
            by_cases hij : i = j
            · subst hij
              rw [List.getElem?_set_self hi] at h1
              cases h1
              rcases List.mem_append.1 h2 with h2 | h2
              · exact h.ret _ _ _ _ hg h2
              · rw [List.mem_singleton] at h2
                cases h2
                exact ⟨_, List.getElem?_eq_getElem hk', f3.trans he⟩
            · rw [List.getElem?_set_ne hij] at h1
              exact h.ret _ _ _ _ h1 h2

theorem program_inv {nets : List (Net α)} : ∀ (is : List Nat) {w : Program α}, w.Inv nets → w.AlwaysApart is →
    (w.run is).Inv nets := by
  intro is
  induction is with
  | nil => exact fun h _ => h
  | cons i is ih =>
    intro w h ha
    refine ih (program_step_inv h (ha 0 (Nat.zero_le _)) i) (fun k hk => ?_)
    have := ha (k + 1) (Nat.succ_le_succ hk)
    rwa [List.take_succ_cons] at this

/-- **C129, what holds.** Goroutines ask networks. If no two of them are in a call on the same network at the same
time, every call returns what it returns alone, for any number of goroutines and networks and in any order of steps. -/
theorem C129_apart_partial {nets : List (Net α)} {calls : List (List (GoCall α))} {is : List Nat}
    (ha : (Program.start nets calls).AlwaysApart is) {c : GoCall α} {a : Answer α}
    (h : (c, a) ∈ ((Program.start nets calls).run is).returned) : ∃ n, nets[c.net]? = some n ∧ a = c.alone n := by
  obtain ⟨g, hg, hca⟩ := List.mem_flatMap.1 h
  obtain ⟨i, hi, e⟩ := List.getElem_of_mem hg
  exact (program_inv is (start_inv nets calls) ha).ret i g c a (by rw [List.getElem?_eq_getElem hi, e]) hca

omit [Zero α] [One α] [Add α] [Mul α] [Div α] [DecidableEq α] in
theorem busy_iff (w : Program α) (k : Nat) : w.busy k = true ↔
    ∃ (i : Nat) (g : Goroutine α) (c : GoCall α) (st : Stage α), w.goroutines[i]? = some g ∧ g.now = some (c, st) ∧
      c.net = k := by
  unfold Program.busy
  rw [List.any_eq_true]
  constructor
  · rintro ⟨g, hg, h⟩
    obtain ⟨i, hi, e⟩ := List.getElem_of_mem hg
    cases hn : g.now with
    | none => simp [hn] at h
    | some p =>
      obtain ⟨c, st⟩ := p
      simp only [hn, beq_iff_eq] at h
      exact ⟨i, g, c, st, by rw [List.getElem?_eq_getElem hi, e], hn, h⟩
  · rintro ⟨i, g, c, st, hi, hn, rfl⟩
    exact ⟨g, List.mem_of_getElem? hi, by simp [hn]⟩

/-- What the goroutines are doing after a step: all but goroutine `i` the same; that one has entered the next call, or
is in the same call, or in none. -/
theorem program_step_goroutines (w : Program α) (i : Nat) : w.step i = w ∨ ∃ g g', w.goroutines[i]? = some g ∧
    (w.step i).goroutines = w.goroutines.set i g' ∧
      ((∃ c cs, g.now = none ∧ g.todo = c :: cs ∧ g' = ⟨cs, some (c, .entered), g.returned⟩) ∨
        (∃ c st st', g.now = some (c, st) ∧ g' = ⟨g.todo, some (c, st'), g.returned⟩) ∨
        (∃ c st a, g.now = some (c, st) ∧ g' = ⟨g.todo, none, g.returned ++ [(c, a)]⟩)) := by
  unfold Program.step
  cases hg : w.goroutines[i]? with
  | none => exact .inl rfl
  | some g =>
    dsimp only
    cases hn : g.now with
    | none =>
      dsimp only
      cases ht : g.todo with
      | nil => exact .inl rfl
      | cons c cs => exact .inr ⟨g, _, rfl, rfl, .inl ⟨c, cs, hn, ht, rfl⟩⟩
    | some p =>
      obtain ⟨c, st⟩ := p
      dsimp only
      cases hs : w.nets[c.net]? with
      | none => exact .inl rfl
      | some s =>
        dsimp only
        generalize c.step st s = r
        obtain ⟨r, s'⟩ := r
        cases r with
        | inl st' => exact .inr ⟨g, _, rfl, rfl, .inr (.inl ⟨c, st, st', hn, rfl⟩)⟩
        | inr a => exact .inr ⟨g, _, rfl, rfl, .inr (.inr ⟨c, st, a, hn, rfl⟩)⟩

theorem step_apart {w : Program α} (ha : w.Apart) (i : Nat)
    (hfree : ∀ g c cs, w.goroutines[i]? = some g → g.now = none → g.todo = c :: cs → w.busy c.net = false) :
    (w.step i).Apart := by
  rcases program_step_goroutines w i with h | ⟨g, g', hg, h, h'⟩
  · rwa [h]
  have hi : i < w.goroutines.length := (List.getElem?_eq_some_iff.1 hg).1
  -- what the stepping goroutine may be in
  have key : ∀ c st, g'.now = some (c, st) → ∀ (j : Nat) gj cj sj, i ≠ j → w.goroutines[j]? = some gj →
      gj.now = some (cj, sj) → c.net ≠ cj.net := by
    intro c st hc j gj cj sj hij hj hcj
    rcases h' with ⟨c', cs, h1, h2, rfl⟩ | ⟨c', st1, st2, h1, rfl⟩ | ⟨c', st', a, _, rfl⟩
    · cases hc
      intro e
      have := hfree g c cs hg h1 h2
      rw [Bool.eq_false_iff] at this
      exact this ((busy_iff w _).2 ⟨j, gj, cj, sj, hj, hcj, e.symm⟩)
    · cases hc
      exact ha i j g gj c cj _ sj hij hg hj h1 hcj
    · cases hc
  intro a b ga gb ca cb sa sb hab h1 h2 h3 h4
  rw [h] at h1 h2
  by_cases e1 : i = a
  · subst e1
    rw [List.getElem?_set_self hi] at h1
    cases h1
    rw [List.getElem?_set_ne hab] at h2
    exact key _ _ h3 b gb cb sb hab h2 h4
  · rw [List.getElem?_set_ne e1] at h1
    by_cases e2 : i = b
    · subst e2
      rw [List.getElem?_set_self hi] at h2
      cases h2
      exact (key _ _ h4 a ga ca sa e1 h1 h3).symm
    · rw [List.getElem?_set_ne e2] at h2
      exact ha a b ga gb ca cb sa sb hab h1 h2 h3 h4

omit [Zero α] [One α] [Add α] [Mul α] [Div α] [DecidableEq α] in
theorem start_apart (nets : List (Net α)) (calls : List (List (GoCall α))) : (Program.start nets calls).Apart := by
  intro a b ga gb ca cb sa sb _ h1 _ h3 _
  simp only [Program.start, List.getElem?_map, Option.map_eq_some_iff] at h1
  obtain ⟨_, _, rfl⟩ := h1
  cases h3

theorem lockedStep_inv {nets : List (Net α)} {w : Program α} (h : w.Inv nets) (ha : w.Apart) (i : Nat) :
    (w.lockedStep i).Inv nets ∧ (w.lockedStep i).Apart := by
  unfold Program.lockedStep
  split
  · rename_i c cs ret hg
    split
    · exact ⟨h, ha⟩
    · rename_i hb
      refine ⟨program_step_inv h ha i, step_apart ha i (fun g c' cs' h1 h2 h3 => ?_)⟩
      rw [hg] at h1
      cases h1
      cases h3
      simpa using hb
  · rename_i hno
    refine ⟨program_step_inv h ha i, step_apart ha i (fun g c' cs' h1 h2 h3 => ?_)⟩
    obtain ⟨todo, now, ret⟩ := g
    dsimp only at h2 h3
    subst h2 h3
    exact absurd h1 (hno c' cs' ret)

/-- **C129, with locks.** If each goroutine locks a mutex of the network before each call and unlocks it afterwards,
every call returns what it returns alone, in any order of steps. -/
theorem C129_locked_partial {nets : List (Net α)} {calls : List (List (GoCall α))} {is : List Nat} {c : GoCall α}
    {a : Answer α} (h : (c, a) ∈ ((Program.start nets calls).lockedRun is).returned) :
    ∃ n, nets[c.net]? = some n ∧ a = c.alone n := by
  obtain ⟨g, hg, hca⟩ := List.mem_flatMap.1 h
  obtain ⟨i, hi, e⟩ := List.getElem_of_mem hg
  have key : ∀ (is : List Nat) (w : Program α), w.Inv nets → w.Apart → (w.lockedRun is).Inv nets := by
    intro is
    induction is with
    | nil => exact fun w h _ => h
    | cons i is ih => exact fun w h ha => ih _ (lockedStep_inv h ha i).1 (lockedStep_inv h ha i).2
  exact (key is _ (start_inv nets calls) (start_apart nets calls)).ret i g c a
    (by rw [List.getElem?_eq_getElem hi, e]) hca

/-- All calls of a goroutine, in their order: those that have returned, the present one, and those to come. -/
def Goroutine.calls (g : Goroutine α) : List (GoCall α) :=
  g.returned.map Prod.fst ++ (g.now.map Prod.fst).toList ++ g.todo

/-- A goroutine makes its calls, in their order. -/
theorem program_calls (nets : List (Net α)) (calls : List (List (GoCall α))) (is : List Nat) :
    ((Program.start nets calls).run is).goroutines.map Goroutine.calls = calls := by
  have hstep : ∀ (w : Program α) i, (w.step i).goroutines.map Goroutine.calls = w.goroutines.map Goroutine.calls := by
    intro w i
    rcases program_step_goroutines w i with h | ⟨g, g', hg, h, h'⟩
    · rw [h]
    obtain ⟨hi, e⟩ := List.getElem?_eq_some_iff.1 hg
    have key : g'.calls = g.calls := by
      unfold Goroutine.calls
      rcases h' with ⟨c', cs, h1, h2, rfl⟩ | ⟨c', st1, st2, h1, rfl⟩ | ⟨c', st', a, h1, rfl⟩
      · simp [h1, h2]
      · simp [h1]
      · simp [h1]
    rw [h, List.map_set, key]
    apply List.ext_getElem?
    intro j
    by_cases hij : i = j
    · subst hij
      rw [List.getElem?_set_self (by simpa using hi), List.getElem?_map, hg]
      rfl
    · rw [List.getElem?_set_ne hij]
  have hrun : ∀ (is : List Nat) (w : Program α), (w.run is).goroutines.map Goroutine.calls =
      w.goroutines.map Goroutine.calls := by
    intro is
    induction is with
    | nil => exact fun w => rfl
    | cons i is ih => exact fun w => (ih _).trans (hstep w i)
  rw [hrun]
  simp [Program.start, Goroutine.calls, Function.comp_def]

/-- **C129, own networks.** Goroutines that use different networks are never in a call on the same one, so
`C129_apart_partial` holds for all their executions. -/
theorem C129_own_network_partial {nets : List (Net α)} {calls : List (List (GoCall α))} (is : List Nat)
    (hown : ∀ (i j : Nat) li lj, i ≠ j → calls[i]? = some li → calls[j]? = some lj → ∀ ci ∈ li, ∀ cj ∈ lj,
      ci.net ≠ cj.net) : (Program.start nets calls).AlwaysApart is := by
  intro k _ a b ga gb ca cb sa sb hab h1 h2 h3 h4
  have own : ∀ (i : Nat) g, ((Program.start nets calls).run (is.take k)).goroutines[i]? = some g →
      calls[i]? = some g.calls := by
    intro i g h
    have := congrArg (fun l => l[i]?) (program_calls nets calls (is.take k))
    rw [← this]
    simp [h]
  exact hown a b _ _ hab (own a ga h1) (own b gb h2) ca (by simp [Goroutine.calls, h3]) cb (by simp [Goroutine.calls, h4])

end

/-- **C129, exact posteriors.** So with locks, every `SolveQuery` with possible evidence returns the posteriors by full
enumeration (C31), whatever the other goroutines ask at the same time. -/
theorem C129_posteriors_partial [Field α] [CharZero α] [DecidableEq α] {nets : List (Net α)}
    {calls : List (List (GoCall α))} {is : List Nat} {c : GoCall α} {a : Answer α}
    (h : (c, a) ∈ ((Program.start nets calls).lockedRun is).returned) {n : Net α} (hn : nets[c.net]? = some n)
    (hv : n.Valid) (hp : n.PoliciesOK) (hu : c.utility = none) (hev : n.EvidenceOK c.evidence)
    (hq : n.QueryOK c.evidence c.ignorePolicies c.query)
    (possible : n.mass (n.active c.evidence c.ignorePolicies) (n.Agrees c.evidence) ≠ 0) :
    ∃ r f, a = .ok (r, f) ∧ (∀ s, s ∈ r.map Prod.fst ↔ s ∈ c.query) ∧
      ∀ q ∈ c.query, ∃ d : List α, (q, d) ∈ r ∧ d.length = n.count q ∧ ∀ k < n.count q, d[k]? =
        some (n.mass (n.active c.evidence c.ignorePolicies) (fun w => n.Agrees c.evidence w ∧ w q = k) /
          n.mass (n.active c.evidence c.ignorePolicies) (n.Agrees c.evidence)) := by
  obtain ⟨m, h1, h2⟩ := C129_locked_partial h
  rw [hn] at h1
  cases h1
  obtain ⟨r, f, n', r1, _, r3, r4⟩ := C31_solveQuery_posterior c.sch hv hp hev c.ignorePolicies hq possible
  refine ⟨r, f, ?_, r3, r4⟩
  rw [h2]
  unfold GoCall.alone
  rw [hu]
  dsimp only
  rw [r1]

namespace Ex

/-- Two goroutines with one call each on the sprinkler network: rain given wet grass, and rain. -/
def askWet : GoCall ℚ := ⟨0, back, wet, ["Rain"], none, false⟩
def askRain : GoCall ℚ := ⟨0, back, [], ["Rain"], none, false⟩
def askBoth : Program ℚ := .start [spr] [[askWet], [askRain]]

end Ex

/-- **C129, refuted.** Two goroutines ask the same network. The first builds its solver, then the second builds its own,
which replaces the first one in the network, and gets its answer from it. The first goes on with the used solver of the
second, and gets the probability of rain without the evidence as the answer, and no error. -/
theorem C129_overlap_refuted : ∃ (is : List Nat) (a : Answer ℚ), (Ex.askWet, a) ∈ (Ex.askBoth.run is).returned ∧
    (∃ f, a = .ok ([("Rain", [1/5, 4/5])], f)) ∧
    ∃ f, Ex.askWet.alone Ex.spr = .ok ([("Rain", [891/2491, 1600/2491])], f) := by
  let is := [0, 0, 1, 1, 1, 1, 0, 0, 0, 0]
  have h0 : (Ex.askBoth.run is).goroutines[0]?.map (fun g => g.todo.length) = some 0 := by decide +kernel
  have h0' : (Ex.askBoth.run is).goroutines[0]?.map (fun g => g.now.isSome) = some false := by decide +kernel
  have h1 : (Ex.askBoth.run is).goroutines[0]?.map (fun g => g.returned.map (fun p => p.2.toOption.map Prod.fst)) =
      some [some [("Rain", [1/5, 4/5])]] := by decide +kernel
  have h2 : (Ex.askWet.alone Ex.spr).toOption.map Prod.fst = some [("Rain", [891/2491, 1600/2491])] := by
    decide +kernel
  cases hg : (Ex.askBoth.run is).goroutines[0]? with
  | none => rw [hg] at h1; cases h1
  | some g =>
    rw [hg] at h0 h0' h1
    have hc := congrArg (fun l => l[0]?) (program_calls [Ex.spr] [[Ex.askWet], [Ex.askRain]] is)
    change ((Ex.askBoth.run is).goroutines.map Goroutine.calls)[0]? = some [Ex.askWet] at hc
    rw [List.getElem?_map, hg] at hc
    obtain ⟨todo, now, ret⟩ := g
    simp only [Option.map_some, Option.some.injEq, List.length_eq_zero_iff, Option.isSome_eq_false_iff,
      Option.isNone_iff_eq_none] at h0 h0' h1 hc
    subst h0 h0'
    obtain ⟨p, hp⟩ : ∃ p, ret = [p] := by
      rw [← List.length_eq_one_iff]
      simpa using congrArg List.length h1
    subst hp
    obtain ⟨c, a⟩ := p
    simp only [Goroutine.calls, List.map_cons, List.map_nil, Option.map_none, Option.toList_none, List.append_nil,
      List.cons.injEq, and_true] at hc h1
    subst hc
    refine ⟨is, a, List.mem_flatMap.2 ⟨_, List.mem_of_getElem? hg, by simp⟩, ?_, ?_⟩
    · cases a with
      | error e => cases h1
      | ok r => exact ⟨r.2, congrArg Except.ok (Prod.ext (Option.some.inj h1) rfl)⟩
    · cases ha : Ex.askWet.alone Ex.spr with
      | error e => rw [ha] at h2; cases h2
      | ok r =>
        rw [ha] at h2
        exact ⟨r.2, congrArg Except.ok (Prod.ext (Option.some.inj h2) rfl)⟩

/-- With locks, in the same order of steps and some more, both calls return, and the first gets the posterior. -/
example : ((Ex.askBoth.lockedRun [0, 0, 1, 1, 1, 1, 0, 0, 0, 0, 1, 1, 1, 1, 1, 1]).returned.map
    (fun p => p.2.toOption.map Prod.fst)) = [some [("Rain", [891/2491, 1600/2491])], some [("Rain", [1/5, 4/5])]] := by
  decide +kernel

/-- The hypotheses of `C129_own_network_partial` for two goroutines with a sprinkler network each. -/
example (is : List Nat) : (Program.start [Ex.spr, Ex.spr] [[Ex.askWet], [{ Ex.askRain with net := 1 }]]).AlwaysApart is :=
  C129_own_network_partial is (by
    intro i j li lj hij hi hj ci hci cj hcj
    match i, j with
    | 0, 0 => exact absurd rfl hij
    | 0, 1 => cases hi; cases hj; cases List.mem_singleton.1 hci; cases List.mem_singleton.1 hcj; decide
    | 1, 0 => cases hi; cases hj; cases List.mem_singleton.1 hci; cases List.mem_singleton.1 hcj; decide
    | 1, 1 => exact absurd rfl hij
    | i + 2, _ => cases hi
    | _, j + 2 => cases hj)

end Bbn
