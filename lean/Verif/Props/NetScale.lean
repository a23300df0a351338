import Verif.Lemmas.NetRetab
import Verif.Props.NetCalls
import Verif.Props.NetExamples
import Mathlib.Tactic.FieldSimp

/-!
# C34: only the proportions in a table row matter
-/

set_option autoImplicit false

namespace Bbn

open Finset

variable {α : Type}

section

variable [Field α] [DecidableEq α] {n : Net α} {g : NFactor α → NFactor α}

omit [Field α] [DecidableEq α] in
theorem valid_state (hn : n.Valid) (p : List (String × Factor α)) (vs : Option Vs) (names : List (String × NVar × Var)) :
    ({ n with policies := p, vs := vs, names := names } : Net α).Valid where
  names := hn.names
  named := hn.named
  few := hn.few
  outcomes := hn.outcomes
  tables := hn.tables
  hasTable := hn.hasTable
  known := hn.known
  dims := hn.dims
  parents := hn.parents
  size := hn.size
  single := hn.single
  weights := hn.weights

theorem sameProbs_state (h : n.SameProbs g) (p : List (String × Factor α)) (vs : Option Vs)
    (names : List (String × NVar × Var)) :
    ({ n with policies := p, vs := vs, names := names } : Net α).SameProbs g where
  forVar := h.forVar
  given := h.given
  other := h.other
  len := h.len
  prob := h.prob

theorem retab_enter (hn : n.Valid) (h : n.SameProbs g) (sch : NSched α) (k : Nat) (evidence : List (String × String)) :
    (n.retab g).enter sch k evidence = ((n.enter sch k evidence).1, (n.enter sch k evidence).2.retab g) := by
  unfold Net.enter
  rw [retab_toVE hn h]
  split <;> rfl

theorem retab_solve (hn : n.Valid) (h : n.SameProbs g) (sch : NSched α) (evidence : List (String × String))
    (query : List String) (utility : Bool) (u : String) (ign : Bool) :
    (n.retab g).solve sch evidence query utility u ign =
      ((n.solve sch evidence query utility u ign).1, (n.solve sch evidence query utility u ign).2.retab g) := by
  unfold Net.solve
  rw [retab_enter hn h]
  generalize n.enter sch 0 (if ign then evidence else []) = r
  obtain ⟨r, m⟩ := r
  cases r with
  | error e => rfl
  | ok ve =>
    dsimp only
    have : (m.retab g).names = m.names := rfl
    rw [this]
    split <;> rfl

omit [Field α] [DecidableEq α] in
theorem retab_withVs {β : Type} (n : Net α) (g : NFactor α → NFactor α) (op : Vs → Except Fault (β × Vs)) :
    (n.retab g).withVs op = ((n.withVs op).1, (n.withVs op).2.retab g) := by
  unfold Net.withVs
  have : (n.retab g).vs = n.vs := rfl
  rw [this]
  split
  · rfl
  · split <;> rfl

omit [DecidableEq α] in
theorem retab_queryLoop (g : NFactor α → NFactor α) (f : Factor α) : ∀ (q : List String) (r : List (String × List α))
    (n : Net α), Net.queryLoop f q r (n.retab g) = ((Net.queryLoop f q r n).1, (Net.queryLoop f q r n).2.retab g) := by
  intro q
  induction q with
  | nil => intro r n; rfl
  | cons x q ih =>
    intro r n
    unfold Net.queryLoop
    have hm : (n.retab g).marginal f x = ((n.marginal f x).1, (n.marginal f x).2.retab g) := by
      unfold Net.marginal
      have : (n.retab g).names = n.names := rfl
      rw [this]
      split
      · rfl
      · rw [retab_withVs]
    rw [hm]
    generalize n.marginal f x = p
    obtain ⟨p, m⟩ := p
    cases p with
    | error e => rfl
    | ok k =>
      dsimp only
      unfold Net.normalize
      rw [retab_withVs]
      generalize m.withVs (fun vs => vs.normalize k) = p
      obtain ⟨p, m⟩ := p
      cases p with
      | error e => rfl
      | ok k => exact ih _ m

theorem retab_solveQuery (hn : n.Valid) (h : n.SameProbs g) (sch : NSched α) (evidence : List (String × String))
    (query : List String) (ign : Bool) :
    (n.retab g).solveQuery sch evidence query ign =
      ((n.solveQuery sch evidence query ign).1, (n.solveQuery sch evidence query ign).2.retab g) := by
  unfold Net.solveQuery
  rw [retab_solve hn h]
  generalize n.solve sch evidence query false "" ign = r
  obtain ⟨r, m⟩ := r
  cases r with
  | error e => rfl
  | ok f =>
    dsimp only
    rw [retab_queryLoop]
    generalize Net.queryLoop f query [] m = p
    obtain ⟨p, m⟩ := p
    cases p <;> rfl

end

section

variable [Field α] [LinearOrder α] {n : Net α} {g : NFactor α → NFactor α}

theorem enter_state (sch : NSched α) (k : Nat) (n : Net α) (evidence : List (String × String)) :
    ∃ vs names, (n.enter sch k evidence).2 = { n with vs := vs, names := names } := by
  unfold Net.enter
  split
  · exact ⟨_, _, rfl⟩
  · exact ⟨_, _, rfl⟩
  · exact ⟨n.vs, n.names, rfl⟩

theorem retab_policySteps (sch : NSched α) (stepwise : Bool) : ∀ (left k : Nat) (n : Net α), n.Valid → n.SameProbs g →
    Net.policySteps sch stepwise left k (n.retab g) =
      ((Net.policySteps sch stepwise left k n).1, (Net.policySteps sch stepwise left k n).2.retab g) := by
  intro left
  induction left with
  | zero => intro k n _ _; rfl
  | succ left ih =>
    intro k n hn h
    unfold Net.policySteps
    rw [retab_enter hn h]
    obtain ⟨vs, names, hs⟩ := enter_state sch k n []
    generalize n.enter sch k [] = r at hs ⊢
    obtain ⟨r, m⟩ := r
    dsimp only at hs
    subst hs
    cases r with
    | error e => rfl
    | ok ve =>
      dsimp only
      generalize ve.solvePolicies (sch.ve k) stepwise = q
      cases q with
      | error e => rfl
      | ok q =>
        obtain ⟨q, ve'⟩ := q
        cases q with
        | none => rfl
        | some solved =>
          exact ih (k + 1)
            { n with
              policies := (sch.names k names).foldl (storePolicy solved) n.policies
              vs := some ve'.vs
              names := names }
            (valid_state hn _ _ _) (sameProbs_state h _ _ _)

omit [LinearOrder α] in
theorem retab_policyTables (n : Net α) (g : NFactor α → NFactor α) : ∀ (l : List (String × Factor α)) (vs : Vs)
    (acc : List (String × NFactor α)), (n.retab g).policyTables l vs acc = n.policyTables l vs acc := by
  intro l
  induction l with
  | nil => intro vs acc; rfl
  | cons p l ih =>
    intro vs acc
    unfold Net.policyTables
    simp only [ih]
    rfl

theorem retab_solvePolicies (hn : n.Valid) (h : n.SameProbs g) (sch : NSched α) (stepwise : Bool) :
    (n.retab g).solvePolicies sch stepwise =
      ((n.solvePolicies sch stepwise).1, (n.solvePolicies sch stepwise).2.retab g) := by
  unfold Net.solvePolicies
  have hc : (n.retab g).countDecisionSteps stepwise = n.countDecisionSteps stepwise := rfl
  rw [hc]
  have := retab_policySteps sch stepwise (n.countDecisionSteps stepwise) 0 { n with policies := [] }
    (valid_state hn [] n.vs n.names) (sameProbs_state h [] n.vs n.names)
  have he : (({ n with policies := [] } : Net α).retab g) = { n.retab g with policies := [] } := rfl
  rw [he] at this
  dsimp only
  rw [this]
  generalize Net.policySteps sch stepwise (n.countDecisionSteps stepwise) 0 { n with policies := [] } = r
  obtain ⟨r, m⟩ := r
  cases r with
  | error e => rfl
  | ok _ =>
    dsimp only
    rw [retab_withVs]
    have hp : (m.retab g).policies = m.policies := rfl
    simp only [retab_policyTables, hp]

end

/-- The table with the entries of row `r` multiplied by `c`; a row has `columns` entries. -/
def scaleEntries [Mul α] (columns r : Nat) (c : α) (t : List α) : List α :=
  t.mapIdx (fun i x => if i / columns = r then c * x else x)

/-- The network with row `r` of the table of variable `s` multiplied by `c`. -/
def Net.scaleRow [Mul α] (n : Net α) (s : String) (r : Nat) (c : α) : Net α :=
  n.retab (fun f => if f.forVar = s then { f with table := f.table.map (scaleEntries (n.count s) r c) } else f)

theorem getD_scale [Field α] (columns r : Nat) (c : α) (t : List α) (i : Nat) :
    (scaleEntries columns r c t).getD i 0 = (if i / columns = r then c else 1) * t.getD i 0 := by
  unfold scaleEntries
  rw [List.getD_eq_getElem?_getD, List.getD_eq_getElem?_getD, List.getElem?_mapIdx]
  cases t[i]? with
  | none => simp
  | some x =>
    simp only [Option.map_some, Option.getD_some]
    split_ifs <;> simp

/-- The sum of row `r` of a table. -/
def rowTotal [AddCommMonoid α] (columns r : Nat) (t : List α) : α :=
  ∑ k ∈ range columns, t.getD (r * columns + k) 0

theorem scaleRow_sameProbs [Field α] [DecidableEq α] {n : Net α} (hn : n.Valid) {s : String}
    (hs : n.isKind .chance s = true) (r : Nat) {c : α} (hc : c ≠ 0)
    (hrow : ∀ f ∈ n.factors, f.forVar = s → rowTotal (n.count s) r f.tab ≠ 0 ∨
      ∀ k < n.count s, f.tab.getD (r * n.count s + k) 0 = 0) :
    n.SameProbs (fun f => if f.forVar = s then { f with table := f.table.map (scaleEntries (n.count s) r c) } else f) where
  forVar := by intro f; split_ifs <;> rfl
  given := by intro f; split_ifs <;> rfl
  other := by
    intro f hf hk
    rw [if_neg]
    intro e
    rw [e, hs] at hk; cases hk
  len := by
    intro f hf t ht
    split_ifs
    · exact ⟨_, by rw [ht]; rfl, by simp [scaleEntries]⟩
    · exact ⟨t, ht, rfl⟩
  prob := by
    intro f hf w hw
    split_ifs with e
    swap
    · rfl
    set f' : NFactor α := { f with table := f.table.map (scaleEntries (n.count s) r c) } with hf'
    obtain ⟨v, hv, h1, h2⟩ := isKind_mem.1 hs
    have hpos : 0 < n.count s := by rw [← h1, count_eq hn hv]; exact (hn.outcomes v hv).1
    have htab : f'.tab = scaleEntries (n.count s) r c f.tab := by
      simp only [NFactor.tab, hf']
      cases f.table with
      | none => rfl
      | some t => rfl
    -- the row of a world
    have hidx : ∀ k, rowMajor (f.dims.map (fun t => (n.count t, w.set s k t))) =
        rowMajor (f.given.map (fun t => (n.count t, w t))) * n.count s + k := by
      intro k
      simp only [NFactor.dims, List.map_append, List.map_cons, List.map_nil]
      rw [rowMajor_snoc, e]
      congr 1
      · congr 2
        apply List.map_congr_left
        intro t ht
        have hne : t ≠ s := by
          rintro rfl
          have := hn.dims f hf
          rw [NFactor.dims, List.nodup_append] at this
          exact this.2.2 t ht f.forVar (by simp) e.symm
        simp [World.set, hne]
      · simp [World.set]
    have hdiv : ∀ q k : Nat, k < n.count s → (q * n.count s + k) / n.count s = q := by
      intro q k hk
      rw [Nat.mul_comm, Nat.mul_add_div hpos, Nat.div_eq_of_lt hk]; rfl
    set q := rowMajor (f.given.map (fun t => (n.count t, w t))) with hq
    set a : α := if q = r then c else 1 with ha
    have ha0 : a ≠ 0 := by rw [ha]; split_ifs <;> simp [hc]
    have hent : ∀ k < n.count s, n.entry f' (w.set s k) = a * n.entry f (w.set s k) := by
      intro k hk
      unfold Net.entry
      have hd : f'.dims = f.dims := rfl
      rw [hd, htab, getD_scale, hidx, hdiv q k hk]
    have hself : w.set s (w s) = w := by
      funext t; simp only [World.set]; split_ifs with h
      · rw [h]
      · rfl
    have hws : w s < n.count s := hw s (by simp [NFactor.dims, e])
    have he1 : n.entry f' w = a * n.entry f w := by
      have := hent (w s) hws
      rwa [hself] at this
    have hsum : n.rowSum f' w = a * n.rowSum f w := by
      unfold Net.rowSum
      have : f'.forVar = s := e
      simp only [this, e]
      rw [Finset.mul_sum]
      exact Finset.sum_congr rfl (fun k hk => hent k (Finset.mem_range.1 hk))
    unfold Net.prob
    rw [hsum, he1]
    by_cases h0 : n.rowSum f w = 0
    · rw [h0, mul_zero, if_pos rfl, if_pos rfl]
      by_cases hqr : q = r
      · rcases hrow f hf e with h | h
        · exfalso
          apply h
          rw [← h0]
          unfold rowTotal Net.rowSum
          rw [e]
          apply Finset.sum_congr rfl
          intro k _
          unfold Net.entry
          rw [hidx, hqr]
        · have : n.entry f w = 0 := by
            rw [← hself]
            unfold Net.entry
            rw [hidx, hqr]
            exact h _ hws
          rw [this, mul_zero]
      · rw [ha, if_neg hqr, one_mul]
    · rw [if_neg (mul_ne_zero ha0 h0), if_neg h0, mul_div_mul_left _ _ ha0]

/-- **C34.** Multiplying a row of a chance variable's table by a non-zero constant changes no result of `SolveQuery`,
`SolveUtility` and `SolvePolicies`, neither with a solved nor with an unsolved network. The row must not be one with
entries that add up to zero without being zero. -/
theorem C34_scale_row [Field α] [LinearOrder α] {n : Net α} (hn : n.Valid) {s : String}
    (hs : n.isKind .chance s = true) (r : Nat) {c : α} (hc : c ≠ 0)
    (hrow : ∀ f ∈ n.factors, f.forVar = s → rowTotal (n.count s) r f.tab ≠ 0 ∨
      ∀ k < n.count s, f.tab.getD (r * n.count s + k) 0 = 0)
    (sch : NSched α) (evidence : List (String × String)) (query : List String) (u : String) (ign stepwise : Bool) :
    ((n.scaleRow s r c).solveQuery sch evidence query ign).1 = (n.solveQuery sch evidence query ign).1 ∧
      ((n.scaleRow s r c).solveUtility sch evidence query u ign).1 = (n.solveUtility sch evidence query u ign).1 ∧
      ((n.scaleRow s r c).solvePolicies sch stepwise).1 = (n.solvePolicies sch stepwise).1 := by
  have h := scaleRow_sameProbs hn hs r hc hrow
  unfold Net.scaleRow
  refine ⟨?_, ?_, ?_⟩
  · rw [retab_solveQuery hn h]
  · unfold Net.solveUtility; rw [retab_solve hn h]
  · rw [retab_solvePolicies hn h]

/-- With non-negative entries every row qualifies. -/
theorem C34_nonneg_rows [Field α] [LinearOrder α] [IsStrictOrderedRing α] (columns r : Nat) (t : List α)
    (h : ∀ x ∈ t, 0 ≤ x) : rowTotal columns r t ≠ 0 ∨ ∀ k < columns, t.getD (r * columns + k) 0 = 0 := by
  by_cases h0 : rowTotal columns r t = 0
  · right
    unfold rowTotal at h0
    have hnn : ∀ i, 0 ≤ t.getD i 0 := by
      intro i
      rw [List.getD_eq_getElem?_getD]
      cases hi : t[i]? with
      | none => simp
      | some x => exact h x (List.mem_of_getElem? hi)
    rw [Finset.sum_eq_zero_iff_of_nonneg (fun i _ => hnn _)] at h0
    exact fun k hk => h0 k (Finset.mem_range.2 hk)
  · exact .inl h0

/-- The sprinkler network with counts 4 and 6 turned into 40 and 60 percent. -/
example (sch : NSched ℚ) : ((Ex.spr.scaleRow "Sprinkler" 1 10).solveQuery sch [("Grass", "wet")] ["Rain"] false).1 =
    (Ex.spr.solveQuery sch [("Grass", "wet")] ["Rain"] false).1 :=
  (C34_scale_row Ex.spr_valid (s := "Sprinkler") (by decide) 1 (c := 10) (by norm_num) (by
    intro f hf e
    apply C34_nonneg_rows
    simp only [Ex.spr, List.mem_cons, List.not_mem_nil, or_false] at hf
    rcases hf with rfl | rfl | rfl <;> simp [NFactor.tab] at e ⊢) sch _ _ "" false false).1

example : (Ex.spr.scaleRow "Sprinkler" 1 10).factors.map NFactor.table =
    [some [20, 80], some [1, 99, 40, 60], some [99, 1, 8, 2, 9, 1, 0, 10]] := by
  decide +kernel

end Bbn
