import Verif.Lemmas.SignedRounding
import Verif.Lemmas.NetUtility

/-!
# Rounding errors of expected utilities of networks
-/

set_option autoImplicit false
set_option linter.unusedSectionVars false

namespace Bbn

open Finset

/-! ## Networks with mapped numbers -/

section Map

variable {A B : Type}

theorem Valid.mapNum {n : Net A} (hn : n.Valid) (φ : A → B) : (n.mapNum φ).Valid where
  names := hn.names
  named := hn.named
  few := hn.few
  outcomes := hn.outcomes
  tables := by
    have : (n.mapNum φ).factors.map NFactor.forVar = n.factors.map NFactor.forVar := by
      unfold Net.mapNum
      dsimp only
      rw [List.map_map]
      rfl
    rw [this]
    exact hn.tables
  hasTable v hv h := by
    obtain ⟨f, hf, e⟩ := hn.hasTable v hv h
    exact ⟨_, List.mem_map_of_mem hf, e⟩
  known f hf := by
    obtain ⟨g, hg, rfl⟩ := List.mem_map.1 hf
    exact hn.known g hg
  dims f hf := by
    obtain ⟨g, hg, rfl⟩ := List.mem_map.1 hf
    exact hn.dims g hg
  parents f hf := by
    obtain ⟨g, hg, rfl⟩ := List.mem_map.1 hf
    exact hn.parents g hg
  size f hf h1 h2 := by
    obtain ⟨g, hg, rfl⟩ := List.mem_map.1 hf
    obtain ⟨t, ht, hl⟩ := hn.size g hg h1 h2
    exact ⟨t.map φ, by simp [NFactor.mapNum, ht], by rw [List.length_map]; exact hl⟩
  single := hn.single
  weights i hi := by
    obtain ⟨v, j, f, h1, h2, h3, h4, h5, h6, h7⟩ := hn.weights i hi
    refine ⟨v, j, f.mapNum φ, h1, h2, h3, ?_, h5, ?_, h7⟩
    · simp [Net.mapNum, h4]
    · rw [NFactor.tab_mapNum, List.length_map]
      exact h6

theorem PoliciesOK.mapNum {n : Net A} (hp : n.PoliciesOK) (φ : A → B) : (n.mapNum φ).PoliciesOK where
  keys := by
    have : (n.mapNum φ).policies.map Prod.fst = n.policies.map Prod.fst := by
      unfold Net.mapNum
      dsimp only
      rw [List.map_map]
      rfl
    rw [this]
    exact hp.keys
  wf p hm := by
    obtain ⟨q, hq, rfl⟩ := List.mem_map.1 hm
    obtain ⟨h1, h2⟩ := hp.wf q hq
    exact ⟨by simpa [Factor.mapNum] using h1, h2⟩
  decision p hm := by
    obtain ⟨q, hq, rfl⟩ := List.mem_map.1 hm
    exact hp.decision q hq
  vars p hm w hw := by
    obtain ⟨q, hq, rfl⟩ := List.mem_map.1 hm
    obtain ⟨v, h1, h2, h3, h4, h5⟩ := hp.vars q hq w hw
    exact ⟨v, h1, h2, h3, h4, by rw [hasPolicy_mapNum]; exact h5⟩

theorem hiddenVars_mapNum (n : Net A) (φ : A → B) (evidence : List (String × String)) (query : List String) :
    (n.mapNum φ).hiddenVars evidence query = n.hiddenVars evidence query := by
  unfold Net.hiddenVars
  refine List.filter_congr (fun v _ => ?_)
  rw [decide_eq_decide]
  simp only [hasPolicy_mapNum]
  refine and_congr Iff.rfl (and_congr Iff.rfl (and_congr Iff.rfl ?_))
  constructor
  · intro h f hf
    exact h (f.mapNum φ) (List.mem_map_of_mem hf)
  · intro h f hf
    obtain ⟨g, hg, rfl⟩ := List.mem_map.1 hf
    exact h g hg

end Map

/-! ## The network of magnitudes -/

section Abs

variable {K : Type} [Field K] [LinearOrder K] [IsStrictOrderedRing K]

theorem map_abs_of_nonneg {l : List K} (h : ∀ x ∈ l, 0 ≤ x) : l.map (fun x => |x|) = l := by
  conv_rhs => rw [← List.map_id l]
  exact List.map_congr_left (fun x hx => abs_of_nonneg (h x hx))

theorem getD_map_abs (l : List K) (i : Nat) : (l.map (fun x => |x|)).getD i 0 = |l.getD i 0| := by
  rw [List.getD_eq_getElem?_getD, List.getD_eq_getElem?_getD, List.getElem?_map]
  cases l[i]? <;> simp

theorem chanceTables_abs {n : Net K} (h0 : n.Nonneg) : (n.mapNum (fun x => |x|)).chanceTables = n.chanceTables := by
  have e : (n.mapNum (fun x => |x|)).chanceTables = n.chanceTables.map (NFactor.mapNum (fun x => |x|)) := by
    unfold Net.chanceTables Net.mapNum
    dsimp only
    rw [List.filter_map]
    rfl
  rw [e]
  conv_rhs => rw [← List.map_id n.chanceTables]
  refine List.map_congr_left (fun f hf => ?_)
  have h := h0.tables f hf
  unfold NFactor.tab at h
  unfold NFactor.mapNum
  rcases f with ⟨a, b, t, c, d⟩
  cases t with
  | none => rfl
  | some t =>
    dsimp only [Option.map_some, id]
    dsimp only [Option.getD_some] at h
    rw [map_abs_of_nonneg h]

theorem policies_abs {n : Net K} (h0 : n.Nonneg) : (n.mapNum (fun x => |x|)).policies = n.policies := by
  unfold Net.mapNum
  dsimp only
  conv_rhs => rw [← List.map_id n.policies]
  refine List.map_congr_left (fun p hp => ?_)
  unfold Factor.mapNum
  rw [map_abs_of_nonneg (h0.policies p hp)]
  rfl

theorem active_abs {n : Net K} (h0 : n.Nonneg) (evidence : List (String × String)) (ign : Bool) :
    (n.mapNum (fun x => |x|)).active evidence ign = n.active evidence ign := by
  unfold Net.active
  rw [policies_abs h0]

theorem joint_abs {n : Net K} (h0 : n.Nonneg) (pols : List (String × Factor K)) (w : World) :
    (n.mapNum (fun x => |x|)).joint pols w = n.joint pols w := by
  unfold Net.joint
  rw [chanceTables_abs h0]
  rfl

theorem entry_abs (n : Net K) (f : NFactor K) (w : World) :
    (n.mapNum (fun x => |x|)).entry (f.mapNum (fun x => |x|)) w = |n.entry f w| := by
  unfold Net.entry
  rw [NFactor.tab_mapNum, getD_map_abs]
  rfl

theorem weight_abs (n : Net K) (s : String) : (n.mapNum (fun x => |x|)).weight s = |n.weight s| := by
  unfold Net.weight
  rw [show (n.mapNum (fun x => |x|)).totalUtility = n.totalUtility from rfl]
  cases n.totalUtility with
  | none => simp
  | some i =>
    dsimp only
    unfold Net.mapNum
    dsimp only
    rw [List.find?_map]
    have : ((fun f : NFactor K => decide (f.forVar = n.totalName)) ∘ NFactor.mapNum (fun x => |x|)) =
        (fun f : NFactor K => decide (f.forVar = n.totalName)) := rfl
    have e2 : ∀ l : List (NFactor K), (Option.map (fun f => f.tab.getD (f.given.idxOf s) 0)
        (Option.map (NFactor.mapNum (fun x => |x|))
          (l.find? (fun f : NFactor K => decide (f.forVar = n.totalName))))).getD 0 =
        |(Option.map (fun f => f.tab.getD (f.given.idxOf s) 0)
          (l.find? (fun f : NFactor K => decide (f.forVar = n.totalName)))).getD 0| := by
      intro l
      cases l.find? (fun f : NFactor K => decide (f.forVar = n.totalName)) with
      | none => simp
      | some f =>
        simp only [Option.map_some, Option.getD_some, NFactor.tab_mapNum]
        exact getD_map_abs _ _
    exact e2 n.factors

theorem utilityIn_abs {n : Net K} (hn : n.Valid) (s : String) (w : World) :
    (n.mapNum (fun x => |x|)).utilityIn s w = |n.utilityIn s w| := by
  unfold Net.utilityIn
  have e : (n.mapNum (fun x => |x|)).factors.filter (fun f => f.forVar = s) =
      (n.factors.filter (fun f => f.forVar = s)).map (NFactor.mapNum (fun x => |x|)) := by
    unfold Net.mapNum
    dsimp only
    rw [List.filter_map]
    rfl
  rw [e, List.map_map]
  have hone : (n.factors.filter (fun f => f.forVar = s)).length ≤ 1 := by
    have h1 : ((n.factors.filter (fun f => f.forVar = s)).map NFactor.forVar).Nodup :=
      hn.tables.sublist (List.filter_sublist.map _)
    have h2 : ∀ x ∈ (n.factors.filter (fun f => f.forVar = s)).map NFactor.forVar, x = s := by
      intro x hx
      obtain ⟨f, hf, rfl⟩ := List.mem_map.1 hx
      simpa using (List.mem_filter.1 hf).2
    have h3 : ((n.factors.filter (fun f => f.forVar = s)).map NFactor.forVar).Subperm [s] :=
      h1.subperm (fun x hx => by rw [h2 x hx]; exact List.mem_singleton_self s)
    have := h3.length_le
    rwa [List.length_map] at this
  generalize n.factors.filter (fun f => f.forVar = s) = l at hone
  match l, hone with
  | [], _ => simp
  | [f], _ =>
    simp only [List.map_cons, List.map_nil, List.sum_cons, List.sum_nil, add_zero, Function.comp_apply]
    exact entry_abs n f _

end Abs

/-! ## The network of triples -/

section Triple

variable {β K : Type} [Zero β] [One β] [Add β] [Mul β] [Div β] [DecidableEq β] [Field K] [LinearOrder K]
  [IsStrictOrderedRing K] {val : β → K} {u : K}

/-- Every number together with the exact number that it stands for, and its magnitude. -/
def Net.tripled (val : β → K) (n : Net β) : Net ((β × K) × K) := n.mapNum (fun x => ((x, val x), |val x|))

theorem tripled_pair (n : Net β) : (n.tripled val).mapNum Prod.fst = n.paired val := Net.mapNum_mapNum _ _ n

theorem tripled_first (n : Net β) : (n.tripled val).mapNum (fun x => x.1.1) = n :=
  (Net.mapNum_mapNum _ _ n).trans n.mapNum_id

theorem tripled_middle (n : Net β) : (n.tripled val).mapNum (fun x => x.1.2) = n.mapNum val := Net.mapNum_mapNum _ _ n

theorem tripled_size (n : Net β) : (n.tripled val).mapNum Prod.snd = (n.mapNum val).mapNum (fun x => |x|) :=
  (Net.mapNum_mapNum _ _ n).trans (Net.mapNum_mapNum val (fun x => |x|) n).symm

/-- The entries of the tables as they are given. -/
def Raw (val : β → K) (x : (β × K) × K) : Prop := x = 0 ∨ ∃ a, x = ((a, val a), |val a|)

theorem Raw.bounded (h : Rounding val u) {x : (β × K) × K} (hx : Raw val x) : Bounded val u 0 x := by
  rcases hx with rfl | ⟨a, rfl⟩
  · refine ⟨?_, ?_⟩
    · show Off u 0 (val (0 : β)) 0 0
      rw [h.zero]
      exact Off.refl _ _ _
    · show |(0 : K)| ≤ 0
      simp
  · exact ⟨Off.refl _ _ _, le_rfl⟩

theorem tripled_tab {n : Net β} : ∀ f ∈ (n.tripled val).factors, ∀ x ∈ f.tab, Raw val x := by
  intro f hf x hx
  obtain ⟨g, hg, rfl⟩ := List.mem_map.1 hf
  rw [NFactor.tab_mapNum] at hx
  obtain ⟨y, hy, rfl⟩ := List.mem_map.1 hx
  exact .inr ⟨y, rfl⟩

theorem tripled_names {n : Net β} (hn : (n.mapNum val).Valid) {ids : List (NVar × Var)} {vs : Vs}
    (h : (n.tripled val).addVariables 0 (n.tripled val).variables Vs.new = .ok (ids, vs)) :
    (n.tripled val).nameMap 0 ids [] = (n.mapNum val).nameTable := by
  have e1 := addVariables_mapNum (Prod.fst : (β × K) × K → β × K) (n.tripled val) (n.tripled val).variables 0 Vs.new
  rw [tripled_pair, h] at e1
  rw [← nameMap_mapNum Prod.fst, tripled_pair]
  exact paired_names hn e1

theorem tripled_chance {n : Net β} (hn : (n.mapNum val).Valid) (h0 : (n.mapNum val).Nonneg) :
    (n.tripled val).ChanceEntries (fun x => Near val u 0 x.1 ∧ Sure x) := by
  intro ids vs h f hf ht e he hc x hx
  rw [tripled_names hn h] at he
  obtain ⟨i, g1, g2, _, _⟩ := ((selfVars _).get hn).1 he
  obtain ⟨g, hg, rfl⟩ := List.mem_map.1 hf
  rw [NFactor.tab_mapNum] at hx
  obtain ⟨y, hy, rfl⟩ := List.mem_map.1 hx
  have hy0 : 0 ≤ val y := by
    apply h0.tables (g.mapNum val)
    · refine List.mem_filter.2 ⟨List.mem_map_of_mem hg, ?_⟩
      rw [show (g.mapNum val).forVar = (g.mapNum (fun x => ((x, val x), |val x|))).forVar from rfl, ← g2]
      exact (isKind_iff hn (List.mem_of_getElem? g1) _).2 hc
    · rw [NFactor.tab_mapNum]
      exact List.mem_map_of_mem hy
  exact ⟨Near.exact y, abs_of_nonneg hy0, hy0⟩

theorem tripled_entries {n : Net β} (hn : (n.mapNum val).Valid) (h0 : (n.mapNum val).Nonneg) :
    (n.tripled val).ChanceEntries (Divisor3 val u) := by
  intro ids vs h f hf ht e he hc x hx
  obtain ⟨h1, h2, h3⟩ := tripled_chance (u := u) hn h0 ids vs h f hf ht e he hc x hx
  exact ⟨⟨h3, 0, h1⟩, h2⟩

theorem tripled_policies {n : Net β} (h0 : (n.mapNum val).Nonneg) :
    ∀ p ∈ (n.tripled val).policies, ∀ x ∈ p.2.data, Sure x := by
  intro p hp x hx
  obtain ⟨q, hq, rfl⟩ := List.mem_map.1 hp
  obtain ⟨y, hy, rfl⟩ := List.mem_map.1 hx
  have hy0 : 0 ≤ val y := h0.policies (q.1, q.2.mapNum val) (List.mem_map_of_mem hq) _ (List.mem_map_of_mem hy)
  exact ⟨abs_of_nonneg hy0, hy0⟩

/-- The roundings in the factors of a new solver. -/
theorem toVE_cost (h : Rounding val u) (s : NSched (β × K)) (k : Nat) {n : Net β} (hn : (n.mapNum val).Valid)
    (hp : (n.mapNum val).PoliciesOK) (h0 : (n.mapNum val).Nonneg) {evidence : List (String × String)}
    {a : VE (β × K) × List (String × NVar × Var)} (ha : (n.paired val).toVE s k evidence = .ok a)
    (ha2 : a.2 = (n.mapNum val).nameTable) :
    (∀ g ∈ a.1.factors, Fresh h.grading g) ∧ budget h.grading a.1.factors ≤ n.outcomeTotal + 3 * n.variables.length := by
  obtain ⟨f1, f2, f3⟩ := toVE_near h.grading s k (n := n.paired val)
    (fun ids vs hav s e he hu => by
      rw [paired_names hn hav] at he
      obtain ⟨i, c1, c2, _, c4⟩ := ((selfVars _).get hn).1 he
      rw [c4]
      exact solverType_utility.2 hu) (fun _ => 0) (paired_tab (h.start n)) (paired_entries (h.start n) hn h0)
    (paired_policies (h.start n) h0) _ ha
  rw [ha2] at f3
  simp only [Nat.mul_zero, Nat.add_zero] at f3
  refine ⟨f1, f3.trans ?_⟩
  have e1 : ((n.paired val).factors.map (fun f => tableCost (n.mapNum val).nameTable f.forVar)).sum ≤
      (n.mapNum val).outcomeTotal + n.variables.length * 2 := by
    have e2 := names_sum hn hn.tables (fun s hs => by
      obtain ⟨f, hf, rfl⟩ := List.mem_map.1 hs
      exact hn.known f hf) 2
    refine le_trans ?_ e2
    rw [← paired_snd]
    unfold Net.mapNum
    dsimp only
    rw [List.map_map, List.map_map]
    refine List.sum_le_sum (fun f _ => ?_)
    have := tableCost_count hn f.forVar
    rw [← paired_snd] at this
    exact this
  have e3 : (n.paired val).policies.length ≤ n.variables.length := by
    have e4 : ((n.mapNum val).policies.map Prod.fst).Subperm ((n.mapNum val).variables.map NVar.name) :=
      hp.keys.subperm (fun s hs => by
        obtain ⟨p, hpm, rfl⟩ := List.mem_map.1 hs
        obtain ⟨i, v, c1, c2, _⟩ := hp.decision p hpm
        rw [← c2]
        exact List.mem_map_of_mem (List.mem_of_getElem? c1))
    have := e4.length_le
    simp only [List.length_map] at this
    have e5 : (n.mapNum val).policies.length = (n.paired val).policies.length := by simp [Net.mapNum, Net.paired]
    rw [e5] at this
    exact this
  have e6 : (n.mapNum val).outcomeTotal = n.outcomeTotal := rfl
  omega

/-- There are not more factors than variables. -/
theorem solver_length {N : Net K} (hn : N.Valid) (hp : N.PoliciesOK) {pols : List (String × Factor K)}
    (hs : pols.Sublist N.policies ∨ ∃ l, pols.Perm l ∧ l.Sublist N.policies) {vs : Vs} {fs ps : List (Factor K)}
    {deps : List (Var × List Var)} (hS : Solver N pols vs fs ps deps) : (fs ++ ps).length ≤ N.variables.length := by
  have hs' : ∃ l, pols.Perm l ∧ l.Sublist N.policies := by
    rcases hs with hs | hs
    · exact ⟨pols, List.Perm.refl _, hs⟩
    · exact hs
  obtain ⟨l, hl, hs⟩ := hs'
  have h1 := hS.tables.length_eq
  have h2 := hS.policies.length_eq
  have hsub : ∀ p ∈ pols, p ∈ N.policies := fun p h => hs.subset (hl.subset h)
  have e : ((N.factors.filter N.isTable).map NFactor.forVar ++ pols.map Prod.fst).Subperm
      (N.variables.map NVar.name) := by
    apply List.Nodup.subperm
    · refine List.Nodup.append (hn.tables.sublist (List.filter_sublist.map _))
        ((hl.map Prod.fst).nodup_iff.2 (hp.keys.sublist (hs.map _))) ?_
      intro s hs1 hs2
      obtain ⟨f, hf, rfl⟩ := List.mem_map.1 hs1
      obtain ⟨p, hpm, e⟩ := List.mem_map.1 hs2
      obtain ⟨i, v, c1, c2, c3, _⟩ := hp.decision p (hsub p hpm)
      have h := (List.mem_filter.1 hf).2
      simp only [Net.isTable, decide_eq_true_eq] at h
      have : N.isKind .decision f.forVar = true := isKind_mem.2 ⟨v, List.mem_of_getElem? c1, c2.trans e, c3⟩
      rw [this] at h
      exact absurd h.2 (by decide)
    · intro s hs
      rcases List.mem_append.1 hs with hs | hs
      · obtain ⟨f, hf, rfl⟩ := List.mem_map.1 hs
        obtain ⟨v, hv, e⟩ := hn.known f (List.mem_filter.1 hf).1
        rw [← e]
        exact List.mem_map_of_mem hv
      · obtain ⟨p, hpm, rfl⟩ := List.mem_map.1 hs
        obtain ⟨i, v, c1, c2, _⟩ := hp.decision p (hsub p hpm)
        rw [← c2]
        exact List.mem_map_of_mem (List.mem_of_getElem? c1)
  have := e.length_le
  simp only [List.length_append, List.length_map] at this
  rw [List.length_append]
  omega

theorem outcomes_sum {N : Net K} {R : List Var} {names : List (String × NVar × Var)} (hs : SolverVars N names R) :
    (R.map (fun w => w.outcomes + 1)).sum ≤ N.outcomeTotal + N.variables.length := by
  rw [hs.vars_eq, List.map_map]
  have h3 : ∀ (l : List NVar) (i : Nat), ((N.solverVars i l).map ((fun w : Var => w.outcomes + 1) ∘ Prod.snd)).sum ≤
      (l.map (fun v => v.outcomes.length)).sum + l.length := by
    intro l
    induction l with
    | nil => intro i; simp [Net.solverVars]
    | cons v l ih =>
      intro i
      have := ih (i + 1)
      unfold Net.solverVars
      split_ifs
      · rw [List.map_cons, List.sum_cons, List.length_cons]
        omega
      · rw [List.map_cons, List.sum_cons, List.map_cons, List.sum_cons, List.length_cons]
        have e : ((fun w : Var => w.outcomes + 1) ∘ Prod.snd) (v, N.solverVar i v) = v.outcomes.length + 1 := rfl
        rw [e]
        omega
  exact h3 N.variables 0

theorem weights_raw {n : Net β} {ws : List ((β × K) × K)} (h : (n.tripled val).utilityWeights = .ok (some ws)) :
    ∀ x ∈ ws, Raw val x := by
  unfold Net.utilityWeights at h
  cases ht : (n.tripled val).totalUtility with
  | none => rw [ht] at h; cases h
  | some i =>
    rw [ht] at h
    dsimp only at h
    obtain ⟨v, _, h⟩ := ok_inv h
    obtain ⟨f, hf, h⟩ := ok_inv h
    obtain ⟨l, hl, h⟩ := ok_inv h
    cases h
    have hfm : f ∈ (n.tripled val).factors := by
      unfold derefFactor at hf
      cases hv : v.factor with
      | none => rw [hv] at hf; cases hf
      | some j =>
        rw [hv] at hf
        exact List.mem_of_getElem? (goGet_eq.1 hf)
    have key : ∀ (us : List String) (l : List ((β × K) × K)), us.mapM (weightFor f.tab f.given) = .ok l →
        ∀ x ∈ l, x ∈ f.tab := by
      intro us
      induction us with
      | nil => intro l hl; cases hl; simp
      | cons s us ih =>
        intro l hl
        rw [List.mapM_cons] at hl
        obtain ⟨y, hy, hl⟩ := ok_inv hl
        obtain ⟨ys, hys, hl⟩ := ok_inv hl
        cases hl
        intro x hx
        rcases List.mem_cons.1 hx with rfl | hx
        · unfold weightFor at hy
          split at hy
          · cases hy
          · exact List.mem_of_getElem? (goGet_eq.1 hy)
        · exact ih ys hys x hx
    intro x hx
    exact tripled_tab f hfm x (key _ _ hl x hx)

/-- The solver for triples: its exact part is the exact solver, and its factors are off by a number of roundings. -/
theorem toVE_triples (h : SignedRounding val u) (sch : NSched β) (k : Nat) {n : Net β} (hn : (n.mapNum val).Valid)
    (hp : (n.mapNum val).PoliciesOK) (h0 : (n.mapNum val).Nonneg) (evidence : List (String × String)) :
    ∃ vs fs ps deps a,
      (n.mapNum val).toVE (sch.cast K) k evidence =
        .ok (VE.new vs (fs ++ ps) deps (n.mapNum val).solverWeights, (n.mapNum val).nameTable) ∧
      Solver (n.mapNum val) (((sch.cast K).pol k (n.mapNum val).policies).filter (fun p => ∀ e ∈ evidence, e.1 ≠ p.1))
        vs fs ps deps ∧
      (n.tripled val).toVE (sch.cast ((β × K) × K)) k evidence = .ok a ∧
      VE.new vs (fs ++ ps) deps (n.mapNum val).solverWeights = a.1.mapNum (fun x => x.1.2) ∧
      (n.mapNum val).nameTable = a.2 ∧ a.1.vs = vs ∧ AllHave (Bounded val u) vs.variables a.1.factors ∧
      (∀ ws, a.1.weights = some ws → ∀ x ∈ ws, Bounded val u 0 x) ∧
      budgetOf (Bounded val u) a.1.factors ≤ n.outcomeTotal + 3 * n.variables.length ∧
      a.1.factors.length ≤ n.variables.length := by
  have hro := h.rounding
  obtain ⟨vs, fs, ps, deps, h1, hS⟩ := toVE_spec (sch.cast K) k hn hp evidence
  have hch := tripled_entries (u := u) hn h0
  -- the solver of the triples
  have t1 := toVE_map (middle_embeds hro) (sch.cast K) k (n.tripled val) hch evidence
  rw [tripled_middle] at t1
  obtain ⟨a, ha, hae⟩ := t1.inv' h1
  rw [Prod.mk.injEq] at hae
  obtain ⟨hae1, hae2⟩ := hae
  obtain ⟨n0, _, _⟩ := new_good hS.problem (n.mapNum val).solverWeights
  have hfac : a.1.factors.map (Factor.mapNum (fun x => x.1.2)) = fs ++ ps := by
    have := congrArg VE.factors hae1
    rw [n0] at this
    exact this.symm
  have hvs : a.1.vs = vs := by
    have := congrArg VE.vs hae1
    rw [n0] at this
    exact this.symm
  have hfm : ∀ f ∈ a.1.factors, f.mapNum (fun x => x.1.2) ∈ fs ++ ps := by
    intro f hf
    rw [← hfac]
    exact List.mem_map_of_mem hf
  -- its factors are those of the pairs
  have t2 := toVE_map (pair_embeds hro) (sch.cast (β × K)) k (n.tripled val) hch evidence
  rw [tripled_pair] at t2
  have t3 := t2.eq_map
  rw [show (n.tripled val).toVE ((sch.cast (β × K)).cast ((β × K) × K)) k evidence = .ok a from ha] at t3
  obtain ⟨c1, c2⟩ := toVE_cost hro (sch.cast (β × K)) k hn hp h0 t3 hae2.symm
  obtain ⟨k1, k2⟩ := toVE_kind (S := Sure) (T := Raw val) (show Sure (0 : (β × K) × K) from ⟨rfl, le_rfl⟩)
    (fun x y hx hy => ⟨by
      show x.2 + y.2 = x.1.2 + y.1.2
      rw [hx.1, hy.1], add_nonneg hx.2 hy.2⟩)
    (fun x y hx hy => ⟨by
      show x.2 / y.2 = x.1.2 / y.1.2
      rw [hx.1, hy.1], div_nonneg hx.2 hy.2⟩) (.inl rfl) (sch.cast ((β × K) × K)) k tripled_tab
    (fun ids vs hav f hf ht e he hc x hx => (tripled_chance (u := u) hn h0 ids vs hav f hf ht e he hc x hx).2)
    (tripled_policies h0) _ ha
  have hgrade : ∀ g ∈ a.1.factors, (∃ k, g.Has (Bounded val u) k) ∧
      gradeOf (Bounded val u) g ≤ grade hro.grading (g.mapNum Prod.fst) := by
    intro g hg
    obtain ⟨_, k, hk⟩ := c1 (g.mapNum Prod.fst) (List.mem_map_of_mem hg)
    rcases k1 g hg with hs | hs
    · have key : ∀ k, (g.mapNum Prod.fst).Near hro.grading k → g.Has (Bounded val u) k := by
        intro k hk x hx
        exact (hs x hx).bounded hro (hk x.1 (List.mem_map_of_mem hx))
      exact ⟨⟨k, key k hk⟩, gradeOf_le (key _ (grade_near ⟨k, hk⟩))⟩
    · have : g.Has (Bounded val u) 0 := fun x hx => (hs x hx).bounded hro
      exact ⟨⟨0, this⟩, (gradeOf_le this).trans (Nat.zero_le _)⟩
  have hbudget : budgetOf (Bounded val u) a.1.factors ≤ n.outcomeTotal + 3 * n.variables.length := by
    refine le_trans ?_ c2
    show budgetOf (Bounded val u) a.1.factors ≤ budget hro.grading (a.1.factors.map (Factor.mapNum Prod.fst))
    unfold budgetOf budget
    rw [List.map_map]
    exact List.sum_le_sum (fun g hg => Nat.succ_le_succ (hgrade g hg).2)
  have hlen : a.1.factors.length ≤ n.variables.length := by
    have e : a.1.factors.length = (fs ++ ps).length := by rw [← hfac, List.length_map]
    rw [e]
    exact solver_length hn hp (.inr ⟨_, ((sch.cast K).pol_perm k _).filter _, List.filter_sublist⟩) hS
  have hall : AllHave (Bounded val u) vs.variables a.1.factors :=
    ⟨fun f hf => wf_mapped rfl (hS.problem.facWF _ (hfm f hf)), fun f hf v hv => hS.problem.facVars _ (hfm f hf) v hv,
      fun f hf => (hgrade f hf).1⟩
  have hw : ∀ ws, a.1.weights = some ws → ∀ x ∈ ws, Bounded val u 0 x := by
    intro ws hws x hx
    rw [hws] at k2
    exact (weights_raw k2 x hx).bounded hro
  exact ⟨vs, fs, ps, deps, a, h1, hS, ha, hae1, hae2, hvs, hall, hw, hbudget, hlen⟩

/-- `SolveUtility` with triples: every entry of the result is off by a number of roundings, relative to the magnitudes,
that depends on the numbers of variables and outcomes only. -/
theorem solve_triples (h : SignedRounding val u) (sch : NSched β) {n : Net β} (hn : (n.mapNum val).Valid)
    (hp : (n.mapNum val).PoliciesOK) (h0 : (n.mapNum val).Nonneg) {evidence : List (String × String)}
    (hev : (n.mapNum val).EvidenceOK evidence) {query : List String}
    (hq : ∀ q ∈ query, ∃ v ∈ (n.mapNum val).stateVars, v.name = q) {s : String} (ign : Bool)
    {f : Factor ((β × K) × K)} {n' : Net ((β × K) × K)}
    (hr : (n.tripled val).solve (sch.cast ((β × K) × K)) evidence query true s ign = (.ok f, n')) :
    f.WF ∧ f.Has (Bounded val u) (2 * n.outcomeTotal + 6 * n.variables.length + 1) := by
  have hro := h.rounding
  obtain ⟨vs, fs, ps, deps, a, _, hS, ha, hae1, hae2, hvs, hall, hw, hbudget, hlen⟩ :=
    toVE_triples h sch 0 hn hp h0 (if ign then evidence else [])
  have hl : (sch.ev evidence).Perm evidence := sch.ev_perm evidence
  -- the call
  unfold Net.solve Net.enter at hr
  rw [show (n.tripled val).toVE (sch.cast ((β × K) × K)) 0 (if ign = true then evidence else []) = .ok a from ha] at hr
  dsimp only at hr
  unfold solveNamed at hr
  rw [← hae2, show (sch.cast ((β × K) × K)).ev evidence = sch.ev evidence from rfl, mapM_evidence hn (ev_known hev hl),
    ok_bind, mapM_query hn hq, ok_bind] at hr
  simp only [if_true] at hr
  generalize hc : ((do
    let u ← utilityOf (n.mapNum val).nameTable s
    a.1.solveUtility ((sch.cast ((β × K) × K)).ve 0) ((sch.ev evidence).map (n.mapNum val).solverEv)
      (query.map (n.mapNum val).varOf) u) : Except Fault (Factor ((β × K) × K) × VE ((β × K) × K))) = c at hr
  cases c with
  | error e => cases hr
  | ok b =>
    obtain ⟨uv, _, hc⟩ := ok_inv hc
    dsimp only at hr
    obtain ⟨b1, b2⟩ := solveUtility_has (middle_embeds hro) (bounded_graded h) hS.problem.ids
      ((sch.cast ((β × K) × K)).ve 0) (by rw [hvs]) hw _ _ uv hall (f := b.1) (st' := b.2) hc
    have hf : b.1 = f := by
      have := congrArg Prod.fst hr
      exact Except.ok.inj this
    rw [← hf]
    refine ⟨b1, fun x hx => (bounded_graded h).mono ?_ (b2 x hx)⟩
    have e1 := outcomes_sum hS.vars
    have e2 : (n.mapNum val).outcomeTotal = n.outcomeTotal := rfl
    have e3 : (n.mapNum val).variables.length = n.variables.length := rfl
    omega

/-- The magnitude of what `asked` sums up: absolute utilities, with absolute weights. -/
theorem asked_abs {N : Net K} (hn : N.Valid) (s : String) (w : World) :
    (N.mapNum (fun x => |x|)).asked s w = N.askedSize s w := by
  unfold Net.asked Net.askedSize
  split_ifs with hs
  · unfold Net.totalIn
    rw [show (N.mapNum (fun x => |x|)).utilityVars = N.utilityVars from rfl]
    refine congrArg _ (List.map_congr_left (fun v _ => ?_))
    rw [weight_abs, utilityIn_abs hn]
  · exact utilityIn_abs hn s w

theorem val_mapped {A B : Type} [Zero A] [Zero B] {φ : A → B} (h0 : φ 0 = 0) (f : Factor A) (σ : Assignment) :
    (f.mapNum φ).val σ = φ (f.val σ) := by
  unfold Factor.val Factor.mapNum
  dsimp only
  rw [List.getD_eq_getElem?_getD, List.getD_eq_getElem?_getD, List.getElem?_map]
  cases f.data[flatIndex f.vars (tupleOf f.vars σ)]? with
  | none => simp [h0]
  | some x => rfl

theorem solveUtility_rounded (h : SignedRounding val u) (sch : NSched β) {n : Net β} (hn : (n.mapNum val).Valid)
    (hp : (n.mapNum val).PoliciesOK) (h0 : (n.mapNum val).Nonneg) {evidence : List (String × String)}
    (hev : (n.mapNum val).EvidenceOK evidence) {query : List String}
    (hq : ∀ q ∈ query, ∃ v ∈ (n.mapNum val).stateVars, v.name = q) {s : String}
    (hs : s = "" ∧ n.utilityVars ≠ [] ∨ ∃ v ∈ n.utilityVars, v.name = s) (ign : Bool) :
    ∃ g n', n.solveUtility sch evidence query s ign = (.ok g, n') ∧ g.WF ∧
      (∃ ge ne, (n.mapNum val).solveUtility (sch.cast K) evidence query s ign = (.ok ge, ne) ∧ ge.vars = g.vars) ∧
      n.UtilityScope evidence query s g ∧
      ∀ w, n.FitsAll w → Off u (2 * n.outcomeTotal + 6 * n.variables.length + 1) (val (g.val (n.ids w)))
        (sumWorlds ((n.mapNum val).hiddenVars evidence query) (fun w' =>
          (n.mapNum val).joint ((n.mapNum val).active evidence ign) ((n.mapNum val).observe evidence w') *
            (n.mapNum val).asked s ((n.mapNum val).observe evidence w')) w)
        (sumWorlds ((n.mapNum val).hiddenVars evidence query) (fun w' =>
          (n.mapNum val).joint ((n.mapNum val).active evidence ign) ((n.mapNum val).observe evidence w') *
            (n.mapNum val).askedSize s ((n.mapNum val).observe evidence w')) w) := by
  have hro := h.rounding
  have hch := tripled_entries (u := u) hn h0
  obtain ⟨ge, vse, e1, e2, e3, e4⟩ := solve_utility (sch.cast K) hn hp hev hq (u := s) hs ign
  obtain ⟨gm, vsm, m1, m2, m3, m4⟩ := solve_utility (sch.cast K) (Valid.mapNum hn (fun x => |x|))
    (PoliciesOK.mapNum hp (fun x => |x|)) (evidence := evidence) ⟨hev.keys, hev.known⟩ (query := query) hq (u := s) hs ign
  have hmid := solve_map (middle_embeds hro) (sch.cast K) (n.tripled val) hch evidence query true s ign
  have hsiz := solve_map (size_embeds hro) (sch.cast K) (n.tripled val) hch evidence query true s ign
  have hfst := solve_map (first_embeds hro) sch (n.tripled val) hch evidence query true s ign
  rw [tripled_middle] at hmid
  rw [tripled_size] at hsiz
  rw [tripled_first] at hfst
  unfold Net.solveUtility at e1 m1
  rw [e1] at hmid
  rw [m1] at hsiz
  have hcast : (sch.cast K).cast ((β × K) × K) = sch.cast ((β × K) × K) := rfl
  rw [hcast] at hmid hsiz
  rcases hr : (n.tripled val).solve (sch.cast ((β × K) × K)) evidence query true s ign with ⟨r, n3⟩
  rw [hr] at hmid hsiz hfst
  cases r with
  | error e =>
    have := congrArg Prod.fst hmid
    cases this
  | ok f =>
    obtain ⟨f1, f2⟩ := solve_triples h sch hn hp h0 hev hq ign hr
    have hge : ge = f.mapNum (fun x => x.1.2) := Except.ok.inj (congrArg Prod.fst hmid)
    have hgm : gm = f.mapNum Prod.snd := Except.ok.inj (congrArg Prod.fst hsiz)
    refine ⟨f.mapNum (fun x : (β × K) × K => x.1.1), n3.mapNum (fun x : (β × K) × K => x.1.1), hfst,
      ⟨by have := f1.len; simpa [Factor.mapNum] using this, f1.nodup⟩,
      ⟨ge, _, e1, by rw [hge]; rfl⟩, ?_, ?_⟩
    · intro x hx
      rw [hge] at e3
      have := e3 x hx
      rwa [hiddenVars_mapNum] at this
    · intro w hw
      have a1 := e4 w hw
      have a2 := m4 w hw
      rw [hge, val_mapped rfl] at a1
      rw [hgm, val_mapped rfl, hiddenVars_mapNum] at a2
      rw [val_mapped rfl]
      have hb : Bounded val u (2 * n.outcomeTotal + 6 * n.variables.length + 1) (f.val (n.ids w)) := by
        unfold Factor.val
        rw [List.getD_eq_getElem?_getD]
        cases hx : f.data[flatIndex f.vars (tupleOf f.vars (n.ids w))]? with
        | none => exact (bounded_graded h).zero _
        | some x => exact f2 x (List.mem_of_getElem? hx)
      have a3 := hb.1
      have i1 : (n.mapNum val).ids w = n.ids w := rfl
      have i2 : ((n.mapNum val).mapNum (fun x => |x|)).ids w = n.ids w := rfl
      rw [i1] at a1
      rw [i2] at a2
      rw [a1, a2] at a3
      simp only [joint_abs h0, active_abs h0, asked_abs hn] at a3
      exact a3

end Triple

end Bbn
