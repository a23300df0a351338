import Verif.Lemmas.RoundingSolve
import Verif.Props.NetQuery
import Verif.Props.NetNaN

/-!
# Rounding errors of network queries
-/

set_option autoImplicit false
set_option linter.unusedSectionVars false

namespace Bbn

open Finset

variable {β K : Type} [Zero β] [One β] [Add β] [Mul β] [Div β] [Field K] [LinearOrder K] [IsStrictOrderedRing K]
  {h : Grading β K} {val : β → K} {b : String → Nat}

theorem foldl_insert_mem {α : Type} : ∀ (fs acc : List (Factor α)) (f : Factor α), f ∈ fs.foldl insertFactor acc →
    f ∈ acc ∨ f ∈ fs := by
  intro fs
  induction fs with
  | nil => intro acc f h; exact .inl h
  | cons g fs ih =>
    intro acc f h
    rcases ih _ f h with h | h
    · rcases mem_insertFactor h with h | rfl
      · exact .inl h
      · exact .inr List.mem_cons_self
    · exact .inr (List.mem_cons_of_mem _ h)

theorem foldl_insert_budget : ∀ (fs acc : List (Factor (β × K))),
    budget h (fs.foldl insertFactor acc) ≤ budget h acc + budget h fs := by
  intro fs
  induction fs with
  | nil => intro acc; simp [budget]
  | cons g fs ih =>
    intro acc
    rw [List.foldl_cons]
    refine (ih _).trans ?_
    have := budget_insert (h := h) acc g
    have e : budget h (g :: fs) = grade h g + 1 + budget h fs := by simp [budget]
    omega

/-- What holds for a table built for the solver. -/
def Fresh (h : Grading β K) (f : Factor (β × K)) : Prop := PosOrUtility f ∧ ∃ k, f.Near h k

/-- The roundings for one table of the network. -/
def tableCost (names : List (String × NVar × Var)) (s : String) : Nat :=
  ((mapGet names s).map (fun e => e.2.outcomes)).getD 0 + 2

variable [DecidableEq β]

theorem addTable_near (h : Grading β K) {n : Net (β × K)} {names : List (String × NVar × Var)}
    {st st' : List (Factor (β × K)) × List (Var × List Var) × Vs} {f : NFactor (β × K)}
    (hu : ∀ e, mapGet names f.forVar = some e → e.1.nodeType = .utility → e.2.nodeType = .utility)
    {b : Nat} (hf : ∀ x ∈ f.tab, h.N b x)
    (hc : f.forVar ≠ n.totalName → ∀ e, mapGet names f.forVar = some e → e.1.nodeType = .chance → ∀ x ∈ f.tab, h.D x)
    (hr : n.addTable names st f = .ok st') (hs : ∀ g ∈ st.1, Fresh h g) :
    (∀ g ∈ st'.1, Fresh h g) ∧ budget h st'.1 ≤ budget h st.1 + (tableCost names f.forVar + 2 * b) := by
  unfold Net.addTable at hr
  by_cases ht : f.forVar = n.totalName
  · rw [if_pos ht] at hr
    cases hr
    exact ⟨hs, by omega⟩
  rw [if_neg ht] at hr
  cases hm : mapGet names f.forVar with
  | none => rw [hm] at hr; cases hr
  | some e =>
    rw [hm] at hr
    dsimp only at hr
    obtain ⟨given, _, hr⟩ := ok_inv hr
    by_cases h1 : e.2.nodeType = .decision
    · rw [if_pos h1] at hr
      cases hr
      exact ⟨hs, by dsimp only; omega⟩
    rw [if_neg h1] at hr
    by_cases h2 : e.1.nodeType = .decision
    · rw [if_pos h2] at hr
      cases hr
      exact ⟨hs, by omega⟩
    rw [if_neg h2] at hr
    obtain ⟨a, ha, hr⟩ := ok_inv hr
    have hnear : a.1.Near h b := by
      intro x hx
      rcases createFactor_data ha x hx with rfl | hx
      · exact h.zero b
      · exact hf x hx
    have hvars : a.1.vars = given ++ [e.2] := by
      unfold Vs.createFactor at ha
      cases htab : f.table with
      | none => rw [htab] at ha; cases ha; rfl
      | some d =>
        rw [htab] at ha
        dsimp only at ha
        split_ifs at ha
        cases ha
        rfl
    have hcost : tableCost names f.forVar = e.2.outcomes + 2 := by simp [tableCost, hm]
    have hadd : ∀ (g : Factor (β × K)) (k : Nat), g.Near h k → PosOrUtility g → k ≤ e.2.outcomes + 1 + 2 * b →
        (∀ g' ∈ st.1 ++ [g], Fresh h g') ∧
          budget h (st.1 ++ [g]) ≤ budget h st.1 + (tableCost names f.forVar + 2 * b) := by
      intro g k hg hp hk
      refine ⟨fun g' hg' => ?_, ?_⟩
      · rcases List.mem_append.1 hg' with hg' | hg'
        · exact hs g' hg'
        · rw [List.mem_singleton] at hg'
          subst hg'
          exact ⟨hp, k, hg⟩
      · rw [budget_append, budget_single, hcost]
        have := grade_le hg
        omega
    by_cases h3 : e.1.nodeType = .chance
    · rw [if_pos h3] at hr
      obtain ⟨c, hb, hr⟩ := ok_inv hr
      have hdiv : ∀ x ∈ a.1.data, h.D x := by
        intro x hx
        rcases createFactor_data ha x hx with rfl | hx
        · exact h.dzero
        · exact hc ht e hm h3 x hx
      obtain ⟨b1, b2⟩ := normalizeFor_near h hnear (fun x hx => h.dpos (hdiv x hx)) hdiv hb
      cases hr
      exact hadd c.1 _ b1 (.inl b2) (by omega)
    · rw [if_neg h3] at hr
      cases hr
      refine hadd a.1 b hnear (.inr ⟨e.2, by rw [hvars]; simp, hu e hm ?_⟩) (by omega)
      cases hk : e.1.nodeType
      · exact absurd hk h3
      · exact absurd hk h2
      · rfl

theorem addTables_near (h : Grading β K) {n : Net (β × K)} {names : List (String × NVar × Var)}
    (hu : ∀ s e, mapGet names s = some e → e.1.nodeType = .utility → e.2.nodeType = .utility)
    (b : String → Nat) : ∀ (l : List (NFactor (β × K))) (st st' : List (Factor (β × K)) × List (Var × List Var) × Vs),
    (∀ f ∈ l, ∀ x ∈ f.tab, h.N (b f.forVar) x) →
    (∀ f ∈ l, f.forVar ≠ n.totalName → ∀ e, mapGet names f.forVar = some e → e.1.nodeType = .chance →
      ∀ x ∈ f.tab, h.D x) →
    l.foldlM (n.addTable names) st = .ok st' → (∀ g ∈ st.1, Fresh h g) →
    (∀ g ∈ st'.1, Fresh h g) ∧
      budget h st'.1 ≤ budget h st.1 + (l.map (fun f => tableCost names f.forVar + 2 * b f.forVar)).sum := by
  intro l
  induction l with
  | nil => intro st st' _ _ hr hs; cases hr; exact ⟨hs, by simp⟩
  | cons f l ih =>
    intro st st' hf hc hr hs
    rw [List.foldlM_cons] at hr
    obtain ⟨st1, h1, hr⟩ := ok_inv hr
    obtain ⟨a1, a2⟩ := addTable_near h (hu f.forVar) (hf f List.mem_cons_self) (hc f List.mem_cons_self) h1 hs
    obtain ⟨b1, b2⟩ := ih st1 st' (fun g hg => hf g (List.mem_cons_of_mem _ hg))
      (fun g hg => hc g (List.mem_cons_of_mem _ hg)) hr a1
    refine ⟨b1, ?_⟩
    rw [List.map_cons, List.sum_cons]
    omega

theorem policyFactors_near {n : Net (β × K)} {ids : List (NVar × Var)} {evidence : List (String × String)} :
    ∀ (ps : List (String × Factor (β × K))) (vs : Vs) (a : List (Factor (β × K)) × Vs),
    (∀ p ∈ ps, p.2.Near h 0 ∧ p.2.Pos) → n.policyFactors ids evidence ps vs = .ok a →
    (∀ g ∈ a.1, Fresh h g) ∧ budget h a.1 ≤ ps.length := by
  intro ps
  induction ps with
  | nil => intro vs a _ hr; cases hr; exact ⟨by simp, by simp [budget]⟩
  | cons p ps ih =>
    intro vs a hp hr
    rw [Net.policyFactors] at hr
    by_cases he : (mapGet evidence p.1).isSome
    · rw [if_pos he] at hr
      obtain ⟨b1, b2⟩ := ih vs a (fun q hq => hp q (List.mem_cons_of_mem _ hq)) hr
      exact ⟨b1, by simp; omega⟩
    · rw [if_neg he] at hr
      obtain ⟨vars, _, hr⟩ := ok_inv hr
      obtain ⟨c, hc, hr⟩ := ok_inv hr
      obtain ⟨d, hd, hr⟩ := ok_inv hr
      cases hr
      obtain ⟨b1, b2⟩ := ih c.2 d (fun q hq => hp q (List.mem_cons_of_mem _ hq)) hd
      have e := createFactor_some_inv hc
      obtain ⟨p1, p2⟩ := hp p List.mem_cons_self
      have n1 : c.1.Near h 0 := by unfold Factor.Near; rw [e]; exact p1
      have n2 : c.1.Pos := by unfold Factor.Pos; rw [e]; exact p2
      refine ⟨fun g hg => ?_, ?_⟩
      · rcases List.mem_cons.1 hg with rfl | hg
        · exact ⟨.inl n2, 0, n1⟩
        · exact b1 g hg
      · have : budget h (c.1 :: d.1) = grade h c.1 + 1 + budget h d.1 := by simp [budget]
        dsimp only
        rw [this, List.length_cons]
        have := grade_le n1
        omega

/-- The solver of a network with pairs of rounded and exact numbers. -/
theorem toVE_near (h : Grading β K) {n : Net (β × K)} (s : NSched (β × K)) (k : Nat)
    (hu : ∀ ids vs, n.addVariables 0 n.variables Vs.new = .ok (ids, vs) → ∀ s e, mapGet (n.nameMap 0 ids []) s = some e →
      e.1.nodeType = .utility → e.2.nodeType = .utility)
    (b : String → Nat) (hf : ∀ f ∈ n.factors, ∀ x ∈ f.tab, h.N (b f.forVar) x) (hn : n.ChanceEntries (h.D))
    (hp : ∀ p ∈ n.policies, p.2.Near h 0 ∧ p.2.Pos) (evidence : List (String × String))
    {a : VE (β × K) × List (String × NVar × Var)} (ha : n.toVE s k evidence = .ok a) :
    (∀ g ∈ a.1.factors, Fresh h g) ∧ a.1.log = [] ∧
      budget h a.1.factors ≤ (n.factors.map (fun f => tableCost a.2 f.forVar + 2 * b f.forVar)).sum + n.policies.length := by
  unfold Net.toVE at ha
  obtain ⟨v, hv, ha⟩ := ok_inv ha
  obtain ⟨t, ht, ha⟩ := ok_inv ha
  obtain ⟨p, hpf, ha⟩ := ok_inv ha
  obtain ⟨w, _, ha⟩ := ok_inv ha
  cases ha
  obtain ⟨t1, t2⟩ := addTables_near h (hu v.1 v.2 hv) b n.factors ([], [], v.2) t hf
    (fun f hf' h1 e h2 h3 x hx => hn v.1 v.2 hv f hf' h1 e h2 h3 x hx) ht (by simp)
  obtain ⟨p1, p2⟩ := policyFactors_near (h := h) _ _ p
    (fun q hq => hp q ((s.pol_perm k n.policies).subset hq)) hpf
  refine ⟨fun g hg => ?_, rfl, ?_⟩
  · rcases foldl_insert_mem _ _ g hg with hg | hg
    · simp at hg
    · rcases List.mem_append.1 hg with hg | hg
      · exact t1 g hg
      · exact p1 g hg
  · have e1 := foldl_insert_budget (h := h) (t.1 ++ p.1) []
    rw [budget_append] at e1
    have e2 : budget h ([] : List (Factor (β × K))) = 0 := by simp [budget]
    have e3 := (s.pol_perm k n.policies).length_eq
    have e4 : budget h (VE.new p.2 (t.1 ++ p.1) t.2.1 w).factors ≤
      budget h [] + (budget h t.1 + budget h p.1) := e1
    have e5 : budget h t.1 ≤ budget h [] +
      (n.factors.map (fun f => tableCost (n.nameMap 0 v.1 []) f.forVar + 2 * b f.forVar)).sum := t2
    show budget h (VE.new p.2 (t.1 ++ p.1) t.2.1 w).factors ≤
      (n.factors.map (fun f => tableCost (n.nameMap 0 v.1 []) f.forVar + 2 * b f.forVar)).sum + _
    omega

/-- The sum of `b` over all variables. -/
def Net.bitTotal {α : Type} (b : String → Nat) (n : Net α) : Nat := (n.variables.map (fun v => b v.name)).sum

/-- Every number together with the exact number that it stands for. -/
def Net.paired (val : β → K) (n : Net β) : Net (β × K) := n.mapNum (fun x => (x, val x))

theorem Net.mapNum_mapNum {A B C : Type} (φ : A → B) (ψ : B → C) (n : Net A) :
    (n.mapNum φ).mapNum ψ = n.mapNum (fun x => ψ (φ x)) := by
  have e1 : ∀ f : NFactor A, (f.mapNum φ).mapNum ψ = f.mapNum (fun x => ψ (φ x)) := by
    intro f
    unfold NFactor.mapNum
    cases f.table with
    | none => rfl
    | some t => simp
  have e2 : ∀ f : Factor A, (f.mapNum φ).mapNum ψ = f.mapNum (fun x => ψ (φ x)) := by
    intro f
    unfold Factor.mapNum
    simp
  unfold Net.mapNum
  simp [e1, e2]

theorem Net.mapNum_id {A : Type} (n : Net A) : n.mapNum (fun x => x) = n := by
  have e1 : ∀ f : NFactor A, f.mapNum (fun x => x) = f := by
    intro f
    unfold NFactor.mapNum
    cases h : f.table with
    | none => rw [Option.map_none, ← h]
    | some t => rw [Option.map_some, List.map_id', ← h]
  have e2 : ∀ f : Factor A, f.mapNum (fun x => x) = f := by
    intro f
    unfold Factor.mapNum
    simp
  unfold Net.mapNum
  rw [show (NFactor.mapNum (fun x : A => x)) = id from funext e1]
  simp [e2]

theorem paired_fst (n : Net β) : (n.paired val).mapNum Prod.fst = n :=
  (Net.mapNum_mapNum _ _ n).trans n.mapNum_id

theorem paired_snd (n : Net β) : (n.paired val).mapNum Prod.snd = n.mapNum val := Net.mapNum_mapNum _ _ n

/-- The numbers of a network, each paired with the exact number that it stands for, and `b` for the size of the entries of
each table. -/
structure Start (h : Grading β K) (val : β → K) (b : String → Nat) (n : Net β) : Prop where
  tabs : ∀ f ∈ n.factors, ∀ x ∈ f.tab, h.N (b f.forVar) (x, val x)
  divs : ∀ f ∈ n.factors, ∀ x ∈ f.tab, 0 ≤ val x → h.D (x, val x)
  pols : ∀ p ∈ n.policies, ∀ x ∈ p.2.data, h.N 0 (x, val x)

theorem Rounding.start {u : K} (h : Rounding val u) (n : Net β) : Start h.grading val (fun _ => 0) n :=
  ⟨fun _ _ x _ => Near.exact x, fun _ _ x _ hx => ⟨hx, 0, Near.exact x⟩, fun _ _ x _ => Near.exact x⟩

theorem paired_tab {n : Net β} (st : Start h val b n) :
    ∀ f ∈ (n.paired val).factors, ∀ x ∈ f.tab, h.N (b f.forVar) x := by
  intro f hf x hx
  obtain ⟨g, hg, rfl⟩ := List.mem_map.1 hf
  rw [NFactor.tab_mapNum] at hx
  obtain ⟨y, hy, rfl⟩ := List.mem_map.1 hx
  exact st.tabs g hg y hy

theorem mem_paired {n : Net β} {f : NFactor (β × K)} (hf : f ∈ (n.paired val).factors) :
    f.mapNum Prod.snd ∈ (n.mapNum val).factors := by
  rw [← paired_snd]
  exact List.mem_map_of_mem hf

theorem paired_names {n : Net β} (hn : (n.mapNum val).Valid) {ids : List (NVar × Var)} {vs : Vs}
    (h : (n.paired val).addVariables 0 (n.paired val).variables Vs.new = .ok (ids, vs)) :
    (n.paired val).nameMap 0 ids [] = (n.mapNum val).nameTable := by
  obtain ⟨R, r1, r2⟩ := start_vars _ hn
  have e1 := addVariables_mapNum (Prod.snd : β × K → K) (n.paired val) (n.paired val).variables 0 Vs.new
  rw [paired_snd, h] at e1
  rw [show (n.paired val).variables = (n.mapNum val).variables from rfl, r1] at e1
  cases e1
  rw [← nameMap_mapNum Prod.snd, paired_snd]
  exact r2.names_eq

theorem paired_entries {n : Net β} (st : Start h val b n) (hn : (n.mapNum val).Valid) (h0 : (n.mapNum val).Nonneg) :
    (n.paired val).ChanceEntries (h.D) := by
  intro ids vs h f hf ht e he hc x hx
  rw [paired_names hn h] at he
  obtain ⟨i, g1, g2, _, _⟩ := ((selfVars _).get hn).1 he
  obtain ⟨g, hg, rfl⟩ := List.mem_map.1 hf
  rw [NFactor.tab_mapNum] at hx
  obtain ⟨y, hy, rfl⟩ := List.mem_map.1 hx
  refine st.divs g hg y hy ?_
  apply h0.tables (g.mapNum val)
  · refine List.mem_filter.2 ⟨List.mem_map_of_mem hg, ?_⟩
    rw [show (g.mapNum val).forVar = (g.mapNum (fun x => (x, val x))).forVar from rfl, ← g2]
    exact (isKind_iff hn (List.mem_of_getElem? g1) _).2 hc
  · rw [NFactor.tab_mapNum]
    exact List.mem_map_of_mem hy

theorem paired_policies {n : Net β} (st : Start h val b n) (h0 : (n.mapNum val).Nonneg) :
    ∀ p ∈ (n.paired val).policies, p.2.Near h 0 ∧ p.2.Pos := by
  intro p hp
  have hm : (p.1, p.2.mapNum Prod.snd) ∈ (n.mapNum val).policies := by
    rw [← paired_snd]
    exact List.mem_map_of_mem hp
  obtain ⟨q, hq, rfl⟩ := List.mem_map.1 hp
  refine ⟨fun x hx => ?_, fun x hx => h0.policies _ hm _ (List.mem_map_of_mem hx)⟩
  obtain ⟨y, hy, rfl⟩ := List.mem_map.1 hx
  exact st.pols q hq y hy

theorem subperm_sum {A : Type} {l m : List A} (h : l.Subperm m) (g : A → Nat) : (l.map g).sum ≤ (m.map g).sum := by
  obtain ⟨k, hk, hs⟩ := h
  rw [← (hk.map g).sum_eq]
  exact (hs.map g).sum_le_sum (fun _ _ => Nat.zero_le _)

/-- A sum over distinct names of variables is at most the sum over all variables. -/
theorem names_sum {α : Type} {n : Net α} (hn : n.Valid) {l : List String} (hl : l.Nodup)
    (hk : ∀ s ∈ l, ∃ v ∈ n.variables, v.name = s) (c : Nat) :
    (l.map (fun s => n.count s + c)).sum ≤ n.outcomeTotal + n.variables.length * c := by
  have h1 : l.Subperm (n.variables.map NVar.name) := hl.subperm (fun s hs => by
    obtain ⟨v, hv, rfl⟩ := hk s hs
    exact List.mem_map_of_mem hv)
  refine (subperm_sum h1 _).trans ?_
  rw [List.map_map]
  have : ∀ vs : List NVar, (∀ v ∈ vs, v ∈ n.variables) → (vs.map ((fun s => n.count s + c) ∘ NVar.name)).sum =
      (vs.map (fun v => v.outcomes.length)).sum + vs.length * c := by
    intro vs
    induction vs with
    | nil => intro _; simp
    | cons v vs ih =>
      intro hv
      rw [List.map_cons, List.sum_cons, ih (fun w hw => hv w (List.mem_cons_of_mem _ hw)), List.map_cons, List.sum_cons,
        List.length_cons, Function.comp_apply, count_eq hn (hv v List.mem_cons_self), Nat.succ_mul]
      omega
  exact (this _ (fun _ h => h)).le

/-- The same with the sizes of the entries. -/
theorem names_sum_bits {α : Type} {n : Net α} (hn : n.Valid) {l : List String} (hl : l.Nodup)
    (hk : ∀ s ∈ l, ∃ v ∈ n.variables, v.name = s) (c : Nat) (b : String → Nat) :
    (l.map (fun s => n.count s + c + 2 * b s)).sum ≤ n.outcomeTotal + n.variables.length * c + 2 * n.bitTotal b := by
  have h1 := names_sum hn hl hk c
  have h2 : (l.map b).sum ≤ n.bitTotal b := by
    have h3 : l.Subperm (n.variables.map NVar.name) := hl.subperm (fun s hs => by
      obtain ⟨v, hv, rfl⟩ := hk s hs
      exact List.mem_map_of_mem hv)
    have := subperm_sum h3 b
    rwa [List.map_map] at this
  have h3 : (l.map (fun s => n.count s + c + 2 * b s)).sum = (l.map (fun s => n.count s + c)).sum + 2 * (l.map b).sum := by
    induction l with
    | nil => rfl
    | cons s l ih =>
      simp only [List.map_cons, List.sum_cons]
      rw [ih hl.of_cons (fun t ht => hk t (List.mem_cons_of_mem _ ht))
        (names_sum hn hl.of_cons (fun t ht => hk t (List.mem_cons_of_mem _ ht)) c)
        ((by simp only [List.map_cons, List.sum_cons] at h2; omega))]
      ring
  omega

theorem tableCost_count {α : Type} {n : Net α} (hn : n.Valid) (s : String) :
    tableCost n.nameTable s ≤ n.count s + 2 := by
  unfold tableCost
  cases hm : mapGet n.nameTable s with
  | none => simp
  | some e =>
    obtain ⟨i, g1, g2, _, g4⟩ := ((selfVars n).get hn).1 hm
    have : e.2.outcomes = n.count s := by rw [g4, ← g2, count_eq hn (List.mem_of_getElem? g1)]; rfl
    simp [this]

theorem elimCost_log {α : Type} {n : Net α} {R : List Var} {names : List (String × NVar × Var)} (hn : n.Valid)
    (hs : SolverVars n names R) {hids : List Var} {p : Var → Bool} (hp : hids.Perm (R.filter p)) :
    ((hids.map Var.id).map (elimCost R)).sum ≤ n.outcomeTotal + n.variables.length := by
  rw [((hp.map Var.id).map _).sum_eq]
  have h1 : (((R.filter p).map Var.id).map (elimCost R)).sum ≤ ((R.map Var.id).map (elimCost R)).sum :=
    ((List.filter_sublist.map _).map _).sum_le_sum (fun _ _ => Nat.zero_le _)
  refine h1.trans ?_
  have hnd := hs.ids
  have h2 : ∀ w ∈ R, elimCost R w.id = w.outcomes + 1 := by
    intro w hw
    have : R.filter (fun x => x.id = w.id) = [w] := by
      apply List.perm_singleton.1
      refine (List.perm_ext_iff_of_nodup ((List.Nodup.of_map _ hnd).filter _) (List.nodup_singleton w)).2 ?_
      intro x
      rw [List.mem_filter, List.mem_singleton, decide_eq_true_eq]
      constructor
      · rintro ⟨hx, e⟩
        exact List.inj_on_of_nodup_map hnd hx hw e
      · rintro rfl
        exact ⟨hw, rfl⟩
    unfold elimCost
    rw [this]
    simp
  rw [List.map_map, List.map_congr_left (g := fun w => w.outcomes + 1) h2, hs.vars_eq, List.map_map]
  have h3 : ∀ (l : List NVar) (i : Nat), ((n.solverVars i l).map ((fun w : Var => w.outcomes + 1) ∘ Prod.snd)).sum ≤
      (l.map (fun v => v.outcomes.length)).sum + l.length := by
    intro l
    induction l with
    | nil => intro i; simp [Net.solverVars]
    | cons v l ih =>
      intro i
      have := ih (i + 1)
      unfold Net.solverVars
      split_ifs
      · rw [List.map_cons, List.sum_cons, List.length_cons]
        omega
      · rw [List.map_cons, List.sum_cons, List.map_cons, List.sum_cons, List.length_cons]
        have e : ((fun w : Var => w.outcomes + 1) ∘ Prod.snd) (v, n.solverVar i v) = v.outcomes.length + 1 := rfl
        rw [e]
        omega
  exact h3 n.variables 0

/-- A query of a network with pairs: the exact parts are those of the exact network, and every entry of the result is
explained by a number of roundings that depends on the number of variables and outcomes only. -/
theorem solve_rounded (h : Grading β K) (sch : NSched β) {n : Net β} (st : Start h val b n) (hn : (n.mapNum val).Valid)
    (hp : (n.mapNum val).PoliciesOK) (h0 : (n.mapNum val).Nonneg) {evidence : List (String × String)}
    (hev : (n.mapNum val).EvidenceOK evidence) {query : List String}
    (hq : ∀ q ∈ query, ∃ v ∈ (n.mapNum val).stateVars, v.name = q) (ign : Bool) :
    ∃ vs fs ps deps f vs', (n.paired val).solve (sch.cast (β × K)) evidence query false "" ign =
        (.ok f, { n.paired val with vs := some vs', names := (n.mapNum val).nameTable }) ∧
      Solver (n.mapNum val) ((sch.cast K).active 0 (n.mapNum val) evidence ign) vs fs ps deps ∧
      (f.mapNum Prod.snd).WF ∧
      (∀ v, v ∈ f.vars ↔ (∃ f ∈ probTables (fs ++ ps), v ∈ f.vars) ∧
        (∀ e ∈ (sch.ev evidence).map (n.mapNum val).solverEv, e.var.id ≠ v.id) ∧
        v ∉ hidden vs.variables deps ((sch.ev evidence).map (n.mapNum val).solverEv) (query.map (n.mapNum val).varOf)) ∧
      (∀ σ, Fits σ f.vars → (f.mapNum Prod.snd).val σ =
        sumOver (hidden vs.variables deps ((sch.ev evidence).map (n.mapNum val).solverEv)
          (query.map (n.mapNum val).varOf))
          (fun τ => joint (probTables (fs ++ ps)) (plug ((sch.ev evidence).map (n.mapNum val).solverEv) τ)) σ) ∧
      f.Pos ∧ f.Near h (2 * (n.mapNum val).outcomeTotal + 4 * n.variables.length + 2 * n.bitTotal b) := by
  obtain ⟨vs, fs, ps, deps, h1, hS⟩ := toVE_spec (sch.cast K) 0 hn hp (if ign then evidence else [])
  have hl : (sch.ev evidence).Perm evidence := sch.ev_perm evidence
  have hperm := active_perm (sch.cast K) 0 (n.mapNum val) evidence ign
  obtain ⟨g, st', g1, g2, g3, g4, hs, g5, g6, _⟩ := solve_remove_spec ((sch.cast K).ve 0) hS.problem
    (n.mapNum val).solverWeights (ev_ok hn hev hl hS.vars) (query.map (n.mapNum val).varOf) none
    (keep_none hS.problem.facVars).symm (fun v hv => hidden_occurs hn hp hl hperm hS _ hv)
  have hch := paired_entries st hn h0
  have t1 := toVE_map (exact_embeds h) (sch.cast K) 0 (n.paired val) hch (if ign then evidence else [])
  rw [paired_snd] at t1
  obtain ⟨a, ha, hae⟩ := t1.inv' h1
  rw [Prod.mk.injEq] at hae
  obtain ⟨hae1, hae2⟩ := hae
  have t2 := veSolve_map (exact_embeds h) ((sch.cast K).ve 0) a.1
    ((sch.ev evidence).map (n.mapNum val).solverEv) (query.map (n.mapNum val).varOf) false none
  rw [← hae1] at t2
  obtain ⟨c, hb, hbe⟩ := t2.inv' (b := (g, st')) g1
  rw [Prod.mk.injEq] at hbe
  obtain ⟨hbe1, hbe2⟩ := hbe
  obtain ⟨n0, _, _⟩ := new_good hS.problem (n.mapNum val).solverWeights
  have hfac : a.1.factors.map (Factor.mapNum Prod.snd) = fs ++ ps := by
    have := congrArg VE.factors hae1
    rw [n0] at this
    exact this.symm
  have hvs : a.1.vs = vs := by
    have := congrArg VE.vs hae1
    rw [n0] at this
    exact this.symm
  have hfm : ∀ f ∈ a.1.factors, f.mapNum Prod.snd ∈ fs ++ ps := by
    intro f hf
    rw [← hfac]
    exact List.mem_map_of_mem hf
  obtain ⟨f1, f2, f3⟩ := toVE_near h (sch.cast (β × K)) 0 (n := n.paired val)
    (fun ids vs hav s e he hu => by
      rw [paired_names hn hav] at he
      obtain ⟨i, c1, c2, _, c4⟩ := ((selfVars _).get hn).1 he
      rw [c4]
      exact solverType_utility.2 hu) b (paired_tab st) hch (paired_policies st h0) _ ha
  rw [← hae2] at f3
  have hex : Explained h vs.variables a.1.factors := by
    refine ⟨fun f hf => wf_of_map rfl (hS.problem.facWF _ (hfm f hf)), fun f hf v hv => ?_, fun f hf => (f1 f hf).2⟩
    exact hS.problem.facVars _ (hfm f hf) v hv
  obtain ⟨b1, b2, b3⟩ := solve_near h hS.problem.ids ((sch.cast (β × K)).ve 0) (by rw [hvs]) f2
    ((sch.ev evidence).map (n.mapNum val).solverEv) (query.map (n.mapNum val).varOf)
    (fun e he w hw hwu hid => by
      obtain ⟨d1, d2, _⟩ := ev_ok hn hev hl hS.vars e he
      exact d2 ((coherent_of_nodup hS.problem.ids _ d1 _ hw hid.symm) ▸ hwu))
    hex (fun f hf => (f1 f hf).1) (f := c.1) (st' := c.2) hb
  have hlog : c.2.log = hs.map Var.id := by
    rw [← g5, hbe2]
    rfl
  have hcost1 : budget h a.1.factors ≤ (n.mapNum val).outcomeTotal + 3 * n.variables.length + 2 * n.bitTotal b := by
    refine f3.trans ?_
    have e1 : ((n.paired val).factors.map
        (fun f => tableCost (n.mapNum val).nameTable f.forVar + 2 * b f.forVar)).sum ≤
        (n.mapNum val).outcomeTotal + n.variables.length * 2 + 2 * n.bitTotal b := by
      have e2 := names_sum_bits hn hn.tables (fun s hs => by
        obtain ⟨f, hf, rfl⟩ := List.mem_map.1 hs
        exact hn.known f hf) 2 b
      refine le_trans ?_ e2
      rw [← paired_snd]
      unfold Net.mapNum
      dsimp only
      rw [List.map_map, List.map_map]
      refine List.sum_le_sum (fun f _ => ?_)
      have := tableCost_count hn f.forVar
      rw [← paired_snd] at this
      exact Nat.add_le_add_right this _
    have e3 : (n.paired val).policies.length ≤ n.variables.length := by
      have e4 : ((n.mapNum val).policies.map Prod.fst).Subperm ((n.mapNum val).variables.map NVar.name) :=
        hp.keys.subperm (fun s hs => by
          obtain ⟨p, hpm, rfl⟩ := List.mem_map.1 hs
          obtain ⟨i, v, c1, c2, _⟩ := hp.decision p hpm
          rw [← c2]
          exact List.mem_map_of_mem (List.mem_of_getElem? c1))
      have := e4.length_le
      simp only [List.length_map] at this
      have e5 : (n.mapNum val).policies.length = (n.paired val).policies.length := by simp [Net.mapNum, Net.paired]
      rw [e5] at this
      exact this
    omega
  have hcost2 := elimCost_log hn hS.vars g6
  refine ⟨vs, fs, ps, deps, c.1, c.2.vs, ?_, hS, hbe1 ▸ g2, ?_, ?_, b2, b3.mono h ?_⟩
  · unfold Net.solve Net.enter
    rw [show (n.paired val).toVE (sch.cast (β × K)) 0 (if ign = true then evidence else []) = .ok a from ha]
    dsimp only
    unfold solveNamed
    rw [← hae2, show (sch.cast (β × K)).ev evidence = sch.ev evidence from rfl, mapM_evidence hn (ev_known hev hl), ok_bind,
      mapM_query hn hq, ok_bind]
    simp only [Bool.false_eq_true, if_false]
    have : a.1.solveQuery ((sch.cast (β × K)).ve 0) ((sch.ev evidence).map (n.mapNum val).solverEv)
      (query.map (n.mapNum val).varOf) = .ok c := hb
    rw [this]
  · rw [hbe1] at g3
    exact g3
  · rw [hbe1] at g4
    exact g4
  · rw [hlog]
    have e : (n.mapNum val).variables.length = n.variables.length := rfl
    rw [e] at hcost2
    omega

theorem goSum_snd : ∀ (l : List (β × K)), (goSum l).2 = goSum (l.map Prod.snd) := by
  intro l
  unfold goSum
  have : ∀ (l : List (β × K)) (acc : β × K),
      (l.foldl (· + ·) acc).2 = (l.map Prod.snd).foldl (· + ·) acc.2 := by
    intro l
    induction l with
    | nil => intro acc; rfl
    | cons x l ih => intro acc; rw [List.foldl_cons, ih, List.map_cons, List.foldl_cons]; rfl
  exact this l 0

/-- The answers for the query variables. -/
theorem queryLoop_rounded (h : Grading β K) {N : Net K} (hn : N.Valid) {f : Factor (β × K)}
    (hf : (f.mapNum Prod.snd).WF) (hp : f.Pos) {g : Nat} (hg : f.Near h g) :
    ∀ (qs : List String) (result : List (String × List β)) (m : Net (β × K)) (vs : Vs), m.names = N.nameTable →
    m.vs = some vs → (∀ q ∈ qs, (∃ v ∈ N.stateVars, v.name = q) ∧ N.varOf q ∈ f.vars ∧
      ∑ k ∈ range (N.varOf q).outcomes, margOf (f.mapNum Prod.snd) (N.varOf q) k ≠ 0) →
    ∃ r n', Net.queryLoop (f.mapNum Prod.fst) qs result (m.mapNum Prod.fst) = (.ok r, n') ∧
      ((result.map Prod.fst).Nodup → (r.map Prod.fst).Nodup) ∧
      (∀ s, s ∉ qs → mapGet r s = mapGet result s) ∧
      ∀ s ∈ qs, ∃ d : List (β × K), mapGet r s = some (d.map Prod.fst) ∧
        d.map Prod.snd = postData (f.mapNum Prod.snd) (N.varOf s) ∧
        ∀ x ∈ d, h.N (2 * g + 2 * f.data.length + (N.varOf s).outcomes + 1) x ∧ 0 ≤ x.2 := by
  intro qs
  induction qs with
  | nil =>
    intro result m vs h1 h2 _
    exact ⟨result, _, rfl, id, by simp, by simp⟩
  | cons q qs ih =>
    intro result m vs h1 h2 h3
    obtain ⟨⟨v, hv, rfl⟩, hqg, hne⟩ := h3 q List.mem_cons_self
    obtain ⟨hv1, hv2⟩ := mem_stateVars.1 hv
    obtain ⟨mm, vs1, a1, a2, a3⟩ := marginal_raw vs hf (v := N.varOf v.name) hqg
    obtain ⟨mT, b1, b2⟩ := (marginal_map (exact_embeds h) vs f (N.varOf v.name)).inv' a1
    obtain ⟨mT, vsT⟩ := mT
    rw [Prod.mk.injEq] at b2
    obtain ⟨b2, rfl⟩ := b2
    dsimp only at b2
    obtain ⟨c1, c2⟩ := marginal_near h hg hp b1
    dsimp only at c1 c2
    have e1 : m.marginal f v.name = (.ok mT, { m with vs := some vs1 }) := by
      unfold Net.marginal Net.withVs
      rw [h1, get_state hn hv1 (state_notTotal hn hv1 hv2)]
      dsimp only
      rw [h2]
      dsimp only
      rw [b1]
    have hd : mT.data.map Prod.snd = (List.range (N.varOf v.name).outcomes).map
        (margOf (f.mapNum Prod.snd) (N.varOf v.name)) := by
      rw [← a3, b2]
      rfl
    have hlen : mT.data.length = (N.varOf v.name).outcomes := by
      have := congrArg List.length hd
      simpa using this
    have hsz : mT.data.length = size mT.vars := by
      have e : mT.vars = [N.varOf v.name] := by
        rw [b2] at a2
        exact a2
      rw [e, hlen]
      simp [size]
    have hsum : (goSum mT.data).2 = ∑ k ∈ range (N.varOf v.name).outcomes,
        margOf (f.mapNum Prod.snd) (N.varOf v.name) k := by
      rw [goSum_snd, goSum_eq_sum, hd, List.length_map, List.length_range]
      refine Finset.sum_congr rfl (fun k hk => ?_)
      have := Finset.mem_range.1 hk
      simp [this]
    set dT := mT.data.map (· / goSum mT.data) with hdT
    have e2 : (({ m with vs := some vs1 } : Net (β × K)).mapNum Prod.fst).normalize (mT.mapNum Prod.fst) =
        (.ok ⟨vs1.factorCounter, dT.map Prod.fst, mT.vars⟩,
          ({ m with vs := some { vs1 with factorCounter := vs1.factorCounter + 1 } } : Net (β × K)).mapNum Prod.fst) := by
      unfold Net.normalize Net.withVs Net.mapNum
      dsimp only
      unfold Vs.normalize Vs.createFactor
      dsimp only [Factor.mapNum]
      rw [if_neg]
      · have e3 : (mT.data.map Prod.fst).map (fun x => x / goSum (mT.data.map Prod.fst)) = dT.map Prod.fst := by
          rw [hdT, List.map_map, List.map_map]
          apply List.map_congr_left
          intro x _
          show x.1 / goSum (mT.data.map Prod.fst) = x.1 / (goSum mT.data).1
          rw [goSum_map (rounded_embeds h)]
        rw [ok_bind]
        dsimp only
        rw [e3]
        rfl
      · rw [List.length_map, hsz]
        exact fun h => h rfl
    have hnear : ∀ x ∈ dT, h.N (2 * g + 2 * f.data.length + (N.varOf v.name).outcomes + 1) x ∧ 0 ≤ x.2 := by
      have hna : vs1.normalize mT = .ok (⟨vs1.factorCounter, dT, mT.vars⟩,
          { vs1 with factorCounter := vs1.factorCounter + 1 }) := by
        unfold Vs.normalize Vs.createFactor
        dsimp only
        rw [if_neg (fun h => h hsz)]
        rfl
      obtain ⟨d1, d2⟩ := normalize_near h c1 c2 (by rw [hsum]; exact hne) hna
      intro x hx
      refine ⟨(d1 x hx).mono h ?_, d2 x hx⟩
      rw [hlen]
      omega
    have hpost : dT.map Prod.snd = postData (f.mapNum Prod.snd) (N.varOf v.name) := by
      unfold postData
      rw [← hsum, hdT, List.map_map]
      have e4 : (List.range (N.varOf v.name).outcomes).map
          (fun k => margOf (f.mapNum Prod.snd) (N.varOf v.name) k / (goSum mT.data).2) =
          (mT.data.map Prod.snd).map (fun y => y / (goSum mT.data).2) := by
        rw [hd, List.map_map]
        rfl
      rw [e4, List.map_map]
      rfl
    obtain ⟨r, n', r1, r2, r3, r4⟩ := ih (mapSet result v.name (dT.map Prod.fst))
      { m with vs := some { vs1 with factorCounter := vs1.factorCounter + 1 } } _ h1 rfl
      (fun q hq => h3 q (List.mem_cons_of_mem _ hq))
    refine ⟨r, n', ?_, fun h => r2 (mapSet_keys h), ?_, ?_⟩
    · unfold Net.queryLoop
      rw [netMarginal_map (rounded_embeds h), e1]
      dsimp only [callMap, Except.map]
      rw [e2]
      dsimp only
      rw [r1]
    · intro s hs
      rw [List.mem_cons, not_or] at hs
      rw [r3 s hs.2, mapGet_mapSet, if_neg hs.1]
    · intro s hs
      by_cases hs2 : s ∈ qs
      · exact r4 s hs2
      · have : s = v.name := by simpa [hs2] using hs
        subst this
        refine ⟨dT, ?_, hpost, hnear⟩
        rw [r3 _ hs2, mapGet_mapSet, if_pos rfl]

end Bbn
