import Verif.Lemmas.NetPolicyDet
import Verif.Props.NetPolicies
import Verif.Props.NetCalls

/-!
# C39: `SolvePolicies` is repeatable
-/

set_option autoImplicit false

namespace Bbn

open Finset

variable {α : Type}

/-- A call that solves something or reads a factor, successful or not. -/
inductive SolveStep [Zero α] [One α] [Add α] [Mul α] [Div α] [NatCast α] [LE α] [DecidableLE α] [LT α]
    [DecidableLT α] [DecidableEq α] : Net α → Net α → Prop
  | read {n m : Net α} (h : ReadStep n m) : SolveStep n m
  | policies (n : Net α) (sch : NSched α) (stepwise : Bool) : SolveStep n (n.solvePolicies sch stepwise).2

section

variable [Zero α] [One α] [Add α] [Mul α] [Div α] [NatCast α] [LE α] [DecidableLE α] [LT α] [DecidableLT α]
  [DecidableEq α]

/-- The networks differ at most in what calls leave behind. -/
def Net.SameModel (n m : Net α) : Prop := ∃ vs names policies, m = { n with vs := vs, names := names, policies := policies }

omit [Zero α] [One α] [Add α] [Mul α] [Div α] [NatCast α] [LE α] [DecidableLE α] [LT α] [DecidableLT α]
  [DecidableEq α] in
theorem Net.SameModel.rfl {n : Net α} : n.SameModel n := ⟨n.vs, n.names, n.policies, by cases n; exact Eq.refl _⟩

omit [Zero α] [One α] [Add α] [Mul α] [Div α] [NatCast α] [LE α] [DecidableLE α] [LT α] [DecidableLT α]
  [DecidableEq α] in
theorem Net.SameModel.trans {n m l : Net α} : n.SameModel m → m.SameModel l → n.SameModel l := by
  rintro ⟨a, b, c, rfl⟩ ⟨d, e, f, rfl⟩
  exact ⟨d, e, f, Eq.refl _⟩

omit [Zero α] [One α] [Add α] [Mul α] [Div α] [NatCast α] [LE α] [DecidableLE α] [LT α] [DecidableLT α]
  [DecidableEq α] in
theorem Net.SameCore.model {n m : Net α} : n.SameCore m → n.SameModel m := by
  rintro ⟨a, b, rfl⟩
  exact ⟨a, b, n.policies, Eq.refl _⟩

theorem policySteps_model (sch : NSched α) (single : Bool) : ∀ (left k : Nat) (n : Net α),
    n.SameModel (Net.policySteps sch single left k n).2 := by
  intro left
  induction left with
  | zero => intro k n; exact .rfl
  | succ left ih =>
    intro k n
    unfold Net.policySteps
    have h1 := enter_core sch k n []
    generalize n.enter sch k [] = r at h1 ⊢
    obtain ⟨r, m⟩ := r
    cases r with
    | error e => exact h1.model
    | ok ve =>
      dsimp only at h1 ⊢
      cases hs : ve.solvePolicies (sch.ve k) single with
      | error e => exact h1.model
      | ok x =>
        obtain ⟨solved, ve2⟩ := x
        cases solved with
        | none => exact h1.model.trans ⟨_, _, _, rfl⟩
        | some solved =>
          dsimp only
          exact h1.model.trans (.trans ⟨_, _, _, rfl⟩ (ih _ _))

theorem solvePolicies_model (sch : NSched α) (n : Net α) (stepwise : Bool) :
    n.SameModel (n.solvePolicies sch stepwise).2 := by
  unfold Net.solvePolicies
  dsimp only
  have h1 := policySteps_model sch stepwise (n.countDecisionSteps stepwise) 0 { n with policies := [] }
  have h0 : n.SameModel { n with policies := [] } := ⟨n.vs, n.names, [], rfl⟩
  generalize Net.policySteps sch stepwise (n.countDecisionSteps stepwise) 0 { n with policies := [] } = r at h1 ⊢
  obtain ⟨r, m⟩ := r
  cases r with
  | error e => exact h0.trans h1
  | ok u => exact (h0.trans h1).trans (withVs_core _ _).model

theorem solveStep_model {n m : Net α} (h : SolveStep n m) : n.SameModel m := by
  cases h with
  | read h => exact (readStep_core h).model
  | policies sch stepwise => exact solvePolicies_model sch n stepwise

end

theorem entry_congr [Zero α] (n : Net α) (f : NFactor α) {w w' : World} (h : ∀ s ∈ f.dims, w s = w' s) :
    n.entry f w = n.entry f w' := by
  unfold Net.entry
  rw [List.map_congr_left (fun s hs => by rw [h s hs])]

/-- Two networks that differ at most in what calls have left behind get the same policies. -/
theorem policies_like [Field α] [LinearOrder α] [IsStrictOrderedRing α] (sch sch' : NSched α) {n n1 m : Net α}
    (hn : n.Valid) (hs : (∃ s, n.isKind .decision s = true) → n.Solvable) (stepwise : Bool)
    {tables : List (String × NFactor α)} (h : n.solvePolicies sch stepwise = (.ok tables, n1)) (hmod : n.SameModel m) :
    ∃ tables' m', m.solvePolicies sch' stepwise = (.ok tables', m') ∧
      (tables'.map Prod.fst).Perm (tables.map Prod.fst) ∧
      ∀ t ∈ tables, ∀ t' ∈ tables', t'.1 = t.1 → t'.2.forVar = t.2.forVar ∧ t'.2.given.Perm t.2.given ∧
        ∀ w : World, (∀ s ∈ t.2.dims, w s < n.count s) → n.entry t'.2 w = n.entry t.2 w := by
  obtain ⟨a, b, Q, rfl⟩ := hmod
  obtain ⟨ts, n2, h1, h2, h3, h4, h5, h6, ⟨_, _, _, h7⟩, h8, ⟨mid, hm1, hm2, _⟩, h9, _⟩ := solvePolicies_net sch hn (fun h => (hs h).toFeasible) stepwise
  rw [h] at h1
  obtain ⟨e1, rfl⟩ := Prod.mk.inj h1
  obtain rfl := Except.ok.inj e1
  obtain ⟨ts', n2', h1', h2', h3', h4', h5', h6', ⟨_, _, _, h7'⟩, h8', ⟨mid', hm1', hm2', _⟩, h9', _⟩ :=
    solvePolicies_net sch' (hn.with a b Q) (fun hd => ((hs hd).with a b Q).toFeasible) stepwise
  have htw : PolTwin n n1.policies n2'.policies := by
    rw [hm2, hm2']
    have hp0 : Net.PoliciesSolved { n with policies := [] } :=
      ⟨⟨List.nodup_nil, by simp, by simp, by simp⟩, by simp⟩
    have hp1 : Net.PoliciesSolved { n with vs := a, names := b, policies := [] } :=
      ⟨⟨List.nodup_nil, by simp, by simp, by simp⟩, by simp⟩
    refine policySteps_twin sch sch' stepwise (n.countDecisionSteps stepwise) 0 { n with policies := [] } a b []
      (hn.with n.vs n.names []) ?_ hp0 hp1 (fun s => ?_) mid mid' hm1 hm1'
    · intro hne
      obtain ⟨v, hv⟩ := List.exists_mem_of_ne_nil _ hne
      simp only [Net.openDecisions, List.mem_filter, decide_eq_true_eq] at hv
      exact (hs ⟨v.name, (isKind_iff hn hv.1 _).2 hv.2.1⟩).with n.vs n.names []
    · exact .none
  refine ⟨ts', n2', h1', ?_, ?_⟩
  · rw [List.perm_ext_iff_of_nodup h2' h2]
    intro s
    rw [h3, h3']
    rfl
  · intro t ht t' ht' he
    obtain ⟨p, hpm, hpe⟩ := List.mem_map.1 (h8.symm.subset (List.mem_map_of_mem ht))
    obtain ⟨p', hpm', hpe'⟩ := List.mem_map.1 (h8'.symm.subset (List.mem_map_of_mem ht'))
    obtain ⟨d1, d2⟩ := h9 t ht p hpm hpe
    obtain ⟨d1', d2'⟩ := h9' t' ht' p' hpm' hpe'
    have hlike : NLike n p.2 p'.2 := by
      have r := htw t.1
      have g1 := (mapGet_mem h6.keys (k := p.1) (x := p.2)).2 hpm
      have g2 := (mapGet_mem h6'.keys (k := p'.1) (x := p'.2)).2 hpm'
      rw [hpe] at g1
      rw [hpe', he] at g2
      rw [g1, g2] at r
      cases r with
      | some r => exact r
    have hpt := h4 t ht
    have hpt' := h4' t' ht'
    have hfor : t'.2.forVar = t.2.forVar := by rw [hpt.forVar, hpt'.forVar, he]
    have hvars : ∀ s, s ∈ t'.2.dims ↔ s ∈ t.2.dims := by
      have hsame : ∀ {f g : Factor α}, scope f = scope g → ∀ s, s ∈ f.vars.map n.nameAt → s ∈ g.vars.map n.nameAt := by
        intro f g e s hs
        obtain ⟨v, hv, rfl⟩ := List.mem_map.1 hs
        obtain ⟨w, hw, hid⟩ := mem_scope.1 (e ▸ mem_scope.2 ⟨v, hv, rfl⟩ : v.id ∈ scope g)
        refine List.mem_map.2 ⟨w, hw, ?_⟩
        unfold Net.nameAt
        rw [hid]
      intro s
      rw [d1, d1']
      exact ⟨hsame hlike.1.symm s, hsame hlike.1 s⟩
    have hdp : t'.2.dims.Perm t.2.dims := (List.perm_ext_iff_of_nodup hpt'.dims hpt.dims).2 hvars
    refine ⟨hfor, ?_, ?_⟩
    · unfold NFactor.dims at hdp
      rw [hfor] at hdp
      exact (List.perm_append_right_iff _).1 hdp
    · intro w hw
      -- a world that is in range everywhere
      set w' : World := fun s => if s ∈ t.2.dims then w s else 0 with hw'
      have hag : ∀ s ∈ t.2.dims, w s = w' s := fun s hs => by simp [hw', hs]
      have hr : n.InRange (n.ids w') := by
        intro i v hi _
        have hid : n.ids w' i = w' v.name := by simp [Net.ids, hi]
        rw [hid, hw']
        dsimp only
        have hv := List.mem_of_getElem? hi
        split_ifs with hd
        · have := hw v.name hd
          rwa [count_eq hn hv] at this
        · exact List.length_pos_iff.2 (fun e => by
            have := (hn.outcomes v hv).1
            rw [e] at this
            simp at this)
      have hw1 : ∀ s ∈ t.2.dims, w' s < n.count s := fun s hs => by rw [← hag s hs]; exact hw s hs
      rw [entry_congr n t.2 hag, entry_congr n t'.2 (fun s hs => hag s ((hvars s).1 hs)), ← d2 w' hw1]
      exact (d2' w' (fun s hs => hw1 s ((hvars s).1 hs))).symm.trans (hlike.2 _ hr).symm

/-- **C39.** A later call of `SolvePolicies` on the same network returns the same policies as the first one: a table for
the same decisions, over the same variables, with the same entry for every combination of outcomes. In between there may
be any calls, also failing ones, and the iteration order of maps can be different. (The order of the parents in a
returned table can differ, because it depends on the iteration order.) -/
theorem C39_policies_repeat [Field α] [LinearOrder α] [IsStrictOrderedRing α] (sch sch' : NSched α) {n n1 m : Net α}
    (hn : n.Valid) (hs : (∃ s, n.isKind .decision s = true) → n.Solvable) (stepwise : Bool)
    {tables : List (String × NFactor α)} (h : n.solvePolicies sch stepwise = (.ok tables, n1))
    (hb : Relation.ReflTransGen SolveStep n1 m) :
    ∃ tables' m', m.solvePolicies sch' stepwise = (.ok tables', m') ∧
      (tables'.map Prod.fst).Perm (tables.map Prod.fst) ∧
      ∀ t ∈ tables, ∀ t' ∈ tables', t'.1 = t.1 → t'.2.forVar = t.2.forVar ∧ t'.2.given.Perm t.2.given ∧
        ∀ w : World, (∀ s ∈ t.2.dims, w s < n.count s) → n.entry t'.2 w = n.entry t.2 w := by
  have hmod : n.SameModel m := by
    have h1 : n.SameModel n1 := by
      have := solvePolicies_model sch n stepwise
      rw [h] at this
      exact this
    refine h1.trans ?_
    clear h h1
    induction hb with
    | refl => exact .rfl
    | tail _ h ih => exact ih.trans (solveStep_model h)
  exact policies_like sch sch' hn hs stepwise h hmod

/-- A case: the umbrella network is solved, queried, solved stepwise, and solved again. -/
example (sch sch' : NSched ℚ) (q : List String) : ∃ ts n1 ts' m', Ex.umb.solvePolicies sch false = (.ok ts, n1) ∧
    ((n1.solveQuery sch [("Weather", "Rainy")] q false).2.solvePolicies sch true).2.solvePolicies sch' false =
      (.ok ts', m') ∧ ts.map Prod.fst = ["Umbrella"] ∧ ts'.map Prod.fst = ["Umbrella"] ∧
    ∀ t ∈ ts, ∀ t' ∈ ts', ∀ w : World, (∀ s, w s < Ex.umb.count s) → Ex.umb.entry t'.2 w = Ex.umb.entry t.2 w := by
  obtain ⟨ts, n1, h1, h2, h3, h4, _⟩ := C46_policy_tables sch Ex.umb_valid (fun _ => Ex.umb_solvable.toFeasible) false
  obtain ⟨ts', m', k1, k2, k3⟩ := C39_policies_repeat sch sch' Ex.umb_valid (fun _ => Ex.umb_solvable) false h1
    (.tail (.single (.read (.query n1 sch [("Weather", "Rainy")] q false))) (.policies _ sch true))
  have hmem : ∀ s, s ∈ ts.map Prod.fst ↔ s ∈ ["Umbrella"] := by
    intro s
    rw [h3, List.mem_singleton]
    constructor
    · intro h
      obtain ⟨v, hv, e1, e2⟩ := isKind_mem.1 h
      have : ∀ v ∈ Ex.umb.variables, v.nodeType = .decision → v.name = "Umbrella" := by decide
      rw [← e1]; exact this v hv e2
    · rintro rfl; decide
  have hts : ts.map Prod.fst = ["Umbrella"] :=
    List.perm_singleton.1 ((List.perm_ext_iff_of_nodup h2 (by simp)).2 hmem)
  have hts' : ts'.map Prod.fst = ["Umbrella"] := List.perm_singleton.1 (hts ▸ k2)
  refine ⟨ts, n1, ts', m', h1, k1, hts, hts', ?_⟩
  intro t ht t' ht' w hw
  have e1 : t.1 = "Umbrella" := by
    have := List.mem_map_of_mem (f := Prod.fst) ht
    rw [hts] at this; simpa using this
  have e2 : t'.1 = "Umbrella" := by
    have := List.mem_map_of_mem (f := Prod.fst) ht'
    rw [hts'] at this; simpa using this
  exact (k3 t ht t' ht' (e2.trans e1.symm)).2.2 w (fun s _ => hw s)

end Bbn
