import Verif.Lemmas.NetPolicies
import Verif.Lemmas.Training

/-!
# Decisions that nothing depends on: what the solver can do with them
-/

set_option autoImplicit false

namespace Bbn

variable {α : Type}

/-- The factor does not have the variable with ID `d`. -/
def Factor.Free (d : Nat) (f : Factor α) : Prop := ∀ w ∈ f.vars, w.id ≠ d

theorem createFactor_inv [Zero α] {s s' : Vs} {vars : List Var} {data : Option (List α)} {f : Factor α}
    (h : s.createFactor vars data = .ok (f, s')) : f.vars = vars ∧ s'.variables = s.variables := by
  unfold Vs.createFactor at h
  dsimp only at h
  cases data with
  | none => cases h; exact ⟨rfl, rfl⟩
  | some d =>
    dsimp only at h
    split_ifs at h
    cases h
    exact ⟨rfl, rfl⟩

theorem mergeAll_free {d : Nat} {fs : List (Factor α)} (hfs : ∀ g ∈ fs, g.Free d) :
    ∀ w ∈ (mergeAll [] (fs.map Factor.vars)).1, w.id ≠ d := by
  intro w hw
  rcases ((mergeAll_spec [] (fs.map Factor.vars)).2.2.1 w).1 hw with h | ⟨l, hl, hw⟩
  · cases h
  · obtain ⟨g, hg, rfl⟩ := List.mem_map.1 hl
    exact hfs g hg w hw

theorem product_free [Zero α] [One α] [Mul α] {d : Nat} {s s' : Vs} {fs : List (Factor α)} {f : Factor α}
    (h : s.product fs = .ok (f, s')) (hfs : ∀ g ∈ fs, g.Free d) : f.Free d ∧ s'.variables = s.variables := by
  unfold Vs.product at h
  split at h
  · rename_i g
    obtain ⟨h1, h2⟩ := createFactor_inv h
    exact ⟨by rw [Factor.Free, h1]; exact hfs g (by simp), h2⟩
  · dsimp only at h
    obtain ⟨⟨g, s1⟩, h1, h⟩ := bind_inv h
    obtain ⟨x, _, h⟩ := bind_inv h
    cases h
    obtain ⟨h1, h2⟩ := createFactor_inv h1
    exact ⟨by rw [Factor.Free]; dsimp only; rw [h1]; exact mergeAll_free hfs, h2⟩

theorem sum_free [Zero α] [Add α] {d : Nat} {s s' : Vs} {fs : List (Factor α)} {f : Factor α}
    (h : s.sum fs = .ok (f, s')) (hfs : ∀ g ∈ fs, g.Free d) : f.Free d ∧ s'.variables = s.variables := by
  unfold Vs.sum at h
  split at h
  · rename_i g
    obtain ⟨h1, h2⟩ := createFactor_inv h
    exact ⟨by rw [Factor.Free, h1]; exact hfs g (by simp), h2⟩
  · dsimp only at h
    obtain ⟨⟨g, s1⟩, h1, h⟩ := bind_inv h
    obtain ⟨x, _, h⟩ := bind_inv h
    cases h
    obtain ⟨h1, h2⟩ := createFactor_inv h1
    exact ⟨by rw [Factor.Free]; dsimp only; rw [h1]; exact mergeAll_free hfs, h2⟩

theorem sumOut_free [Zero α] [Add α] {d : Nat} {s s' : Vs} {f g : Factor α} {v : Var}
    (h : s.sumOut f v = .ok (g, s')) (hf : f.Free d) : g.Free d ∧ s'.variables = s.variables := by
  unfold Vs.sumOut at h
  split at h
  · cases h
  · dsimp only at h
    obtain ⟨⟨g, s1⟩, h1, h⟩ := bind_inv h
    obtain ⟨x, _, h⟩ := bind_inv h
    cases h
    obtain ⟨h1, h2⟩ := createFactor_inv h1
    refine ⟨?_, h2⟩
    intro w hw
    dsimp only at hw
    rw [h1] at hw
    exact hf w (List.mem_filter.1 hw).1

/-- No factor of the solver has the variable. -/
def VE.Free (d : Nat) (st : VE α) : Prop := ∀ f ∈ st.factors, f.Free d

theorem VE.Free.iter {d : Nat} {st : VE α} (h : st.Free d) (sch : Sched α) : ∀ f ∈ st.iter sch, f.Free d :=
  fun f hf => h f ((sch.fac_perm _ _).subset hf)

theorem free_insert {d : Nat} {fs : List (Factor α)} {f : Factor α} (h : ∀ g ∈ fs, g.Free d) (hf : f.Free d) :
    ∀ g ∈ insertFactor fs f, g.Free d := by
  intro g hg
  unfold insertFactor at hg
  rcases List.mem_append.1 hg with hg | hg
  · exact h g (List.mem_filter.1 hg).1
  · rw [List.mem_singleton.1 hg]; exact hf

theorem free_delete {d : Nat} {fs : List (Factor α)} (ids : List Nat) (h : ∀ g ∈ fs, g.Free d) :
    ∀ g ∈ deleteAll fs ids, g.Free d := by
  intro g hg
  rw [deleteAll_eq] at hg
  exact h g (List.mem_filter.1 hg).1

section

variable [Zero α] [One α] [Add α] [Mul α]

theorem removeHidden_free {d : Nat} {sch : Sched α} {st st' : VE α} {v : Var} (h : st.removeHidden sch v = .ok st')
    (hf : st.Free d) : st'.Free d := by
  unfold VE.removeHidden at h
  dsimp only at h
  obtain ⟨⟨f, s1⟩, h1, h⟩ := bind_inv h
  obtain ⟨⟨g, s2⟩, h2, h⟩ := bind_inv h
  obtain ⟨e, _, h⟩ := bind_inv h
  cases h
  exact free_insert (free_delete _ hf)
    (sumOut_free h2 (product_free h1 (fun g hg => hf.iter sch g (List.mem_filter.1 hg).1)).1).1

theorem removeHidden_fold {d : Nat} {sch : Sched α} : ∀ (l : List (Var × Nat)) (st st' : VE α),
    l.foldlM (fun st p => st.removeHidden sch p.1) st = .ok st' → st.Free d → st'.Free d := by
  intro l
  induction l with
  | nil => intro st st' h hf; cases h; exact hf
  | cons p l ih =>
    intro st st' h hf
    rw [List.foldlM_cons] at h
    obtain ⟨st1, h1, h⟩ := bind_inv h
    exact ih st1 st' h (removeHidden_free h1 hf)

theorem eliminateHidden_free {d : Nat} {sch : Sched α} {st st' : VE α} {evidence : List Evid} {query : List Var}
    {single : Bool} (h : st.eliminateHidden sch evidence query single = .ok st') (hf : st.Free d) : st'.Free d := by
  unfold VE.eliminateHidden at h
  obtain ⟨⟨par, tick⟩, _, h⟩ := bind_inv h
  dsimp only at h
  obtain ⟨hid, _, h⟩ := bind_inv h
  exact removeHidden_fold _ _ _ h hf

omit [Add α] in
theorem collectUtils_free {d : Nat} {utils : List Var} {weights : Option (List α)} : ∀ (l : List (Factor α)) (vs vs' : Vs)
    (ids : List Nat) (fs : List (Factor α)), collectUtils utils weights l vs = .ok (ids, fs, vs') →
    (∀ f ∈ l, f.Free d) → ∀ f ∈ fs, f.Free d := by
  intro l
  induction l with
  | nil => intro vs vs' ids fs h _; cases h; intro f hf; cases hf
  | cons g l ih =>
    intro vs vs' ids fs h hl
    rw [collectUtils] at h
    split at h
    · exact ih _ _ _ _ h (fun f hf => hl f (by simp [hf]))
    · obtain ⟨⟨sc, s1⟩, h1, h⟩ := bind_inv h
      obtain ⟨⟨i2, f2, s2⟩, h2, h⟩ := bind_inv h
      cases h
      intro f hf
      rcases List.mem_cons.1 hf with rfl | hf
      · unfold scaleUtil at h1
        split at h1
        · cases h1; exact hl _ (by simp)
        · obtain ⟨w, _, h1⟩ := bind_inv h1
          refine (product_free h1 ?_).1
          intro x hx
          rcases List.mem_cons.1 hx with rfl | hx
          · exact hl _ (by simp)
          · rw [List.mem_singleton.1 hx]; intro w hw; cases hw
      · exact ih _ _ _ _ h2 (fun f hf => hl f (by simp [hf])) f hf

omit [One α] [Mul α] in
theorem sumOutUtils_free {d : Nat} : ∀ (us : List Var) (f f' : Factor α) (vs vs' : Vs) (el el' : List Bool),
    sumOutUtils us f vs el = .ok (f', vs', el') → f.Free d → f'.Free d := by
  intro us
  induction us with
  | nil => intro f f' vs vs' el el' h hf; cases h; exact hf
  | cons u us ih =>
    intro f f' vs vs' el el' h hf
    rw [sumOutUtils] at h
    obtain ⟨⟨g, s1⟩, h1, h⟩ := bind_inv h
    obtain ⟨e, _, h⟩ := bind_inv h
    exact ih _ _ _ _ _ _ h (sumOut_free h1 hf).1

theorem sumUtilities_free {d : Nat} {sch : Sched α} {st st' : VE α} (h : st.sumUtilities sch = .ok st') (hf : st.Free d) :
    st'.Free d := by
  unfold VE.sumUtilities at h
  dsimp only at h
  split_ifs at h
  · cases h; exact hf
  · obtain ⟨⟨ids, fs, s1⟩, h1, h⟩ := bind_inv h
    obtain ⟨⟨f, s2⟩, h2, h⟩ := bind_inv h
    obtain ⟨⟨g, s3, e⟩, h3, h⟩ := bind_inv h
    cases h
    exact free_insert (free_delete _ hf) (sumOutUtils_free _ _ _ _ _ _ _ h3
      (sum_free h2 (collectUtils_free _ _ _ _ _ h1 (hf.iter sch))).1)

variable [Div α] [NatCast α] [LE α] [DecidableLE α] [LT α] [DecidableLT α] [DecidableEq α]

omit [Add α] [Mul α] in
theorem policy_free {d : Nat} {s s' : Vs} {f g : Factor α} {v : Var} (h : s.policy f v = .ok (g, s')) (hf : f.Free d) :
    g.Free d := by
  unfold Vs.policy at h
  split at h
  · cases h
  · obtain ⟨w, hw, h⟩ := bind_inv h
    obtain ⟨⟨g, s1⟩, h1, h⟩ := bind_inv h
    dsimp only at h
    split_ifs at h
    obtain ⟨x, _, h⟩ := bind_inv h
    cases h
    obtain ⟨h1, _⟩ := createFactor_inv h1
    intro x hx
    dsimp only at hx
    rw [h1] at hx
    rcases List.mem_append.1 hx with hx | hx
    · exact hf x (List.mem_filter.1 hx).1
    · rw [List.mem_singleton.1 hx]
      rw [goGet_eq] at hw
      exact hf w (List.mem_of_getElem? hw)

/-- The solver finds no policy for a variable that no factor has, and the policies of others do not have it. -/
theorem solvePolicy_free {d : Nat} {sch : Sched α} {st st' : VE α} {single : Bool} {dec : Var} {p : Var × Factor α × Factor α}
    (h : st.solvePolicy sch single dec = .ok (p, st')) (hf : st.Free d) :
    dec.id ≠ d ∧ p.1 = dec ∧ p.2.2.Free d ∧ st'.Free d := by
  unfold VE.solvePolicy at h
  obtain ⟨⟨fac, s1⟩, h1, h⟩ := bind_inv h
  obtain ⟨⟨pol, s2⟩, h2, h⟩ := bind_inv h
  obtain ⟨vars, _, h⟩ := bind_inv h
  obtain ⟨st1, h4, h⟩ := bind_inv h
  cases h
  have hsub : ∀ f ∈ st.findDecisionFactors sch dec, f.Free d ∧ dec ∈ f.vars := by
    intro f hfm
    unfold VE.findDecisionFactors at hfm
    dsimp only at hfm
    split_ifs at hfm
    · obtain ⟨a, b⟩ := List.mem_filter.1 hfm
      simp only [decide_eq_true_eq] at b
      exact ⟨hf f ((sch.fac_perm _ _).subset a), b.1⟩
    · obtain ⟨a, b⟩ := List.mem_filter.1 hfm
      exact ⟨hf.iter sch f a, by simpa using b⟩
  have hne : st.findDecisionFactors sch dec ≠ [] := by
    intro e
    rw [e] at h1
    cases h1
  obtain ⟨f, hfm⟩ := List.exists_mem_of_ne_nil _ hne
  have hfac : fac.Free d := by
    unfold decisionProduct at h1
    split at h1
    · cases h1
    · rename_i g heq
      cases h1
      exact (hsub _ (by rw [heq]; simp)).1
    · exact (product_free h1 (fun g hg => (hsub g hg).1)).1
  have hpol := policy_free h2 hfac
  exact ⟨(hsub f hfm).1 dec (hsub f hfm).2, rfl, hpol, eliminateHidden_free h4 (free_insert hf hpol)⟩

theorem solvePolicyList_free {d : Nat} {sch : Sched α} {single : Bool} : ∀ (decs : List Var) (st st' : VE α)
    (ps : List (Var × Factor α × Factor α)), VE.solvePolicyList sch single decs st = .ok (ps, st') → st.Free d →
    ps.map Prod.fst = (if single then decs.take 1 else decs) ∧ ∀ p ∈ ps, p.1.id ≠ d ∧ p.2.2.Free d := by
  intro decs
  induction decs with
  | nil =>
    intro st st' ps h _
    cases h
    exact ⟨by split_ifs <;> rfl, fun p hp => by cases hp⟩
  | cons dec decs ih =>
    intro st st' ps h hf
    rw [VE.solvePolicyList] at h
    obtain ⟨⟨p, st1⟩, h1, h⟩ := bind_inv h
    obtain ⟨a1, a2, a3, a4⟩ := solvePolicy_free h1 hf
    dsimp only at h a2 a3
    cases single with
    | true =>
      cases h
      refine ⟨by simp [a2], fun q hq => ?_⟩
      rw [List.mem_singleton.1 hq]
      exact ⟨by rw [a2]; exact a1, a3⟩
    | false =>
      simp only [Bool.false_eq_true, if_false] at h
      obtain ⟨⟨qs, st2⟩, h2, h⟩ := bind_inv h
      cases h
      obtain ⟨b1, b2⟩ := ih _ _ _ h2 a4
      simp only [Bool.false_eq_true, if_false] at b1 ⊢
      refine ⟨by rw [List.map_cons, a2, b1], fun q hq => ?_⟩
      rcases List.mem_cons.1 hq with rfl | hq
      · exact ⟨by rw [a2]; exact a1, a3⟩
      · exact b2 q hq

end

/-! ## The network -/

section

variable [Field α] [LinearOrder α] [IsStrictOrderedRing α]

omit [Field α] [LinearOrder α] [IsStrictOrderedRing α] in
theorem policyVar_id {n : Net α} {varIDs : List (NVar × Var)} {v w : Var} (h : n.policyVar varIDs v = .ok w) : w.id = v.id := by
  unfold Net.policyVar at h
  split_ifs at h
  · obtain ⟨e, _, h⟩ := bind_inv h
    split_ifs at h <;> · cases h; rfl
  · cases h; rfl

theorem mapM_ids {n : Net α} {varIDs : List (NVar × Var)} {d : Nat} : ∀ (l l' : List Var), l.mapM (n.policyVar varIDs) = .ok l' →
    (∀ w ∈ l, w.id ≠ d) → ∀ w ∈ l', w.id ≠ d := by
  intro l
  induction l with
  | nil => intro l' h _; cases h; intro w hw; cases hw
  | cons v l ih =>
    intro l' h hl
    rw [List.mapM_cons] at h
    obtain ⟨x, h1, h⟩ := bind_inv h
    obtain ⟨xs, h2, h⟩ := bind_inv h
    cases h
    intro w hw
    rcases List.mem_cons.1 hw with rfl | hw
    · rw [policyVar_id h1]; exact hl v (by simp)
    · exact ih xs h2 (fun w hw => hl w (by simp [hw])) w hw

theorem policyFactors_free {n : Net α} {varIDs : List (NVar × Var)} {evidence : List (String × String)} {d : Nat} :
    ∀ (ps : List (String × Factor α)) (vs vs' : Vs) (fs : List (Factor α)),
    n.policyFactors varIDs evidence ps vs = .ok (fs, vs') → (∀ p ∈ ps, p.2.Free d) →
    (∀ f ∈ fs, f.Free d) ∧ vs'.variables = vs.variables := by
  intro ps
  induction ps with
  | nil =>
    intro vs vs' fs h _
    cases h
    exact ⟨fun f hf => (by cases hf), rfl⟩
  | cons p ps ih =>
    intro vs vs' fs h hp
    rw [Net.policyFactors] at h
    split_ifs at h
    · exact ih _ _ _ h (fun q hq => hp q (by simp [hq]))
    · obtain ⟨l, h1, h⟩ := bind_inv h
      obtain ⟨⟨f, s1⟩, h2, h⟩ := bind_inv h
      obtain ⟨⟨gs, s2⟩, h3, h⟩ := bind_inv h
      cases h
      obtain ⟨c1, c2⟩ := createFactor_inv h2
      obtain ⟨i1, i2⟩ := ih _ _ _ h3 (fun q hq => hp q (by simp [hq]))
      refine ⟨fun g hg => ?_, i2.trans c2⟩
      rcases List.mem_cons.1 hg with rfl | hg
      · rw [Factor.Free, c1]; exact mapM_ids _ _ h1 (hp p (by simp))
      · exact i1 g hg

omit [Field α] [LinearOrder α] [IsStrictOrderedRing α] in
theorem new_free {vs : Vs} {fs : List (Factor α)} {deps : List (Var × List Var)} {weights : Option (List α)} {d : Nat}
    (h : ∀ f ∈ fs, f.Free d) : (VE.new vs fs deps weights).Free d := by
  have key : ∀ (l acc : List (Factor α)), (∀ f ∈ l, f.Free d) → (∀ f ∈ acc, f.Free d) →
      ∀ f ∈ l.foldl insertFactor acc, f.Free d := by
    intro l
    induction l with
    | nil => intro acc _ h; exact h
    | cons f l ih =>
      intro acc h1 h2
      exact ih _ (fun g hg => h1 g (by simp [hg])) (free_insert h2 (h1 f (by simp)))
  exact key fs [] h (fun f hf => by cases hf)

/-- No table of a chance or utility variable has the variable `s` as a parent. -/
def Net.Unused (n : Net α) (s : String) : Prop :=
  ∀ f ∈ n.factors, f.forVar ≠ n.totalName → n.isKind .decision f.forVar = false → s ∉ f.given

omit [Field α] [LinearOrder α] [IsStrictOrderedRing α] in
/-- Storing one policy. -/
theorem store_one {dec : Var} (hd : dec.nodeType = .decision) (fac pol : Factor α) :
    ∀ (l : List (String × NVar × Var)) (ps : List (String × Factor α)),
    (∀ p ∈ l.foldl (storePolicy [(dec, fac, pol)]) ps, p ∈ ps ∨ p.2 = pol) ∧
    ∀ s, (mapGet (l.foldl (storePolicy [(dec, fac, pol)]) ps) s).isSome = true ↔
      (mapGet ps s).isSome = true ∨ ∃ e ∈ l, e.1 = s ∧ e.2.2 = dec := by
  intro l
  induction l with
  | nil => intro ps; exact ⟨fun p h => .inl h, fun s => by simp⟩
  | cons e l ih =>
    intro ps
    rw [List.foldl_cons]
    obtain ⟨i1, i2⟩ := ih (storePolicy [(dec, fac, pol)] ps e)
    by_cases he : e.2.2 = dec
    · have hs : storePolicy [(dec, fac, pol)] ps e = mapSet ps e.1 pol := by
        unfold storePolicy
        rw [if_neg (by rw [he]; simp [hd]), he]
        simp [mapGet]
      rw [hs] at i1 i2 ⊢
      refine ⟨fun p hp => ?_, fun s => ?_⟩
      · rcases i1 p hp with h | h
        · unfold mapSet at h
          rcases List.mem_append.1 h with h | h
          · exact .inl (List.mem_filter.1 h).1
          · rw [List.mem_singleton.1 h]; exact .inr rfl
        · exact .inr h
      · rw [i2 s, mapGet_mapSet]
        by_cases hs : s = e.1
        · rw [if_pos hs]
          exact ⟨fun _ => .inr ⟨e, by simp, hs.symm, he⟩, fun _ => .inl rfl⟩
        · rw [if_neg hs]
          constructor
          · rintro (h | ⟨x, hx, h⟩)
            · exact .inl h
            · exact .inr ⟨x, by simp [hx], h⟩
          · rintro (h | ⟨x, hx, h1, h2⟩)
            · exact .inl h
            · rcases List.mem_cons.1 hx with rfl | hx
              · exact absurd h1.symm hs
              · exact .inr ⟨x, hx, h1, h2⟩
    · have hs : storePolicy [(dec, fac, pol)] ps e = ps := by
        unfold storePolicy
        split_ifs
        · rfl
        · have : mapGet [(dec, fac, pol)] e.2.2 = none := by
            unfold mapGet
            simp [Ne.symm he]
          rw [this]
      rw [hs] at i1 i2 ⊢
      refine ⟨i1, fun s => ?_⟩
      rw [i2 s]
      constructor
      · rintro (h | ⟨x, hx, h⟩)
        · exact .inl h
        · exact .inr ⟨x, by simp [hx], h⟩
      · rintro (h | ⟨x, hx, h1, h2⟩)
        · exact .inl h
        · rcases List.mem_cons.1 hx with rfl | hx
          · exact absurd h2 he
          · exact .inr ⟨x, hx, h1, h2⟩

end

end Bbn
