import Verif.Props.NetSameWorth
import Verif.Props.NetUtility
import Verif.Props.TrainDecide

/-!
# The expected utility of networks with the same decisions (C161, C164)
-/

set_option autoImplicit false

namespace Bbn

open Finset

variable {α : Type} [Field α] [LinearOrder α] [IsStrictOrderedRing α]

/-- The general form: with a constant as well. -/
theorem solved_value (sch sch' sch₁ sch₁' : NSched α) {n n' : Net α} (hn : n.Valid) (hn' : n'.Valid) (hs : n.Solvable)
    (hs' : n'.Solvable) (hv : n.SameVars n') (hi : n.SameInfo n') (ho : n.Ordered n.decisions)
    (hm : ∀ d ∈ n.decisions, n.Matters [d] d ∧ n'.Matters [d] d)
    (hnn : ∀ f ∈ n.chanceTables, ∀ x ∈ f.tab, 0 ≤ x) (hnn' : ∀ f ∈ n'.chanceTables, ∀ x ∈ f.tab, 0 ≤ x)
    {a b c : α} (ha : 0 < a) (hc : 0 < c) (hb : b = 0 ∨ n.Regular ∧ ∃ rank, n.Timed n.decisions rank)
    (hj : ∀ w, n.Allowed w → (n'.chanceTables.map (fun f => n'.prob f w)).prod =
      c * (n.chanceTables.map (fun f => n.prob f w)).prod)
    (hu : ∀ w, n.Allowed w → n'.totalIn w = a * n.totalIn w + b) (ign ign' : Bool) :
    ∃ tables m g m₁ x tables' m' g' m₁', n.solvePolicies sch true = (.ok tables, m) ∧
      m.solveUtility sch₁ [] [] "" ign = (.ok g, m₁) ∧ g.data = [x] ∧
      n'.solvePolicies sch' true = (.ok tables', m') ∧
      m'.solveUtility sch₁' [] [] "" ign' = (.ok g', m₁') ∧ g'.data = [c * (a * x + b)] := by
  obtain ⟨tables, m, tables', m', r1, r2, hsame⟩ := same_worth sch sch' hn hn' hs hs' hv hi ho hm hnn hnn' ha hc hb hj hu
  obtain ⟨_, _, g, m₁, q1, q2, q3⟩ := C84_utility_after_policies sch sch₁ hn hs true ign
  obtain ⟨_, _, g', m₁', p1, p2, p3⟩ := C84_utility_after_policies sch' sch₁' hn' hs' true ign'
  rw [r1] at q1
  cases q1
  rw [r2] at p1
  cases p1
  refine ⟨tables, m, g, m₁, _, tables', m', g', m₁', r1, q2, q3, r2, p2, ?_⟩
  rw [p3]
  congr 1
  have hone : b = b * sumWorlds n.stateVars (fun w => (n.chanceTables.map (fun f => n.prob f w)).prod *
      (n.decisions.map (fun d => n.byTables tables d w)).prod) (fun _ => 0) := by
    rcases hb with rfl | ⟨hr, rank, ht⟩
    · rw [zero_mul]
    · obtain ⟨_, _, order, e1, _, _, e2, e3, _⟩ := C83_listed sch hn (fun _ => hs)
      rw [r1] at e1
      obtain ⟨e1, -⟩ := Prod.mk.inj e1
      obtain rfl := Except.ok.inj e1
      obtain rfl := e2 ho
      rw [strategies_one hn hr ht (List.Perm.refl _) (fun A d B e => (e3 A d B e).1), mul_one]
  conv_rhs => rw [hone]
  unfold Net.expectedTotal
  rw [← sumWorlds_bare _ n'.stateVars, SameVars.bare hv, sumWorlds_bare, SameVars.decisions hv, ← sumWorlds_mul, ← sumWorlds_mul,
    ← sumWorlds_add, ← sumWorlds_mul]
  refine sumWorlds_congr _ _ (stateVars_names hn) (fun w hw h0 => ?_)
  have hall : ∀ v ∈ n.variables, w v.name < v.outcomes.length := by
    intro v hvm
    by_cases hk : v.nodeType = .utility
    · rw [h0 v.name]
      · exact (hn.outcomes v hvm).1
      · intro hx
        obtain ⟨u, hu1, hu2⟩ := List.mem_map.1 hx
        have := List.inj_on_of_nodup_map hn.names (mem_stateVars.1 hu1).1 hvm hu2
        subst this
        exact (mem_stateVars.1 hu1).2 hk
    · exact hw v (mem_stateVars.2 ⟨hvm, hk⟩)
  rw [hj w hw, hu w hw]
  by_cases hz : (n.chanceTables.map (fun f => n.prob f w)).prod = 0
  · rw [hz]; ring
  · have all : ∀ B A, n.decisions = A ++ B →
        (B.map (fun e => n'.byTables tables' e w)).prod = (B.map (fun e => n.byTables tables e w)).prod := by
      intro B
      induction B with
      | nil => intro A _; rfl
      | cons d B ih =>
        intro A e
        have ih' := ih (A ++ [d]) (by rw [e]; simp)
        rw [List.map_cons, List.map_cons, List.prod_cons, List.prod_cons, ih']
        by_cases hz' : (B.map (fun e => n.byTables tables e w)).prod = 0
        · rw [hz', mul_zero, mul_zero]
        · obtain ⟨v, hvm, hv1, _⟩ := isKind_mem.1 (mem_decisions.1 (show d ∈ n.decisions by rw [e]; simp))
          have := hsame A d B e w hall hz hz' (w d) (by rw [← hv1, count_eq hn hvm]; exact hall v hvm)
          rw [World.set_self] at this
          rw [this]
    rw [all n.decisions [] rfl]
    ring

/-- **C161, the value.** Under the hypotheses of `C161_same_worth`, the expected utility that `SolveUtility` reports without
evidence after solving is the same in the two networks, up to the two factors. -/
theorem C161_value (sch sch' sch₁ sch₁' : NSched α) {n n' : Net α} (hn : n.Valid) (hn' : n'.Valid) (hs : n.Solvable)
    (hs' : n'.Solvable) (hv : n.SameVars n') (hi : n.SameInfo n') (ho : n.Ordered n.decisions)
    (hm : ∀ d ∈ n.decisions, n.Matters [d] d ∧ n'.Matters [d] d)
    (hnn : ∀ f ∈ n.chanceTables, ∀ x ∈ f.tab, 0 ≤ x) (hnn' : ∀ f ∈ n'.chanceTables, ∀ x ∈ f.tab, 0 ≤ x)
    {a c : α} (ha : 0 < a) (hc : 0 < c)
    (hj : ∀ w, n.Allowed w → (n'.chanceTables.map (fun f => n'.prob f w)).prod =
      c * (n.chanceTables.map (fun f => n.prob f w)).prod)
    (hu : ∀ w, n.Allowed w → n'.totalIn w = a * n.totalIn w) (ign ign' : Bool) :
    ∃ tables m g m₁ x tables' m' g' m₁', n.solvePolicies sch true = (.ok tables, m) ∧
      m.solveUtility sch₁ [] [] "" ign = (.ok g, m₁) ∧ g.data = [x] ∧
      n'.solvePolicies sch' true = (.ok tables', m') ∧
      m'.solveUtility sch₁' [] [] "" ign' = (.ok g', m₁') ∧ g'.data = [a * c * x] := by
  obtain ⟨tables, m, g, m₁, x, tables', m', g', m₁', h1, h2, h3, h4, h5, h6⟩ := solved_value sch sch' sch₁ sch₁' hn hn' hs hs' hv
    hi ho hm hnn hnn' ha hc (.inl rfl) hj (fun w hw => by rw [hu w hw, add_zero]) ign ign'
  exact ⟨tables, m, g, m₁, x, tables', m', g', m₁', h1, h2, h3, h4, h5, by rw [h6]; congr 1; ring⟩

/-- **C161, the value with another zero.** Under the hypotheses of `C161_affine`, the reported expected utilities differ by the
same factor and constant as the total utilities, times the factor of the probabilities. -/
theorem C161_affine_value (sch sch' sch₁ sch₁' : NSched α) {n n' : Net α} (hn : n.Valid) (hn' : n'.Valid) (hs : n.Solvable)
    (hs' : n'.Solvable) (hv : n.SameVars n') (hi : n.SameInfo n')
    (hm : ∀ d ∈ n.decisions, n.Matters [d] d ∧ n'.Matters [d] d)
    (hnn : ∀ f ∈ n.chanceTables, ∀ x ∈ f.tab, 0 ≤ x) (hnn' : ∀ f ∈ n'.chanceTables, ∀ x ∈ f.tab, 0 ≤ x)
    {a b c : α} (ha : 0 < a) (hc : 0 < c) (hr : n.Regular)
    {rank : String → Nat} (ht : n.Timed n.decisions rank)
    (hj : ∀ w, n.Allowed w → (n'.chanceTables.map (fun f => n'.prob f w)).prod =
      c * (n.chanceTables.map (fun f => n.prob f w)).prod)
    (hu : ∀ w, n.Allowed w → n'.totalIn w = a * n.totalIn w + b) (ign ign' : Bool) :
    ∃ tables m g m₁ x tables' m' g' m₁', n.solvePolicies sch true = (.ok tables, m) ∧
      m.solveUtility sch₁ [] [] "" ign = (.ok g, m₁) ∧ g.data = [x] ∧
      n'.solvePolicies sch' true = (.ok tables', m') ∧
      m'.solveUtility sch₁' [] [] "" ign' = (.ok g', m₁') ∧ g'.data = [c * (a * x + b)] :=
  solved_value sch sch' sch₁ sch₁' hn hn' hs hs' hv hi (listed_ordered ht.decision ht.order) hm hnn hnn' ha hc
    (.inr ⟨hr, rank, ht⟩) hj hu ign ign'

theorem half_value (sch sch' sch₁ sch₁' : NSched α) {m n' : Net α} (hmn : SameNetwork m n') (hv : m.Valid) (hsv : m.Solvable)
    (ho : m.Ordered m.decisions) (hmat : ∀ d ∈ m.decisions, m.Matters [d] d)
    (hnn : ∀ f ∈ m.chanceTables, ∀ x ∈ f.tab, 0 ≤ x) (hnn' : ∀ f ∈ n'.chanceTables, ∀ x ∈ f.tab, 0 ≤ x)
    (hch : m.SameChances n' []) (hu : ∀ w, m.Allowed w → n'.totalIn w = 1 / 2 * m.totalIn w) (ign ign' : Bool) :
    ∃ tables k g k₁ x tables' k' g' k₁', m.solvePolicies sch true = (.ok tables, k) ∧
      k.solveUtility sch₁ [] [] "" ign = (.ok g, k₁) ∧ g.data = [x] ∧
      n'.solvePolicies sch' true = (.ok tables', k') ∧
      k'.solveUtility sch₁' [] [] "" ign' = (.ok g', k₁') ∧ g'.data = [1 / 2 * x] := by
  have key := C161_value sch sch' sch₁ sch₁' hv (hmn.valid hv) hsv (hmn.solvable hsv)
    (by unfold Net.SameVars; rw [hmn.vars]) hmn.info ho (fun d hd => ⟨hmat d hd, hmn.matters (hmat d hd)⟩)
    hnn hnn' (a := 1 / 2) (c := 1) (by norm_num) one_pos
    (fun w hw => by
      rw [one_mul]
      have hrel : List.Forall₂ (fun f f' : NFactor α => n'.prob f' w = m.prob f w) m.chanceTables n'.chanceTables := by
        have h := hmn.chance
        rw [List.forall₂_iff_get] at h ⊢
        refine ⟨h.1, fun i a b => ?_⟩
        exact hch _ (List.get_mem _ _) _ (List.get_mem _ _) (h.2 i a b).1 (by simp) w hw
      exact forall₂_prod hrel) hu ign ign'
  simpa only [mul_one] using key

/-- **C164, the value.** Under the hypotheses of `C164_decisions`, the expected utility that is reported after solving the
trained network is half of the one in the network that the samples follow. -/
theorem C164_value (sch sch' sch₁ sch₁' : NSched α) {n : Net α} (hn : n.Valid) (ht : n.Trainable) (hT : n.totalUtility = none)
    (hsv : n.Solvable) (ho : n.Ordered n.decisions) (hmat : ∀ d ∈ n.decisions, n.Matters [d] d)
    {calls : List (TrainCall α)} (hs : ∀ s ∈ samplesOf calls, s.OK n) (hc : ∀ s ∈ samplesOf calls, s.Complete n)
    {t : Trainer α} {n1 n' : Net α} (h1 : trainRun n calls = .ok (t, n1)) (h2 : updateNetwork t n1 = .ok (n', none))
    {m : Net α} (hm : SameNetwork n m) (ha : m.Acyclic) (hr : m.Regular)
    (hnn : ∀ f ∈ m.chanceTables, ∀ x ∈ f.tab, 0 ≤ x) {q : World → α}
    (hq : ∀ v ∈ n.variables, v.nodeType = .chance → ∀ w k, q (w.set v.name k) = q w)
    (follow : ∀ w, n.Allowed w → ((samplesOf calls).countP (fun s => s.Is n w) : α) = q w * m.joint [] w)
    (gains : ∀ f ∈ n.factors, n.isKind .utility f.forVar = true → ∀ w, n.Allowed w →
      gainsIn n (samplesOf calls) f.forVar f.given w ≠ [] ∧
      (gainsIn n (samplesOf calls) f.forVar f.given w).sum =
        (gainsIn n (samplesOf calls) f.forVar f.given w).length * m.utilityIn f.forVar w) (ign ign' : Bool) :
    ∃ tables k g k₁ x tables' k' g' k₁', m.solvePolicies sch true = (.ok tables, k) ∧
      k.solveUtility sch₁ [] [] "" ign = (.ok g, k₁) ∧ g.data = [x] ∧
      n'.solvePolicies sch' true = (.ok tables', k') ∧
      k'.solveUtility sch₁' [] [] "" ign' = (.ok g', k₁') ∧ g'.data = [1 / 2 * x] :=
  half_value sch sch' sch₁ sch₁' (hm.symm.trans (trained_same ht hs h1 h2)) (hm.valid hn) (hm.solvable hsv)
    (by rw [hm.decisions]; exact hm.ordered ho) (fun d hd => hm.matters (hmat d (by rw [← hm.decisions]; exact hd)))
    hnn (trained_nonneg hn ht hs h1 h2) (C163_tables hn ht hs hc h1 h2 hm ha hr hq follow)
    (fun w hw => C164_half hn ht hT hs h1 h2 hm gains w (hm.allowed.1 hw)) ign ign'

/-- **C164, the value after decisions taken by a rule.** The same under the hypotheses of `C164_acting`. -/
theorem C164_acting_value (sch sch' sch₁ sch₁' : NSched α) {n : Net α} (hn : n.Valid) (ht : n.Trainable) (hT : n.totalUtility = none)
    (hsv : n.Solvable) (ho : n.Ordered n.decisions) (hmat : ∀ d ∈ n.decisions, n.Matters [d] d)
    {calls : List (TrainCall α)} (hs : ∀ s ∈ samplesOf calls, s.OK n) (hc : ∀ s ∈ samplesOf calls, s.Complete n)
    {t : Trainer α} {n1 n' : Net α} (h1 : trainRun n calls = .ok (t, n1)) (h2 : updateNetwork t n1 = .ok (n', none))
    {m : Net α} (hm : SameNetwork n m) (hnn : ∀ f ∈ m.chanceTables, ∀ x ∈ f.tab, 0 ≤ x)
    {a : Net α} (hav : a.Valid) (ha : a.Acyclic) (hr : a.Regular)
    (hv : a.variables.map (fun v => (v.name, v.nodeType, v.outcomes)) =
      n.variables.map (fun v => (v.name, if v.nodeType = .decision then .chance else v.nodeType, v.outcomes)))
    (hma : ∀ f ∈ m.chanceTables, ∃ f' ∈ a.chanceTables, f'.forVar = f.forVar ∧ (∀ g, g ∈ f'.given ↔ g ∈ f.given) ∧
      ∀ w, n.Allowed w → a.prob f' w = m.prob f w)
    {N : α} (follow : ∀ w, n.Allowed w → ((samplesOf calls).countP (fun s => s.Is n w) : α) = N * a.joint [] w)
    (gains : ∀ f ∈ n.factors, n.isKind .utility f.forVar = true → ∀ w, n.Allowed w →
      gainsIn n (samplesOf calls) f.forVar f.given w ≠ [] ∧
      (gainsIn n (samplesOf calls) f.forVar f.given w).sum =
        (gainsIn n (samplesOf calls) f.forVar f.given w).length * m.utilityIn f.forVar w) (ign ign' : Bool) :
    ∃ tables k g k₁ x tables' k' g' k₁', m.solvePolicies sch true = (.ok tables, k) ∧
      k.solveUtility sch₁ [] [] "" ign = (.ok g, k₁) ∧ g.data = [x] ∧
      n'.solvePolicies sch' true = (.ok tables', k') ∧
      k'.solveUtility sch₁' [] [] "" ign' = (.ok g', k₁') ∧ g'.data = [1 / 2 * x] := by
  have hsame := trained_same ht hs h1 h2
  have hch : m.SameChances n' [] := by
    intro f hf f' hf' hff _ w hw
    obtain ⟨g, hg, e1, e2, e3⟩ := hma f hf
    have hgiv : f'.given = f.given := by
      obtain ⟨x, hx, e4, e5⟩ := (hm.symm.trans hsame).partner (mem_chanceTables.1 hf).1
      have : x = f' := List.inj_on_of_nodup_map (hsame.valid hn).tables hx (mem_chanceTables.1 hf').1 (e4.trans hff.symm)
      subst this
      exact e5
    rw [C163_acting hn ht hs hc h1 h2 hav ha hr hv follow f' hf' g hg (hff.trans e1.symm)
      (fun y => by rw [hgiv]; exact e2 y) w (hm.allowed.1 hw), e3 w (hm.allowed.1 hw)]
  exact half_value sch sch' sch₁ sch₁' (hm.symm.trans hsame) (hm.valid hn) (hm.solvable hsv)
    (by rw [hm.decisions]; exact hm.ordered ho) (fun d hd => hm.matters (hmat d (by rw [← hm.decisions]; exact hd)))
    hnn (trained_nonneg hn ht hs h1 h2) hch
    (fun w hw => C164_half hn ht hT hs h1 h2 hm gains w (hm.allowed.1 hw)) ign ign'

open Ex in
/-- The hypotheses of `C161_value` are met: the umbrella network written down in two ways, in units and half units. -/
example (sch sch' sch₁ sch₁' : NSched ℚ) : ∃ tables m g m₁ x tables' m' g' m₁',
    umb.solvePolicies sch true = (.ok tables, m) ∧ m.solveUtility sch₁ [] [] "" false = (.ok g, m₁) ∧ g.data = [x] ∧
    umbBack.solvePolicies sch' true = (.ok tables', m') ∧
    m'.solveUtility sch₁' [] [] "" false = (.ok g', m₁') ∧ g'.data = [2 * 1 * x] :=
  C161_value sch sch' sch₁ sch₁' umb_valid umbBack_valid umb_solvable umbBack_solvable
    rfl umbBack_info (listed_ordered umb_timed.decision umb_timed.order) umbBack_matters (by decide +kernel) (by decide +kernel)
    two_pos one_pos (fun w hw => by simpa [Net.joint] using umbBack_joint w hw) umbBack_total false false

open Ex in
/-- The hypotheses of `C164_value` are met by the letters. -/
example (sch sch' sch₁ sch₁' : NSched ℚ) : ∃ n', trainOn letter mails = .ok (n', none) ∧
    ∃ tables k g k₁ x tables' k' g' k₁', letterTrue.solvePolicies sch true = (.ok tables, k) ∧
      k.solveUtility sch₁ [] [] "" false = (.ok g, k₁) ∧ g.data = [x] ∧
      n'.solvePolicies sch' true = (.ok tables', k') ∧
      k'.solveUtility sch₁' [] [] "" false = (.ok g', k₁') ∧ g'.data = [1 / 2 * x] := by
  have htr : (trainOn letter mails).map (fun r => r.2) = .ok none := by decide +kernel
  obtain ⟨⟨n', e⟩, h, hx⟩ := trainOn_map htr
  dsimp only at hx
  subst hx
  obtain ⟨t, h1, h2⟩ := trainOn_run h
  exact ⟨n', h, C164_value sch sch' sch₁ sch₁' letter_valid letter_trainable rfl letter_solvable letter_ordered
    (fun d hd => letter_matters d hd) mails_ok mails_complete h1 h2 letterTrue_same letterTrue_acyclic letterTrue_regular
    (by decide +kernel) (fun _ _ _ _ _ => rfl) mails_follow mails_gains false false⟩

open Ex in
/-- The hypotheses of `C161_affine_value` are met: in addition, comfort is counted from 7 below. -/
example (sch sch' sch₁ sch₁' : NSched ℚ) : ∃ tables m g m₁ x tables' m' g' m₁',
    umb.solvePolicies sch true = (.ok tables, m) ∧ m.solveUtility sch₁ [] [] "" false = (.ok g, m₁) ∧ g.data = [x] ∧
    (umbBack.shifted (fun _ => 7)).solvePolicies sch' true = (.ok tables', m') ∧
    m'.solveUtility sch₁' [] [] "" false = (.ok g', m₁') ∧ g'.data = [1 * (2 * x + umbBack.totalShift (fun _ => 7))] :=
  C161_affine_value sch sch' sch₁ sch₁' umb_valid (shifted_valid (b := fun _ => 7) umbBack_valid)
    umb_solvable (shifted_solvable umbBack_solvable) rfl
    (by
      intro d hd s
      obtain rfl := umb_decision hd
      simp [umbBack, umb, Net.shifted, Net.isKind, Net.totalName])
    (fun d hd => ⟨(umbBack_matters d hd).1, shifted_matters umbBack_valid (umbBack_matters d hd).2⟩) (by decide +kernel)
    (by rw [shifted_chanceTables umbBack_valid]; decide +kernel) two_pos one_pos umb_regular umb_timed
    (fun w hw => by rw [shifted_prob umbBack_valid]; simpa [Net.joint] using umbBack_joint w hw)
    (fun w hw => by rw [shifted_total umbBack_valid hw, umbBack_total w hw]) false false

open Ex in
/-- The hypotheses of `C164_acting_value` are met by the letters that were filed by a rule. -/
example (sch sch' sch₁ sch₁' : NSched ℚ) : ∃ n', trainOn letter filed = .ok (n', none) ∧
    ∃ tables k g k₁ x tables' k' g' k₁', letterTrue.solvePolicies sch true = (.ok tables, k) ∧
      k.solveUtility sch₁ [] [] "" false = (.ok g, k₁) ∧ g.data = [x] ∧
      n'.solvePolicies sch' true = (.ok tables', k') ∧
      k'.solveUtility sch₁' [] [] "" false = (.ok g', k₁') ∧ g'.data = [1 / 2 * x] := by
  have htr : (trainOn letter filed).map (fun r => r.2) = .ok none := by decide +kernel
  obtain ⟨⟨n', e⟩, h, hx⟩ := trainOn_map htr
  dsimp only at hx
  subst hx
  obtain ⟨t, h1, h2⟩ := trainOn_run h
  refine ⟨n', h, C164_acting_value sch sch' sch₁ sch₁' letter_valid letter_trainable rfl letter_solvable letter_ordered
    (fun d hd => letter_matters d hd) filed_ok (by rw [samplesOf_adds]; unfold Sample.Complete; decide +kernel) h1 h2
    letterTrue_same (by decide +kernel) letterActed_valid letterActed_acyclic letterActed_regular (by decide) ?_ filed_follow
    (letter_gains (by decide +kernel)) false false⟩
  intro f hf
  have hc : letterTrue.chanceTables = [⟨"Letter", [], some [2, 1], [], 2⟩] := by decide
  rw [hc, List.mem_singleton] at hf
  subst hf
  exact ⟨_, by decide, rfl, fun g => Iff.rfl, fun w _ => rfl⟩

end Bbn
