import Verif.Spec.Circuit
import Verif.Lemmas.Timed
import Verif.Props.NetBayes
import Verif.Props.Logic

/-!
# Networks of logic nodes compute what the circuit computes
-/

set_option autoImplicit false

namespace Bbn

open Finset

variable {α : Type}

/-- A sum over worlds of which only one counts. -/
theorem sumWorlds_single [AddCommMonoid α] {F : World → α} {t : World} : ∀ (l : List NVar) (w : World),
    (l.map NVar.name).Nodup → (∀ v ∈ l, t v.name < v.outcomes.length) → (∀ s, s ∉ l.map NVar.name → t s = w s) →
    (∀ w' : World, (∀ v ∈ l, w' v.name < v.outcomes.length) → (∀ s, s ∉ l.map NVar.name → w' s = w s) → w' ≠ t → F w' = 0) →
    sumWorlds l F w = F t := by
  intro l
  induction l with
  | nil =>
    intro w _ _ h _
    rw [show t = w from funext (fun s => h s (by simp))]
    rfl
  | cons v l ih =>
    intro w hnd hr ht h0
    rw [List.map_cons, List.nodup_cons] at hnd
    simp only [sumWorlds]
    rw [Finset.sum_eq_single (t v.name)]
    · refine ih _ hnd.2 (fun u hu => hr u (List.mem_cons_of_mem _ hu)) (fun s hs => ?_) (fun w' h1 h2 h3 => ?_)
      · unfold World.set
        split_ifs with e
        · rw [e]
        · exact ht s (by simp only [List.map_cons, List.mem_cons, not_or]; exact ⟨e, hs⟩)
      · refine h0 w' (fun u hu => ?_) (fun s hs => ?_) h3
        · rcases List.mem_cons.1 hu with rfl | hu
          · rw [h2 _ hnd.1]; simp only [World.set, if_true]; exact hr u (by simp)
          · exact h1 u hu
        · rw [List.map_cons, List.mem_cons, not_or] at hs
          rw [h2 s hs.2]
          simp only [World.set, if_neg hs.1]
    · intro k hk hne
      rw [show (0 : α) = sumWorlds l (fun _ => 0) (w.set v.name k) from (sumWorlds_zero _ _).symm]
      refine sumWorlds_congr _ _ hnd.2 (fun w' h1 h2 => h0 w' (fun u hu => ?_) (fun s hs => ?_) ?_)
      · rcases List.mem_cons.1 hu with rfl | hu
        · rw [h2 _ hnd.1]; simp only [World.set, if_true]; exact Finset.mem_range.1 hk
        · exact h1 u hu
      · rw [List.map_cons, List.mem_cons, not_or] at hs
        rw [h2 s hs.2]
        simp only [World.set, if_neg hs.1]
      · intro e
        apply hne
        rw [← e, h2 _ hnd.1]
        simp [World.set]
    · intro h
      exact absurd (Finset.mem_range.2 (hr v (by simp))) h

section circuit

variable [Field α] [DecidableEq α] {n : Net α} {D : List String} {φ : String → List Nat → Nat} {run : World → World}

omit [DecidableEq α] in
theorem run_allowed (hn : n.Valid) (hc : n.Circuit D φ) (he : n.Evaluates D φ run) {w : World} (hw : n.Allowed w) :
    n.Allowed (run w) := by
  obtain ⟨rank, hrank⟩ := hc.acyclic
  have key : ∀ k, ∀ v ∈ n.stateVars, v.name ∈ D → rank v.name ≤ k → run w v.name < v.outcomes.length := by
    intro k
    induction k using Nat.strong_induction_on with
    | _ k ih =>
      intro v hv hD hk
      obtain ⟨f, hf, e⟩ := hc.gates _ hD
      have h1 := he.gate w f hf (by rw [e]; exact hD)
      have h2 := (hc.tables f hf (by rw [e]; exact hD) (n.clip (run w)) (clip_allowed hn _)).1
      have h3 : f.given.map (n.clip (run w)) = f.given.map (run w) := by
        apply List.map_congr_left
        intro g hg
        unfold Net.clip
        split_ifs with h
        · simp only [List.any_eq_true, decide_eq_true_eq] at h
          obtain ⟨u, hu, rfl⟩ := h
          rw [count_eq hn (mem_stateVars.1 hu).1]
          apply Nat.mod_eq_of_lt
          by_cases hgD : u.name ∈ D
          · have := hrank f hf (by rw [e]; exact hD) _ hg hgD
            rw [e] at this
            exact ih (rank u.name) (by omega) u hu hgD le_rfl
          · rw [he.input _ _ hgD]; exact hw u hu
        · rfl
      rw [h3, ← h1, e, count_eq hn (mem_stateVars.1 hv).1] at h2
      exact h2
  intro v hv
  by_cases hD : v.name ∈ D
  · exact key _ v hv hD le_rfl
  · rw [he.input _ _ hD]; exact hw v hv

omit [DecidableEq α] in
/-- There is only one way to evaluate a circuit. -/
theorem run_unique (hc : n.Circuit D φ) (he : n.Evaluates D φ run) {w w' : World} (hin : ∀ s, s ∉ D → w' s = w s)
    (hg : ∀ f ∈ n.chanceTables, f.forVar ∈ D → w' f.forVar = φ f.forVar (f.given.map w')) : w' = run w := by
  obtain ⟨rank, hrank⟩ := hc.acyclic
  have key : ∀ k, ∀ s ∈ D, rank s ≤ k → w' s = run w s := by
    intro k
    induction k using Nat.strong_induction_on with
    | _ k ih =>
      intro s hs hk
      obtain ⟨f, hf, rfl⟩ := hc.gates s hs
      rw [hg f hf hs, he.gate w f hf hs]
      congr 1
      apply List.map_congr_left
      intro g hgg
      by_cases hD : g ∈ D
      · have := hrank f hf hs g hgg hD
        exact ih (rank g) (by omega) g hD le_rfl
      · rw [he.input _ _ hD, hin _ hD]
  funext s
  by_cases hs : s ∈ D
  · exact key _ s hs le_rfl
  · rw [he.input _ _ hs, hin _ hs]

theorem gate_prob (hn : n.Valid) (hc : n.Circuit D φ) {f : NFactor α} (hf : f ∈ n.chanceTables) (hD : f.forVar ∈ D)
    {w : World} (hw : n.Allowed w) : n.prob f w = if w f.forVar = φ f.forVar (f.given.map w) then 1 else 0 := by
  have hdims := hn.dims f (mem_chanceTables.1 hf).1
  have hg : ∀ k, f.given.map (w.set f.forVar k) = f.given.map w := by
    intro k
    apply List.map_congr_left
    intro g hg
    unfold World.set
    rw [if_neg]
    rintro rfl
    unfold NFactor.dims at hdims
    exact (List.nodup_append.1 hdims).2.2 _ hg _ (by simp) rfl
  have hsum : n.rowSum f w = 1 := by
    unfold Net.rowSum
    rw [Finset.sum_eq_single (φ f.forVar (f.given.map w))]
    · rw [(hc.tables f hf hD _ (Allowed.set hn hw (hc.tables f hf hD w hw).1)).2, hg]
      simp [World.set]
    · intro k hk hne
      rw [(hc.tables f hf hD _ (Allowed.set hn hw (Finset.mem_range.1 hk))).2, hg, if_neg]
      simpa [World.set] using hne
    · intro h
      exact absurd (Finset.mem_range.2 (hc.tables f hf hD w hw).1) h
  unfold Net.prob
  rw [hsum, if_neg one_ne_zero, div_one]
  exact (hc.tables f hf hD w hw).2

/-- Sums over all worlds are sums over the inputs. -/
theorem circuit_mass (hn : n.Valid) (hc : n.Circuit D φ) (he : n.Evaluates D φ run) (pols : List (String × Factor α))
    (P : World → Prop) [DecidablePred P] : n.mass pols P = n.circuitMass D run pols P := by
  have hperm : n.stateVars.Perm (n.inputs D ++ n.stateVars.filter (fun v => v.name ∈ D)) := by
    have := List.filter_append_perm (fun v => decide (v.name ∉ D)) n.stateVars
    refine this.symm.trans ?_
    unfold Net.inputs
    simp
  have hnd := stateVars_names hn
  have hnd' : ((n.inputs D).map NVar.name).Nodup := hnd.sublist (List.filter_sublist.map _)
  have hnd'' : ((n.stateVars.filter (fun v => v.name ∈ D)).map NVar.name).Nodup := hnd.sublist (List.filter_sublist.map _)
  unfold Net.mass Net.total Net.circuitMass
  rw [sumWorlds_perm _ hperm _ hnd, sumWorlds_append]
  refine sumWorlds_congr _ _ hnd' (fun w hw hoff => ?_)
  have hgate : ∀ s, s ∉ (n.stateVars.filter (fun v => v.name ∈ D)).map NVar.name → s ∉ D := by
    intro s hs hD
    apply hs
    obtain ⟨f, hf, e⟩ := hc.gates s hD
    obtain ⟨v, hv, e', _⟩ := chanceTables_forVar hf
    exact List.mem_map.2 ⟨v, List.mem_filter.2 ⟨hv, by simp only [decide_eq_true_eq]; rw [e', e]; exact hD⟩, by rw [e', e]⟩
  have hallow : ∀ w' : World, (∀ v ∈ n.stateVars.filter (fun v => v.name ∈ D), w' v.name < v.outcomes.length) →
      (∀ s, s ∉ (n.stateVars.filter (fun v => v.name ∈ D)).map NVar.name → w' s = w s) → n.Allowed w' := by
    intro w' h1 h2 v hv
    by_cases hD : v.name ∈ D
    · exact h1 v (List.mem_filter.2 ⟨hv, by simpa using hD⟩)
    · rw [h2]
      · exact hw v (List.mem_filter.2 ⟨hv, by simpa using hD⟩)
      · intro hm
        obtain ⟨u, hu, e⟩ := List.mem_map.1 hm
        have := (List.mem_filter.1 hu).2
        rw [e] at this
        exact hD (by simpa using this)
  have hwa : n.Allowed w := by
    refine hallow w (fun v hv => ?_) (fun _ _ => rfl)
    rw [hoff]
    · exact (hn.outcomes v (mem_stateVars.1 (List.mem_filter.1 hv).1).1).1
    · intro hm
      obtain ⟨u, hu, e⟩ := List.mem_map.1 hm
      have h1 := (List.mem_filter.1 hu).2
      have h2 := (List.mem_filter.1 hv).2
      rw [e] at h1
      simp only [decide_eq_true_eq] at h1 h2
      exact h1 h2
  have hra := run_allowed hn hc he hwa
  rw [sumWorlds_single (t := run w) _ _ hnd'' (fun v hv => hra v (List.mem_filter.1 hv).1)
    (fun s hs => he.input _ _ (hgate s hs))]
  · unfold Net.joint
    congr 2
    have hp := (List.filter_append_perm (fun f => decide (f.forVar ∉ D)) n.chanceTables).symm.map (fun f => n.prob f (run w))
    rw [hp.prod_eq, List.map_append, List.prod_append]
    refine (mul_right_eq_self₀.2 (.inl ?_))
    apply List.prod_eq_one
    intro x hx
    obtain ⟨f, hf, rfl⟩ := List.mem_map.1 hx
    obtain ⟨hf, hD⟩ := List.mem_filter.1 hf
    have hD : f.forVar ∈ D := by simpa using hD
    rw [gate_prob hn hc hf hD hra, if_pos (he.gate w f hf hD)]
  · intro w' h1 h2 hne
    have ha := hallow w' h1 h2
    have : ∃ f ∈ n.chanceTables, f.forVar ∈ D ∧ w' f.forVar ≠ φ f.forVar (f.given.map w') := by
      by_contra hcon
      push Not at hcon
      refine hne (run_unique hc he (fun s hs => ?_) hcon)
      refine h2 s (fun hm => ?_)
      obtain ⟨u, hu, e⟩ := List.mem_map.1 hm
      have := (List.mem_filter.1 hu).2
      rw [e] at this
      exact hs (by simpa using this)
    obtain ⟨f, hf, hD, hf'⟩ := this
    unfold Net.joint
    rw [List.prod_eq_zero (List.mem_map.2 ⟨f, hf, by rw [gate_prob hn hc hf hD ha, if_neg hf']⟩), zero_mul, zero_mul]

omit [DecidableEq α] in
/-- What the gates show depends only on the inputs. -/
theorem run_congr (hn : n.Valid) (hc : n.Circuit D φ) (he : n.Evaluates D φ run) {w w' : World}
    (hin : ∀ v ∈ n.inputs D, w v.name = w' v.name) : ∀ s ∈ D, run w s = run w' s := by
  obtain ⟨rank, hrank⟩ := hc.acyclic
  have key : ∀ k, ∀ s ∈ D, rank s ≤ k → run w s = run w' s := by
    intro k
    induction k using Nat.strong_induction_on with
    | _ k ih =>
      intro s hs hk
      obtain ⟨f, hf, rfl⟩ := hc.gates s hs
      rw [he.gate w f hf hs, he.gate w' f hf hs]
      congr 1
      apply List.map_congr_left
      intro g hgg
      by_cases hD : g ∈ D
      · have := hrank f hf hs g hgg hD
        exact ih (rank g) (by omega) g hD le_rfl
      · rw [he.input _ _ hD, he.input _ _ hD]
        obtain ⟨v, hv, rfl, hk⟩ := hn.parents f (mem_chanceTables.1 hf).1 (chanceTables_notTotal hn hf) g hgg
        exact hin v (List.mem_filter.2 ⟨mem_stateVars.2 ⟨hv, hk⟩, by simpa using hD⟩)
  exact fun s hs => key _ s hs le_rfl

end circuit

/-- Evaluation to a certain depth. -/
def Net.runTo (n : Net α) (D : List String) (φ : String → List Nat → Nat) : Nat → World → World
  | 0, w => w
  | k + 1, w => fun s => if s ∈ D then
      (match n.chanceTables.find? (fun f => f.forVar = s) with
       | some f => φ s (f.given.map (n.runTo D φ k w))
       | none => w s) else w s

/-- Every circuit can be evaluated. -/
theorem circuit_evaluates [Zero α] [One α] {n : Net α} (hn : n.Valid) {D : List String} {φ : String → List Nat → Nat}
    (hc : n.Circuit D φ) : ∃ run, n.Evaluates D φ run := by
  obtain ⟨rank, hrank⟩ := hc.acyclic
  have hfind : ∀ f ∈ n.chanceTables, n.chanceTables.find? (fun g => g.forVar = f.forVar) = some f := by
    intro f hf
    cases h : n.chanceTables.find? (fun g => g.forVar = f.forVar) with
    | none => exact absurd (List.find?_eq_none.1 h f hf) (by simp)
    | some g =>
      have h1 := List.find?_some h
      have h2 := List.mem_of_find?_eq_some h
      rw [List.inj_on_of_nodup_map (chanceTables_nodup hn) h2 hf (by simpa using h1)]
  have stable : ∀ w m, ∀ s, (s ∈ D → rank s < m) → ∀ k, m ≤ k → n.runTo D φ k w s = n.runTo D φ m w s := by
    intro w m
    induction m with
    | zero =>
      intro s hs k _
      have hD : s ∉ D := fun h => absurd (hs h) (by omega)
      cases k with
      | zero => rfl
      | succ k => simp only [Net.runTo, if_neg hD]
    | succ m ih =>
      intro s hs k hk
      obtain ⟨k, rfl⟩ := Nat.exists_eq_add_of_le hk
      rw [show m + 1 + k = (m + k) + 1 by omega]
      simp only [Net.runTo]
      split_ifs with hD
      · obtain ⟨f, hf, rfl⟩ := hc.gates s hD
        rw [hfind f hf]
        dsimp only
        congr 1
        apply List.map_congr_left
        intro g hg
        refine ih g (fun hgD => ?_) _ (by omega)
        have := hrank f hf hD g hg hgD
        have := hs hD
        omega
      · rfl
  refine ⟨fun w s => n.runTo D φ (rank s + 1) w s, fun w s hs => by simp only [Net.runTo, if_neg hs], fun w f hf hD => ?_⟩
  simp only [Net.runTo, if_pos hD, hfind f hf]
  congr 1
  apply List.map_congr_left
  intro g hg
  have h1 : n.runTo D φ (rank g + 1) w g = n.runTo D φ (max (rank g + 1) (rank f.forVar)) w g :=
    (stable w (rank g + 1) g (fun _ => by omega) _ (le_max_left _ _)).symm
  have h2 : n.runTo D φ (max (rank g + 1) (rank f.forVar)) w g = n.runTo D φ (rank f.forVar) w g :=
    stable w (rank f.forVar) g (fun hgD => hrank f hf hD g hg hgD) _ (le_max_right _ _)
  rw [← h2, ← h1]
  simp only [Net.runTo]

/-- **C111, circuits.** If some variables are determined by their parents, the answer for any variable is what one gets
by evaluating the circuit for all outcomes of the inputs: the share of the weight of the inputs for which the evaluated
circuit has the outcome and agrees with the evidence, among those for which it agrees with the evidence. -/
theorem C111_circuit [Field α] [CharZero α] [DecidableEq α] (sch : NSched α) {n : Net α} (hn : n.Valid) (hp : n.PoliciesOK)
    {D : List String} {φ : String → List Nat → Nat} (hc : n.Circuit D φ) {run : World → World}
    (he : n.Evaluates D φ run) {evidence : List (String × String)} (hev : n.EvidenceOK evidence) {v : NVar}
    (hv : v ∈ n.variables) (hvc : v.nodeType = .chance) (hfree : v.name ∉ evidence.map Prod.fst) (ign : Bool)
    (possible : n.circuitMass D run (n.active evidence ign) (n.Agrees evidence) ≠ 0) :
    ∃ d, n.Answers sch evidence v.name ign d ∧ d.length = v.outcomes.length ∧ ∀ k < v.outcomes.length, d[k]? =
      some (n.circuitMass D run (n.active evidence ign) (fun w => n.Agrees evidence w ∧ w v.name = k) /
        n.circuitMass D run (n.active evidence ign) (n.Agrees evidence)) := by
  rw [← circuit_mass hn hc he] at possible
  obtain ⟨d, h1, h2, h3⟩ := answers_mass sch hn hp hev hv hvc hfree ign possible
  refine ⟨d, h1, h2, fun k hk => ?_⟩
  rw [h3 k hk, circuit_mass hn hc he, circuit_mass hn hc he]

/-- **C111, known inputs.** If all inputs are observed, every gate shows the outcome that the circuit computes, with
probability one. -/
theorem C111_inputs [Field α] [CharZero α] [DecidableEq α] (sch : NSched α) {n : Net α} (hn : n.Valid) (hp : n.PoliciesOK)
    {D : List String} {φ : String → List Nat → Nat} (hc : n.Circuit D φ) {run : World → World}
    (he : n.Evaluates D φ run) {evidence : List (String × String)} (hev : n.EvidenceOK evidence)
    (hin : ∀ v ∈ n.inputs D, v.name ∈ evidence.map Prod.fst) {v : NVar} (hv : v ∈ n.variables) (hD : v.name ∈ D)
    (hfree : v.name ∉ evidence.map Prod.fst) (ign : Bool)
    (possible : n.mass (n.active evidence ign) (n.Agrees evidence) ≠ 0) {w : World} (hw : n.Agrees evidence w) :
    ∃ d, n.Answers sch evidence v.name ign d ∧ d.length = v.outcomes.length ∧ run w v.name < v.outcomes.length ∧
      ∀ k < v.outcomes.length, d[k]? = some (if k = run w v.name then 1 else 0) := by
  have hvc : v.nodeType = .chance := by
    obtain ⟨f, hf, e⟩ := hc.gates _ hD
    have := (mem_chanceTables.1 hf).2
    rw [e] at this
    exact (isKind_iff hn hv _).1 this
  obtain ⟨d, h1, h2, h3⟩ := answers_mass sch hn hp hev hv hvc hfree ign possible
  have hfix : ∀ w' : World, n.Agrees evidence w' → ∀ u ∈ n.inputs D, w' u.name = w u.name := by
    intro w' hw' u hu
    obtain ⟨e, hee, hee'⟩ := List.mem_map.1 (hin u hu)
    have hu' := (mem_stateVars.1 (List.mem_filter.1 hu).1).1
    rw [← hee', hw' e hee u hu' hee'.symm, hw e hee u hu' hee'.symm]
  have hrun : ∀ w' : World, n.Agrees evidence (run w') → run w' v.name = run w v.name := by
    intro w' hw'
    refine run_congr hn hc he (fun u hu => ?_) _ hD
    rw [← hfix _ hw' u hu, he.input _ _ (by simpa using (List.mem_filter.1 hu).2)]
  have hlt : run w v.name < v.outcomes.length := by
    by_contra hcon
    -- otherwise no world agrees with the evidence
    apply possible
    rw [circuit_mass hn hc he]
    unfold Net.circuitMass
    refine Eq.trans (sumWorlds_congr (G := fun _ => 0) _ _ ((stateVars_names hn).sublist (List.filter_sublist.map _))
      (fun w' hw' hoff => ?_)) (sumWorlds_zero _ _)
    rw [if_neg, mul_zero]
    intro ha
    have hall : n.Allowed w' := by
      intro u hu
      by_cases huD : u.name ∈ D
      · rw [hoff]
        · exact (hn.outcomes u (mem_stateVars.1 hu).1).1
        · intro hm
          obtain ⟨x, hx, e⟩ := List.mem_map.1 hm
          have := (List.mem_filter.1 hx).2
          rw [e] at this
          exact absurd huD (by simpa using this)
      · exact hw' u (List.mem_filter.2 ⟨hu, by simpa using huD⟩)
    have := run_allowed hn hc he hall v (mem_stateVars.2 ⟨hv, by rw [hvc]; decide⟩)
    rw [hrun w' ha] at this
    exact hcon this
  refine ⟨d, h1, h2, hlt, fun k hk => ?_⟩
  rw [h3 k hk]
  congr 1
  split_ifs with hkr
  · rw [div_eq_one_iff_eq possible, circuit_mass hn hc he, circuit_mass hn hc he]
    unfold Net.circuitMass
    refine sumWorlds_congr _ _ ((stateVars_names hn).sublist (List.filter_sublist.map _)) (fun w' _ _ => ?_)
    congr 1
    refine if_congr ⟨fun h => h.1, fun h => ⟨h, ?_⟩⟩ rfl rfl
    rw [hrun w' h, hkr]
  · rw [div_eq_zero_iff]
    left
    rw [circuit_mass hn hc he]
    unfold Net.circuitMass
    refine Eq.trans (sumWorlds_congr (G := fun _ => 0) _ _ ((stateVars_names hn).sublist (List.filter_sublist.map _))
      (fun w' _ _ => ?_)) (sumWorlds_zero _ _)
    rw [if_neg, mul_zero]
    rintro ⟨h, e⟩
    rw [hrun w' h] at e
    exact hkr e.symm

/-- A gate made by an operator on truth values: the first outcome means True, the second False. -/
theorem function_gate [Zero α] [One α] {n : Net α} (hn : n.Valid) {f : NFactor α} (hf : f ∈ n.chanceTables) {t : List α}
    (ht : f.table = some t) {g : List Bool → Nat} (hg : FunctionTable t f.given.length (n.count f.forVar) g)
    (h2 : ∀ p ∈ f.given, n.count p = 2) {w : World} (hw : n.Allowed w) :
    g ((f.given.map w).map (fun k => decide (k = 0))) < n.count f.forVar ∧
      n.entry f w = if w f.forVar = g ((f.given.map w).map (fun k => decide (k = 0))) then 1 else 0 := by
  obtain ⟨h3, h4⟩ := hg.2 ((f.given.map w).map (fun k => decide (k = 0))) (by simp)
  refine ⟨h3, ?_⟩
  obtain ⟨v, hv, e, _⟩ := chanceTables_forVar hf
  rw [← h4 (w f.forVar) (by rw [← e, count_eq hn (mem_stateVars.1 hv).1]; exact hw v hv)]
  unfold Net.entry boolEntry NFactor.tab NFactor.dims
  rw [ht, List.map_append, List.map_map, List.map_map]
  congr 3
  apply List.map_congr_left
  intro p hp
  obtain ⟨u, hu, rfl, hk⟩ := hn.parents f (mem_chanceTables.1 hf).1 (chanceTables_notTotal hn hf) p hp
  have h5 := hw u (mem_stateVars.2 ⟨hu, hk⟩)
  rw [← count_eq hn hu, h2 _ hp] at h5
  simp only [Function.comp, h2 _ hp, Prod.mk.injEq, true_and, truthIdx, decide_eq_true_eq]
  split_ifs <;> omega

/-- A gate made by an operator on the outcome of its only parent. -/
theorem outcome_gate [Zero α] [One α] {n : Net α} (hn : n.Valid) {f : NFactor α} (hf : f ∈ n.chanceTables) {t : List α}
    (ht : f.table = some t) {p : String} (hp : f.given = [p]) (h2 : n.count f.forVar = 2) {ψ : Nat → Bool}
    (hg : OutcomeTable t (n.count p) ψ) {w : World} (hw : n.Allowed w) :
    truthIdx (ψ ((f.given.map w).headD 0)) < n.count f.forVar ∧
      n.entry f w = if w f.forVar = truthIdx (ψ ((f.given.map w).headD 0)) then 1 else 0 := by
  have h3 : truthIdx (ψ ((f.given.map w).headD 0)) < n.count f.forVar := by
    rw [h2]; unfold truthIdx; split_ifs <;> omega
  refine ⟨h3, ?_⟩
  obtain ⟨v, hv, e, _⟩ := chanceTables_forVar hf
  obtain ⟨u, hu, rfl, hk⟩ := hn.parents f (mem_chanceTables.1 hf).1 (chanceTables_notTotal hn hf) p (by simp [hp])
  have h4 := hg.2 (w u.name) (by rw [count_eq hn hu]; exact hw u (mem_stateVars.2 ⟨hu, hk⟩)) (w f.forVar)
    (by rw [← h2, ← e, count_eq hn (mem_stateVars.1 hv).1]; exact hw v hv)
  unfold Net.entry NFactor.tab NFactor.dims
  rw [ht, hp]
  simp only [List.singleton_append, List.map_cons, List.map_nil, h2, List.headD_cons, Option.getD_some]
  exact h4

/-- **C111, logic nodes are gates.** Nodes with tables from the logic operators (C47 to C51 say which formula belongs to
which operator) form a circuit, if they have no cycles: with boolean parents, or with a single parent and an outcome
operator. -/
theorem C111_logic [Zero α] [One α] {n : Net α} (hn : n.Valid) {D : List String} {φ : String → List Nat → Nat}
    (hD : ∀ s ∈ D, n.isKind .chance s = true)
    (hg : ∀ f ∈ n.chanceTables, f.forVar ∈ D → ∃ t, f.table = some t ∧
      ((∃ g, FunctionTable t f.given.length (n.count f.forVar) g ∧ (∀ p ∈ f.given, n.count p = 2) ∧
          ∀ l, l.length = f.given.length → φ f.forVar l = g (l.map (fun k => decide (k = 0)))) ∨
        ∃ p ψ, f.given = [p] ∧ n.count f.forVar = 2 ∧ OutcomeTable t (n.count p) ψ ∧
          ∀ l, l.length = f.given.length → φ f.forVar l = truthIdx (ψ (l.headD 0))))
    {rank : String → Nat} (hr : ∀ f ∈ n.chanceTables, f.forVar ∈ D → ∀ g ∈ f.given, g ∈ D → rank g < rank f.forVar) :
    n.Circuit D φ := by
  refine ⟨fun s hs => ?_, fun f hf hfD w hw => ?_, rank, hr⟩
  · obtain ⟨v, hv, e, hk⟩ := isKind_mem.1 (hD s hs)
    obtain ⟨f, hf, e'⟩ := hn.hasTable v hv (by rw [hk]; decide)
    exact ⟨f, mem_chanceTables.2 ⟨hf, by rw [e', e]; exact hD s hs⟩, by rw [e', e]⟩
  · obtain ⟨t, ht, ⟨g, h1, h2, h3⟩ | ⟨p, ψ, h1, h2, h3, h4⟩⟩ := hg f hf hfD
    · rw [h3 _ (by simp)]
      exact function_gate hn hf ht h1 h2 hw
    · rw [h4 _ (by simp)]
      exact outcome_gate hn hf ht h1 h2 h3 hw

namespace Ex

/-- A fault tree: the system fails if both pumps fail, or the power. The gates are logic nodes `and` and `or`. -/
def fault : Net ℚ where
  name := "fault"
  info := ""
  «variables» := [⟨"Fail", .chance, ["yes", "no"], (0, 0), "", some 4⟩, ⟨"Pumps", .chance, ["yes", "no"], (0, 0), "", some 3⟩,
    ⟨"Pump1", .chance, ["yes", "no"], (0, 0), "", some 0⟩, ⟨"Pump2", .chance, ["yes", "no"], (0, 0), "", some 1⟩,
    ⟨"Power", .chance, ["yes", "no"], (0, 0), "", some 2⟩]
  factors := [⟨"Pump1", [], some [1, 3], [], 2⟩, ⟨"Pump2", [], some [1, 1], [], 2⟩, ⟨"Power", [], some [1, 9], [], 2⟩,
    ⟨"Pumps", ["Pump1", "Pump2"], some [1, 0, 0, 1, 0, 1, 0, 1], [2, 2], 2⟩,
    ⟨"Fail", ["Pumps", "Power"], some [1, 0, 1, 0, 1, 0, 0, 1], [2, 2], 2⟩]
  policies := []
  vs := none
  names := []
  totalUtility := none

theorem fault_new : newNet "fault" "" [nv "Fail" .chance ["yes", "no"], nv "Pumps" .chance ["yes", "no"],
    nv "Pump1" .chance ["yes", "no"], nv "Pump2" .chance ["yes", "no"], nv "Power" .chance ["yes", "no"]]
    [nf "Pump1" [] [1, 3], nf "Pump2" [] [1, 1], nf "Power" [] [1, 9], nf "Pumps" ["Pump1", "Pump2"] [1, 0, 0, 1, 0, 1, 0, 1],
      nf "Fail" ["Pumps", "Power"] [1, 0, 1, 0, 1, 0, 0, 1]] = .ok fault := rfl

theorem fault_valid : fault.Valid where
  names := by decide
  named := by decide
  few := by decide
  outcomes := by decide
  tables := by decide
  hasTable := by decide
  known := by decide
  dims := by decide
  parents := by decide
  size := by
    intro f hf h1 h2
    simp only [fault, List.mem_cons, List.not_mem_nil, or_false] at hf
    rcases hf with rfl | rfl | rfl | rfl | rfl <;> exact ⟨_, rfl, by decide⟩
  single := by decide
  weights := by intro i h; cases h

/-- The formulas of the gates. -/
def faultGates (s : String) (l : List Nat) : Nat :=
  truthIdx (if s = "Pumps" then l.getD 0 0 = 0 && l.getD 1 0 = 0 else l.getD 0 0 = 0 || l.getD 1 0 = 0)

def faultRun (w : World) : World := fun s =>
  if s = "Pumps" then truthIdx (w "Pump1" = 0 && w "Pump2" = 0)
  else if s = "Fail" then truthIdx ((w "Pump1" = 0 && w "Pump2" = 0) || w "Power" = 0) else w s

/-- The tables of the gates are those of the operators. -/
theorem fault_circuit : fault.Circuit ["Pumps", "Fail"] faultGates := by
  have hh : LReach (initHeap (α := ℚ)) := .init
  obtain ⟨p, p1, ⟨t, p2, p3⟩, _⟩ := C47_two_parents hh (name := "and") (φ := fun A B => A && B) (by simp [formulas2])
  obtain ⟨q, q1, ⟨u, q2, q3⟩, _⟩ := C47_two_parents hh (name := "or") (φ := fun A B => A || B) (by simp [formulas2])
  obtain rfl : 1 = p := by simpa using (show logicGet "and" = some 1 by decide).symm.trans p1
  obtain rfl : 5 = q := by simpa using (show logicGet "or" = some 5 by decide).symm.trans q1
  obtain rfl : [1, 0, 0, 1, 0, 1, 0, 1] = t :=
    Except.ok.inj ((show (initHeap (α := ℚ)).table 1 2 = .ok [1, 0, 0, 1, 0, 1, 0, 1] by decide +kernel).symm.trans p2)
  obtain rfl : [1, 0, 1, 0, 1, 0, 0, 1] = u :=
    Except.ok.inj ((show (initHeap (α := ℚ)).table 5 2 = .ok [1, 0, 1, 0, 1, 0, 0, 1] by decide +kernel).symm.trans q2)
  refine C111_logic fault_valid (by decide) (fun f hf hD => ?_) (rank := fun s => if s = "Fail" then 1 else 0) (by decide)
  have key : ∀ f ∈ fault.chanceTables, f.forVar ∈ ["Pumps", "Fail"] →
      f = ⟨"Pumps", ["Pump1", "Pump2"], some [1, 0, 0, 1, 0, 1, 0, 1], [2, 2], 2⟩ ∨
      f = ⟨"Fail", ["Pumps", "Power"], some [1, 0, 1, 0, 1, 0, 0, 1], [2, 2], 2⟩ := by decide
  rcases key f hf hD with rfl | rfl
  · exact ⟨_, rfl, .inl ⟨_, p3, by decide, fun l _ => by rcases l with _ | ⟨a, _ | ⟨b, l⟩⟩ <;> simp [faultGates]⟩⟩
  · exact ⟨_, rfl, .inl ⟨_, q3, by decide, fun l _ => by rcases l with _ | ⟨a, _ | ⟨b, l⟩⟩ <;> simp [faultGates]⟩⟩

theorem fault_run : fault.Evaluates ["Pumps", "Fail"] faultGates faultRun where
  input w s hs := by
    simp only [List.mem_cons, List.not_mem_nil, or_false, not_or] at hs
    simp [faultRun, hs.1, hs.2]
  gate w f hf hD := by
    have key : ∀ f ∈ fault.chanceTables, f.forVar ∈ ["Pumps", "Fail"] →
        f = ⟨"Pumps", ["Pump1", "Pump2"], some [1, 0, 0, 1, 0, 1, 0, 1], [2, 2], 2⟩ ∨
        f = ⟨"Fail", ["Pumps", "Power"], some [1, 0, 1, 0, 1, 0, 0, 1], [2, 2], 2⟩ := by decide
    rcases key f hf hD with rfl | rfl
    · simp [faultRun, faultGates]
    · simp [faultRun, faultGates, truthIdx]

/-- The system fails with probability 17/80 = 1 - (1 - 1/4 · 1/2) · 9/10. -/
example (sch : NSched ℚ) : ∃ d, fault.Answers sch [] "Fail" false d ∧ d[0]? = some (17 / 80) := by
  obtain ⟨d, h1, _, h3⟩ := C111_circuit sch fault_valid (by constructor <;> simp [fault]) fault_circuit fault_run
    (evidence := []) ⟨by decide, by decide⟩ (v := ⟨"Fail", .chance, ["yes", "no"], (0, 0), "", some 4⟩) (by decide) rfl
    (by decide) false (by decide +kernel)
  refine ⟨d, h1, ?_⟩
  rw [h3 0 (by decide)]
  congr 1
  decide +kernel

/-- With one pump and the power in order, the system does not fail. -/
example (sch : NSched ℚ) : ∃ d, fault.Answers sch [("Pump1", "yes"), ("Pump2", "no"), ("Power", "no")] "Fail" false d ∧
    d[1]? = some 1 := by
  obtain ⟨d, h1, _, _, h3⟩ := C111_inputs sch fault_valid (by constructor <;> simp [fault]) fault_circuit fault_run
    (evidence := [("Pump1", "yes"), ("Pump2", "no"), ("Power", "no")]) ⟨by decide, by decide⟩ (by decide)
    (v := ⟨"Fail", .chance, ["yes", "no"], (0, 0), "", some 4⟩) (by decide) (by decide) (by decide) false (by decide +kernel)
    (w := fun s => if s = "Pump1" then 0 else 1) (by decide)
  refine ⟨d, h1, ?_⟩
  rw [h3 1 (by decide)]
  rfl

end Ex

end Bbn
