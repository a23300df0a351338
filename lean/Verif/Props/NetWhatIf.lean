import Verif.Props.NetTies
import Verif.Props.NetTry
import Verif.Props.NetCircuit
import Verif.Props.NetDominated
import Verif.Props.TryCases

/-!
# What is said for the options of a decision, tried one by one, determines the policy
-/

set_option autoImplicit false

namespace Bbn

open Finset

variable {α : Type}

/-- The outcomes that the start world gives to the variables of the sum do not matter. -/
theorem sumWorlds_start [AddCommMonoid α] (F : World → α) : ∀ (l : List NVar) (w w' : World),
    (∀ s, s ∉ l.map NVar.name → w s = w' s) → sumWorlds l F w = sumWorlds l F w' := by
  intro l
  induction l with
  | nil =>
    intro w w' h
    rw [show w = w' from funext (fun s => h s (by simp))]
  | cons v l ih =>
    intro w w' h
    simp only [sumWorlds]
    refine Finset.sum_congr rfl (fun k _ => ih _ _ (fun s hs => ?_))
    unfold World.set
    split_ifs with e
    · rfl
    · exact h s (by simp only [List.map_cons, List.mem_cons, not_or]; exact ⟨e, hs⟩)

/-- A sum over the worlds with a property that says what the outcomes of some variables are. -/
theorem sumWorlds_pin [AddCommMonoid α] {P : NVar → Bool} {A : World → Prop} [DecidablePred A] {G : World → α} {t w : World}
    {l : List NVar} (hnd : (l.map NVar.name).Nodup) (ht : ∀ v ∈ l, t v.name < v.outcomes.length)
    (htw : ∀ s, s ∉ l.map NVar.name → t s = w s) (hA : A t)
    (hP : ∀ w', A w' → ∀ v ∈ l, P v = true → w' v.name = t v.name)
    (hB : ∀ w' w'', (∀ v ∈ l, P v = true → w' v.name = w'' v.name) → A w' → A w'') :
    sumWorlds l (fun w => if A w then G w else 0) w = sumWorlds (l.filter (fun v => !P v)) G t := by
  have hperm : l.Perm (l.filter P ++ l.filter (fun v => !P v)) := (List.filter_append_perm P l).symm
  have hnd1 : ((l.filter P).map NVar.name).Nodup := hnd.sublist (List.filter_sublist.map _)
  have hnd2 : ((l.filter (fun v => !P v)).map NVar.name).Nodup := hnd.sublist (List.filter_sublist.map _)
  have hdis : ∀ v ∈ l, P v = true → v.name ∉ (l.filter (fun v => !P v)).map NVar.name := by
    intro v hv hp h
    obtain ⟨u, hu, e⟩ := List.mem_map.1 h
    obtain ⟨hu1, hu2⟩ := List.mem_filter.1 hu
    rw [List.inj_on_of_nodup_map hnd hu1 hv e, hp] at hu2
    exact absurd hu2 (by simp)
  have hcov : ∀ v ∈ l, P v = false → v.name ∈ (l.filter (fun v => !P v)).map NVar.name := fun v hv hp =>
    List.mem_map_of_mem (List.mem_filter.2 ⟨hv, by simp [hp]⟩)
  rw [sumWorlds_perm _ hperm _ hnd, sumWorlds_append]
  set t' : World := fun s => if s ∈ (l.filter P).map NVar.name then t s else w s with ht'
  have htP : ∀ v ∈ l, P v = true → t' v.name = t v.name := fun v hv hp => by
    rw [ht']; dsimp only; rw [if_pos (List.mem_map_of_mem (List.mem_filter.2 ⟨hv, hp⟩))]
  have hin : ∀ w0, sumWorlds (l.filter (fun v => !P v)) (fun w => if A w then G w else 0) w0 =
      if A w0 then sumWorlds (l.filter (fun v => !P v)) G w0 else 0 := by
    intro w0
    have hsame : ∀ w' : World, (∀ s, s ∉ (l.filter (fun v => !P v)).map NVar.name → w' s = w0 s) → (A w' ↔ A w0) :=
      fun w' h => ⟨hB _ _ (fun v hv hp => h _ (hdis v hv hp)), hB _ _ (fun v hv hp => (h _ (hdis v hv hp)).symm)⟩
    by_cases a : A w0
    · rw [if_pos a]
      exact sumWorlds_congr _ _ hnd2 (fun w' _ h => if_pos ((hsame w' h).2 a))
    · rw [if_neg a]
      refine Eq.trans ?_ (sumWorlds_zero (l.filter (fun v => !P v)) w0)
      exact sumWorlds_congr _ _ hnd2 (fun w' _ h => if_neg (fun h' => a ((hsame w' h).1 h')))
  rw [sumWorlds_single (t := t') _ _ hnd1 (fun v hv => by
      obtain ⟨h1, h2⟩ := List.mem_filter.1 hv
      rw [htP v h1 h2]; exact ht v h1) (fun s hs => by rw [ht']; dsimp only; rw [if_neg hs]) ?_]
  · rw [hin, if_pos (hB t t' (fun v hv hp => (htP v hv hp).symm) hA)]
    refine sumWorlds_start _ _ _ _ (fun s hs => ?_)
    rw [ht']
    dsimp only
    split_ifs with e
    · rfl
    · refine (htw s (fun h => ?_)).symm
      obtain ⟨v, hv, rfl⟩ := List.mem_map.1 h
      cases hp : P v with
      | true => exact e (List.mem_map_of_mem (List.mem_filter.2 ⟨hv, hp⟩))
      | false => exact hs (hcov v hv hp)
  · intro w' _ h2 hne
    rw [hin, if_neg]
    intro a
    refine hne (funext (fun s => ?_))
    by_cases e : s ∈ (l.filter P).map NVar.name
    · obtain ⟨v, hv, rfl⟩ := List.mem_map.1 e
      obtain ⟨hv1, hv2⟩ := List.mem_filter.1 hv
      rw [hP w' a v hv1 hv2, htP v hv1 hv2]
    · rw [h2 s e, ht']
      dsimp only
      rw [if_neg e]

variable [Field α] [LinearOrder α] [IsStrictOrderedRing α]

/-- **C153.** For a network with one decision, after `SolvePolicies`: take any observation of all parents of the decision
that can occur, and let `SolveUtility` tell the expected total utility with each outcome of the decision tried in addition.
The policy for this situation takes exactly the outcomes for which the number told is largest, all with the same
probability. -/
theorem C153_whatif (sch : NSched α) (sch₂ : Nat → NSched α) {n : Net α} (hn : n.Valid)
    (hs : n.Solvable) {d : NVar} (hdv : d ∈ n.variables) (hdn : d.outcomes.Nodup) (hd : n.decisions = [d.name])
    (hnn : ∀ f ∈ n.chanceTables, ∀ x ∈ f.tab, 0 ≤ x) (hm : n.Matters [d.name] d.name) (stepwise : Bool) :
    ∃ t n', n.solvePolicies sch stepwise = (.ok [(d.name, t)], n') ∧
      ∀ evidence, n.EvidenceOK evidence →
        (∀ s, s ∈ evidence.map Prod.fst ↔ ∃ f ∈ n.factors, f.forVar = d.name ∧ s ∈ f.given) →
        (∃ w, n.Allowed w ∧ n.Agrees evidence w ∧ (n.chanceTables.map (fun f => n.prob f w)).prod ≠ 0) →
        ∃ y : Nat → α,
          (∀ (k : Nat) (hk : k < d.outcomes.length), n'.Worth (sch₂ k) ((d.name, d.outcomes[k]) :: evidence) "" true (y k)) ∧
          ∀ w, n.Allowed w → n.Agrees evidence w → ∀ k < d.outcomes.length, n.entry t (w.set d.name k) =
            let best := bestOutcomes d.outcomes.length y
            if k ∈ best then 1 / (best.length : α) else 0 := by
  obtain ⟨t, n', h1, hgiven⟩ := C80_one_decision sch hn hs.toFeasible hd stepwise
  obtain ⟨tables, m', k1, k2, k3, k4, k5, k6, ⟨vs0, names0, pols0, k7⟩, k8, _⟩ :=
    solvePolicies_net sch hn (fun _ => hs.toFeasible) stepwise
  rw [h1] at k1
  obtain ⟨e1, rfl⟩ := Prod.mk.inj k1
  obtain rfl := Except.ok.inj e1
  obtain ⟨tables, m', d', t', c1, _, c2, _, c3⟩ := C150_together sch hn hs (by rw [hd]; simp) hnn
    (by rw [hd]; intro e he; rw [List.mem_singleton] at he; subst he; exact hm) (stepwise := stepwise) (by simp [hd])
  rw [h1] at c1
  obtain ⟨e1, rfl⟩ := Prod.mk.inj c1
  obtain rfl := Except.ok.inj e1
  obtain ⟨rfl, rfl⟩ := Prod.mk.inj (List.mem_singleton.1 c2)
  refine ⟨t', n', h1, fun evidence hev hpar ⟨w0, hw0, ha0, hp0⟩ => ?_⟩
  have hvars : n'.variables = n.variables := by rw [k7]
  have hsol : n'.AllSolved := by
    intro v hv ht
    unfold Net.hasPolicy
    exact mapGet_isSome.2 (k8.symm.subset ((k3 _).2 (by rw [isKind_iff hn (by rw [← hvars]; exact hv)]; exact ht)))
  have hutil : n'.utilityVars ≠ [] := by rw [k7]; exact hs.utility
  have hask : ∀ w, n'.asked "" w = n.totalIn w := fun w => by rw [k7]; rfl
  have hagr : ∀ ev w, n'.Agrees ev w ↔ n.Agrees ev w := fun ev w => by unfold Net.Agrees; rw [hvars]
  have hevo : n'.EvidenceOK evidence := ⟨hev.keys, by rw [hvars]; exact hev.known⟩
  have hdk : n.isKind .decision d.name = true := mem_decisions.1 (by rw [hd]; simp)
  have hdt : d.nodeType = .decision := (isKind_iff hn hdv _).1 hdk
  have hds : d ∈ n.stateVars := mem_stateVars.2 ⟨hdv, by rw [hdt]; decide⟩
  have hfree : ∀ e ∈ evidence, e.1 ≠ d.name := by
    intro e he h
    obtain ⟨f, hf, h2, h3⟩ := (hpar e.1).1 (List.mem_map_of_mem he)
    have := hn.dims f hf
    unfold NFactor.dims at this
    rw [List.nodup_append] at this
    exact this.2.2 _ h3 f.forVar (by simp) (by rw [h, h2])
  have hchance : ∀ e ∈ evidence, e.1 ∉ n.decisions := by
    intro e he h
    rw [hd, List.mem_singleton] at h
    exact hfree e he h
  have hcount : n.count d.name = d.outcomes.length := count_eq hn hdv
  have hset : ∀ w k, n.Agrees evidence (w.set d.name k) ↔ n.Agrees evidence w := fun w k =>
    agrees_known (fun e he => World.set_ne _ (hfree e he) _)
  refine ⟨fun k => n.total [] (fun w => if n.Agrees evidence w ∧ w d.name = k then n.totalIn w else 0), fun k hk => ?_, ?_⟩
  · have := worth_total (sch₂ k) k5 k6.toPoliciesOK hsol (evidence := (d.name, d.outcomes[k]) :: evidence)
      (evidence_more hevo (by rw [show n'.stateVars = n.stateVars by rw [k7]; rfl]; exact hds)
        (fun h => by obtain ⟨e, he, h⟩ := List.mem_map.1 h; exact hfree e he h) (List.getElem_mem hk))
      (u := "") (.inl ⟨rfl, hutil⟩) true
    rw [solved_tried sch hn hs.toFeasible h1 hchance] at this
    convert this using 3 with w
    have := agrees_cons hn hdv d.outcomes[k] w (evidence := evidence)
    rw [hdn.idxOf_getElem k hk] at this
    simp only [hagr, hask, this, hd]
    simp
  · intro w hw ha k hk
    have hb := bare_range hn hw0
    have hB := c3 (n.bare w0) hb (by rw [bare_chance hn]; exact hp0) k (by rw [hcount]; exact hk)
    have hbd : (w0.set d.name k) d.name = k := World.set_eq ..
    have hentry : n.entry t' (w.set d.name k) = n.entry t' ((n.bare w0).set d.name k) := by
      refine entry_agree (fun s hs' => ?_)
      by_cases e : s = d.name
      · rw [e, World.set_eq, World.set_eq]
      · rw [World.set_ne _ e, World.set_ne _ e]
        unfold NFactor.dims at hs'
        rw [List.mem_append, List.mem_singleton, (k4 _ (List.mem_singleton_self _)).forVar] at hs'
        have hs'' := hs'.resolve_right e
        obtain ⟨a, hae, rfl⟩ := List.mem_map.1 ((hpar s).2 (hgiven s hs''))
        obtain ⟨u, hu, eu, hut, _⟩ := hev.known a hae
        rw [ha a hae u hu eu, ← ha0 a hae u hu eu, ← eu, bare_state (mem_stateVars.2 ⟨hu, hut⟩)]
    rw [hentry, hB, hcount]
    have hbest : bestOutcomes d.outcomes.length (fun c => n.worth n.decisions ((n.bare w0).set d.name c)) =
        bestOutcomes d.outcomes.length
          (fun k => n.total [] (fun w => if n.Agrees evidence w ∧ w d.name = k then n.totalIn w else 0)) := by
      refine bestOutcomes_congr (fun c hc => ?_)
      unfold Net.worth Net.total
      have hjoint : (fun w => n.joint [] w * if n.Agrees evidence w ∧ w d.name = c then n.totalIn w else 0) = fun w =>
          if n.Agrees evidence w ∧ w d.name = c then (n.chanceTables.map (fun f => n.prob f w)).prod * n.totalIn w else 0 := by
        funext w
        unfold Net.joint
        split_ifs <;> simp
      rw [hjoint, sumWorlds_pin (P := fun v => decide (n.Known [d.name] v.name)) (t := (n.bare w0).set d.name c)]
      · congr 1
        rw [hd]
        unfold Net.unseen Net.stateVars
        rw [List.filter_filter]
        refine List.filter_congr (fun v hv => ?_)
        rw [Bool.eq_iff_iff]
        simp only [decide_eq_true_eq, Bool.and_eq_true, Bool.not_eq_true', decide_eq_false_iff_not]
        constructor
        · rintro ⟨h2, h3⟩
          exact ⟨h3, by rw [h2]; decide⟩
        · rintro ⟨h3, h2⟩
          refine ⟨?_, h3⟩
          cases e : v.nodeType with
          | chance => rfl
          | decision =>
            have := mem_decisions.2 (isKind_mem.2 ⟨v, hv, rfl, e⟩)
            rw [hd] at this
            exact absurd (.inl this) h3
          | utility => exact absurd e h2
      · exact List.filter_sublist.map _ |>.nodup hn.names
      · intro v hv
        by_cases e : v.name = d.name
        · rw [e, World.set_eq, name_unique hn (mem_stateVars.1 hv).1 hdv e]; exact hc
        · rw [World.set_ne _ e]; exact hb v (mem_stateVars.1 hv).1
      · intro s hs'
        have hne : s ≠ d.name := fun e => hs' (e ▸ List.mem_map_of_mem hds)
        rw [World.set_ne _ hne]
        unfold Net.bare
        rw [if_neg]
        rintro (h | h) <;> obtain ⟨v, hv, rfl, ht⟩ := isKind_mem.1 h <;>
          exact hs' (List.mem_map_of_mem (mem_stateVars.2 ⟨hv, by rw [ht]; decide⟩))
      · refine ⟨(hset _ _).2 ((agrees_known (fun e he => ?_)).1 ha0), World.set_eq ..⟩
        obtain ⟨u, hu, eu, hut, _⟩ := hev.known e he
        rw [← eu, bare_state (mem_stateVars.2 ⟨hu, hut⟩)]
      · intro w' ⟨a1, a2⟩ v hv hk'
        rcases of_decide_eq_true hk' with h | ⟨f, hf, h2, h3⟩
        · rw [List.mem_singleton] at h
          rw [h, World.set_eq, a2]
        · obtain ⟨e, he, h4⟩ := List.mem_map.1 ((hpar v.name).2 ⟨f, hf, by simpa using h2, h3⟩)
          rw [World.set_ne _ (h4 ▸ hfree e he), bare_state hv, ← h4,
            a1 e he v (mem_stateVars.1 hv).1 h4.symm, ha0 e he v (mem_stateVars.1 hv).1 h4.symm]
      · intro w' w'' h ⟨a1, a2⟩
        refine ⟨(agrees_known (fun e he => ?_)).1 a1, ?_⟩
        · obtain ⟨u, hu, eu, hut, _⟩ := hev.known e he
          rw [← eu]
          obtain ⟨f, hf, h2, h3⟩ := (hpar e.1).1 (List.mem_map_of_mem he)
          exact h u (mem_stateVars.2 ⟨hu, hut⟩) (decide_eq_true (.inr ⟨f, hf, by simp [h2], eu ▸ h3⟩))
        · rw [← h d hds (decide_eq_true (.inl (by simp)))]
          exact a2
    rw [hbest]

namespace Ex

/-- The conditions hold for the umbrella network if the forecast is bad. -/
example (sch : NSched ℚ) (sch₂ : Nat → NSched ℚ) (stepwise : Bool) : ∃ t n',
    umb.solvePolicies sch stepwise = (.ok [("Umbrella", t)], n') ∧ ∃ y : Nat → ℚ,
      n'.Worth (sch₂ 0) [("Umbrella", "no"), ("Forecast", "bad")] "" true (y 0) ∧
      n'.Worth (sch₂ 1) [("Umbrella", "yes"), ("Forecast", "bad")] "" true (y 1) ∧
      ∀ w, umb.Allowed w → umb.Agrees [("Forecast", "bad")] w → umb.entry t (w.set "Umbrella" 1) =
        if 1 ∈ bestOutcomes 2 y then 1 / ((bestOutcomes 2 y).length : ℚ) else 0 := by
  obtain ⟨t, n', h1, h2⟩ := C153_whatif sch sch₂ umb_valid umb_solvable (d := umbDecision) (by decide) (by decide)
    (by decide) (by decide +kernel) (umb_matters "Umbrella" (by decide)) stepwise
  obtain ⟨y, b1, b2⟩ := h2 [("Forecast", "bad")] badForecast_ok (fun s => by
      constructor
      · intro h
        have h : s = "Forecast" := by simpa using h
        subst h
        decide
      · rintro ⟨f, hf, e1, e2⟩
        revert s
        revert f
        decide)
    ⟨fun s => if s = "Forecast" then 1 else 0, by unfold Net.Allowed; decide +kernel, by decide +kernel, by decide +kernel⟩
  exact ⟨t, n', h1, y, b1 0 (by decide), b1 1 (by decide), fun w hw ha => b2 w hw ha 1 (by decide)⟩

end Ex

end Bbn
