import Verif.Lemmas.Iso

/-!
# Only the content of a network matters

Names, the order of variables, tables, parents and outcomes do not.
-/

set_option autoImplicit false

namespace Bbn

open Finset

variable {α : Type}

section answers

variable [Field α] {n m : Net α} {r : String → String} {π : String → Nat → Nat} (h : n.SameContent m r π)
  (hn : n.Valid) (hm : m.Valid)

include h in
theorem iso_solved (hs : n.SamePolicies m r π) (hm : m.Valid) (hsol : n.AllSolved) : m.AllSolved := by
  intro v' hv' ht
  obtain ⟨v, hv, e1, e2, _⟩ := iso_back h hm hv'
  have := hsol v hv (by rw [← e2]; exact ht)
  unfold Net.hasPolicy mapGet at this ⊢
  rw [Option.isSome_map, List.find?_isSome] at this ⊢
  obtain ⟨p, hp, e⟩ := this
  obtain ⟨p', hp', e', _⟩ := hs.there p hp
  refine ⟨p', hp', ?_⟩
  simp only [decide_eq_true_eq] at e ⊢
  rw [e', e, e1]

include h hn hm in
/-- **C108, queries.** Networks with the same content give the same answers: if the variables and outcomes that are
observed and asked for correspond, each outcome gets the same probability. All map orders of both calls. -/
theorem C108_query [CharZero α] [DecidableEq α] (s1 s2 : NSched α) (hp : n.PoliciesOK) (hp' : m.PoliciesOK)
    (hs : n.SamePolicies m r π) {evidence evidence' : List (String × String)} (hev : n.EvidenceOK evidence)
    (he : n.SameEvidence m r π evidence evidence') {v : NVar} (hv : v ∈ n.variables) (hc : v.nodeType = .chance)
    (hfree : v.name ∉ evidence.map Prod.fst) (ign : Bool)
    (possible : n.mass (n.active evidence ign) (n.Agrees evidence) ≠ 0) :
    ∃ d d', n.Answers s1 evidence v.name ign d ∧ m.Answers s2 evidence' (r v.name) ign d' ∧ d'.length = d.length ∧
      d.length = v.outcomes.length ∧ ∀ k < v.outcomes.length, d'[π v.name k]? = d[k]? := by
  obtain ⟨d, a1, a2, a3⟩ := answers_mass s1 hn hp hev hv hc hfree ign possible
  obtain ⟨v', hv', e1, e2, e3⟩ := h.vars v hv
  have hfst : evidence'.map Prod.fst = evidence.map (fun e => r e.1) := by
    symm
    exact paired_map he (fun a _ b _ hab => hab.1.symm)
  have hmass : n.mass (n.active evidence ign) (n.Agrees evidence) = m.mass (m.active evidence' ign) (m.Agrees evidence') :=
    iso_sum h hn hm hp hp' hs hev he ign (fun w w' hw => by simp only [iso_agrees h hn hm hev he hw])
  obtain ⟨d', b1, b2, b3⟩ := answers_mass s2 hm hp' (iso_evidence h hev he) hv' (by rw [e2, hc]) (by
    rw [hfst, e1]
    intro hmem
    obtain ⟨e, hem, e'⟩ := List.mem_map.1 hmem
    obtain ⟨u, hu, eu, _⟩ := hev.known e hem
    refine hfree (List.mem_map.2 ⟨e, hem, ?_⟩)
    rw [← eu] at e' ⊢
    exact h.inj u hu v hv e') ign (by rw [← hmass]; exact possible)
  rw [e1] at b1
  refine ⟨d, d', a1, b1, by rw [a2, b2, e3], a2, fun k hk => ?_⟩
  have hk' := h.inside v hv k hk
  rw [a3 k hk, b3 _ (by rw [e3]; exact hk'), hmass, e1]
  congr 2
  symm
  refine iso_sum h hn hm hp hp' hs hev he ign (fun w w' hw => ?_)
  simp only [iso_agrees h hn hm hev he hw]
  obtain ⟨k1, k2⟩ := hw v hv (state_not_total hn (mem_stateVars.2 ⟨hv, by rw [hc]; decide⟩))
  have : w' (r v.name) = π v.name k ↔ w v.name = k := by
    rw [k2]
    exact ⟨fun e => h.apart v hv _ k1 _ hk e, fun e => by rw [e]⟩
  simp only [this]

include h hn hm in
/-- **C108, evidence.** Networks with the same content, in which all decisions are solved, give the same evidence the same
probability. -/
theorem C108_evidence [DecidableEq α] (s1 s2 : NSched α) (hp : n.PoliciesOK) (hp' : m.PoliciesOK)
    (hs : n.SamePolicies m r π) (hsol : n.AllSolved) {evidence evidence' : List (String × String)}
    (hev : n.EvidenceOK evidence) (he : n.SameEvidence m r π evidence evidence') (ign : Bool) :
    ∃ p, n.Likely s1 evidence ign p ∧ m.Likely s2 evidence' ign p := by
  refine ⟨_, likely_mass s1 hn hp hsol hev ign, ?_⟩
  have hmass : n.mass (n.active evidence ign) (n.Agrees evidence) = m.mass (m.active evidence' ign) (m.Agrees evidence') :=
    iso_sum h hn hm hp hp' hs hev he ign (fun w w' hw => by simp only [iso_agrees h hn hm hev he hw])
  rw [hmass]
  exact likely_mass s2 hm hp' (iso_solved h hs hm hsol) (iso_evidence h hev he) ign

include h hn hm in
/-- **C108, utilities.** Networks with the same content, in which all decisions are solved, give the same utilities, of
corresponding utility variables and in total. -/
theorem C108_utility [DecidableEq α] (s1 s2 : NSched α) (hp : n.PoliciesOK) (hp' : m.PoliciesOK)
    (hs : n.SamePolicies m r π) (hsol : n.AllSolved) {evidence evidence' : List (String × String)}
    (hev : n.EvidenceOK evidence) (he : n.SameEvidence m r π evidence evidence') (ign : Bool) {u u' : String}
    (hu : u = "" ∧ u' = "" ∧ n.utilityVars ≠ [] ∨ ∃ v ∈ n.utilityVars, v.name = u ∧ u' = r v.name) :
    ∃ x, n.Worth s1 evidence u ign x ∧ m.Worth s2 evidence' u' ign x := by
  have hperm := iso_utilityVars h hn hm
  have hu1 : u = "" ∧ n.utilityVars ≠ [] ∨ ∃ v ∈ n.utilityVars, v.name = u := by
    rcases hu with ⟨h1, _, h2⟩ | ⟨v, h1, h2, _⟩
    · exact .inl ⟨h1, h2⟩
    · exact .inr ⟨v, h1, h2⟩
  have hu2 : u' = "" ∧ m.utilityVars ≠ [] ∨ ∃ v ∈ m.utilityVars, v.name = u' := by
    rcases hu with ⟨_, h1, h2⟩ | ⟨v, h1, _, rfl⟩
    · refine .inl ⟨h1, fun h0 => h2 ?_⟩
      rw [h0] at hperm
      simpa using hperm
    · obtain ⟨v', hv', e⟩ := List.mem_map.1 (hperm.subset (List.mem_map_of_mem (f := fun v : NVar => r v.name) h1))
      exact .inr ⟨v', hv', e⟩
  refine ⟨_, worth_total s1 hn hp hsol hev hu1 ign, ?_⟩
  have := worth_total s2 hm hp' (iso_solved h hs hm hsol) (iso_evidence h hev he) hu2 ign
  rw [← iso_sum h hn hm hp hp' hs hev he ign (F := fun w => if n.Agrees evidence w then n.asked u w else 0)
    (fun w w' hw => ?_)] at this
  · exact this
  · simp only [iso_agrees h hn hm hev he hw]
    congr 1
    rcases hu with ⟨h1, h2, _⟩ | ⟨v, hv, h1, h2⟩
    · unfold Net.asked
      rw [if_pos h1, if_pos h2, iso_totalIn h hn hm hw]
    · have hv1 : v ∈ n.variables := (List.mem_filter.1 hv).1
      obtain ⟨v', hv', e1, _⟩ := h.vars v hv1
      unfold Net.asked
      rw [if_neg (by rw [← h1]; exact hn.named v hv1), if_neg (by rw [h2, ← e1]; exact hm.named v' hv'), h2, ← h1,
        iso_utilityIn h hn hm hv hw]

end answers

/-! ## Policies -/

section policies

variable [Field α] {n m : Net α} {r : String → String} {π : String → Nat → Nat}

/-- Having the same content is symmetric. -/
theorem Net.SameContent.symm (h : n.SameContent m r π) (hn : n.Valid) (hm : m.Valid) : ∃ r' π', m.SameContent n r' π' ∧
    (∀ v ∈ n.variables, r' (r v.name) = v.name) ∧ ∀ v' ∈ m.variables, r (r' v'.name) = v'.name := by
  classical
  let r' : String → String := fun s' => if hs : ∃ v ∈ n.variables, s' = r v.name then hs.choose.name else ""
  have hr : ∀ v ∈ n.variables, r' (r v.name) = v.name := by
    intro v hv
    have hs : ∃ u ∈ n.variables, r v.name = r u.name := ⟨v, hv, rfl⟩
    show (if hs : ∃ u ∈ n.variables, r v.name = r u.name then hs.choose.name else "") = v.name
    rw [dif_pos hs]
    obtain ⟨h1, h2⟩ := hs.choose_spec
    exact (h.inj v hv _ h1 h2).symm
  let π' : String → Nat → Nat := fun s' k' => if hs : ∃ k, k < n.count (r' s') ∧ π (r' s') k = k' then hs.choose else 0
  have hsurj : ∀ v ∈ n.variables, ∀ k' < v.outcomes.length, ∃ k < v.outcomes.length, π v.name k = k' := by
    intro v hv k' hk'
    have hinj : Set.InjOn (π v.name) (range v.outcomes.length : Set Nat) := by
      intro j hj k hk e
      rw [Finset.mem_coe, Finset.mem_range] at hj hk
      exact h.apart v hv j hj k hk e
    have himg : (range v.outcomes.length).image (π v.name) = range v.outcomes.length := by
      apply Finset.eq_of_subset_of_card_le
      · intro x hx
        obtain ⟨k, hk, rfl⟩ := Finset.mem_image.1 hx
        exact Finset.mem_range.2 (h.inside v hv k (Finset.mem_range.1 hk))
      · rw [Finset.card_image_of_injOn hinj]
    have : k' ∈ (range v.outcomes.length).image (π v.name) := by rw [himg]; exact Finset.mem_range.2 hk'
    obtain ⟨k, hk, e⟩ := Finset.mem_image.1 this
    exact ⟨k, Finset.mem_range.1 hk, e⟩
  have hπ : ∀ v ∈ n.variables, ∀ k' < v.outcomes.length, π' (r v.name) k' < v.outcomes.length ∧
      π v.name (π' (r v.name) k') = k' := by
    intro v hv k' hk'
    have hs : ∃ k, k < n.count (r' (r v.name)) ∧ π (r' (r v.name)) k = k' := by
      rw [hr v hv, count_eq hn hv]; exact hsurj v hv k' hk'
    have e : π' (r v.name) k' = hs.choose := dif_pos hs
    have := hs.choose_spec
    rw [← e, hr v hv, count_eq hn hv] at this
    exact this
  have hw : ∀ w w', m.SameOutcomes r' π' w' w → n.SameOutcomes r π w w' := by
    intro w w' hw v hv ht
    obtain ⟨v', hv', e1, e2, e3⟩ := h.vars v hv
    obtain ⟨h1, h2⟩ := hw v' hv' (by rw [e1]; exact fun e => ht ((iso_total h hn hm hv).1 e))
    rw [e1] at h1 h2
    rw [e3] at h1
    rw [hr v hv] at h2
    obtain ⟨h3, h4⟩ := hπ v hv _ h1
    rw [h2]
    exact ⟨h3, h4.symm⟩
  refine ⟨r', π', ⟨?_, ?_, ?_, ?_, ?_, ?_, ?_, h.hasTotal.symm, ?_, ?_⟩, hr, ?_⟩
  · intro v' hv'
    obtain ⟨v, hv, e1, e2, e3⟩ := iso_back h hm hv'
    exact ⟨v, hv, by rw [e1, hr v hv], e2.symm, e3.symm⟩
  · intro v hv
    obtain ⟨v', hv', e1, _⟩ := h.vars v hv
    exact ⟨v', hv', by rw [e1, hr v hv]⟩
  · intro v' hv' u' hu' e
    obtain ⟨v, hv, e1, _⟩ := iso_back h hm hv'
    obtain ⟨u, hu, e2, _⟩ := iso_back h hm hu'
    rw [e1, e2, hr v hv, hr u hu] at e
    rw [e1, e2, e]
  · intro v' hv' k hk
    obtain ⟨v, hv, e1, _, e3⟩ := iso_back h hm hv'
    rw [e3] at hk ⊢
    rw [e1]
    exact (hπ v hv k hk).1
  · intro v' hv' j hj k hk e
    obtain ⟨v, hv, e1, _, e3⟩ := iso_back h hm hv'
    rw [e3] at hj hk
    rw [e1] at e
    rw [← (hπ v hv j hj).2, ← (hπ v hv k hk).2, e]
  · intro f' hf' ht
    obtain ⟨f, hf, e⟩ := h.noOther f' hf' ht
    obtain ⟨v, hv, ev⟩ := hn.known f hf
    have htn : f.forVar ≠ n.totalName := by
      intro e'
      rw [← ev] at e e'
      exact ht (by rw [e]; exact (iso_total h hn hm hv).2 e')
    obtain ⟨k1, k2⟩ := iso_table h hm hf htn hf' e
    refine ⟨f, hf, by rw [e, ← ev, hr v hv], ?_, fun hd w' w hww => ?_⟩
    · have := (k1.map r').symm
      rw [List.map_map] at this
      have hid : f.given.map (r' ∘ r) = f.given := by
        conv_rhs => rw [← List.map_id f.given]
        apply List.map_congr_left
        intro g hg
        obtain ⟨u, hu, eu, _⟩ := hn.parents f hf htn g hg
        rw [← eu]; exact hr u hu
      rwa [hid] at this
    · rw [e, ← ev, iso_isKind h hn hm hv, ev] at hd
      exact (k2 hd w w' (hw w w' hww)).symm
  · intro f hf ht
    obtain ⟨f', hf', e, _⟩ := h.tables f hf ht
    obtain ⟨v, hv, ev⟩ := hn.known f hf
    exact ⟨f', hf', by rw [e, ← ev, hr v hv]⟩
  · intro hne
    have hne' : n.totalUtility ≠ none := fun e => hne (h.hasTotal.2 e)
    cases hi : n.totalUtility with
    | none => exact absurd hi hne'
    | some i =>
      obtain ⟨t, ht, et⟩ := total_isVar hn hi
      rw [h.total hne', ← et, hr t ht]
  · intro u' hu'
    obtain ⟨u, hu, e⟩ := List.mem_map.1 ((iso_utilityVars h hn hm).symm.subset (List.mem_map_of_mem hu'))
    have hun : u ∈ n.variables := (List.mem_filter.1 hu).1
    rw [← e, hr u hun, h.weights u hu]
  · intro v' hv'
    obtain ⟨v, hv, e1, _⟩ := iso_back h hm hv'
    rw [e1, hr v hv]

section one

variable (h : n.SameContent m r π) (hn : n.Valid) (hm : m.Valid)

include h hn hm in
theorem iso_decision {d : String} (hd : d ∈ n.decisions) : r d ∈ m.decisions := by
  rw [mem_decisions] at hd ⊢
  obtain ⟨v, hv, rfl, ht⟩ := isKind_mem.1 hd
  rw [iso_isKind h hn hm hv]; exact hd

include h hn hm in
theorem iso_decisions : (n.decisions.map r).Perm m.decisions := by
  unfold Net.decisions
  rw [List.map_map]
  refine names_perm (hn.names.sublist (List.filter_sublist.map _)) (hm.names.sublist (List.filter_sublist.map _))
    (fun v hv u hu => h.inj v (List.mem_filter.1 hv).1 u (List.mem_filter.1 hu).1) (fun v hv => ?_) (fun v' hv' => ?_)
  · obtain ⟨h1, h2⟩ := List.mem_filter.1 hv
    obtain ⟨v', hv', e1, e2, _⟩ := h.vars v h1
    exact ⟨v', List.mem_filter.2 ⟨hv', by rw [e2]; exact h2⟩, e1⟩
  · obtain ⟨h1, h2⟩ := List.mem_filter.1 hv'
    obtain ⟨v, hv, e1, e2, _⟩ := iso_back h hm h1
    exact ⟨v, List.mem_filter.2 ⟨hv, by rw [← e2]; exact h2⟩, e1⟩

omit [Field α] in
theorem decision_var {d : String} (hd : d ∈ n.decisions) : ∃ v ∈ n.variables, v.name = d ∧ v.nodeType = .decision :=
  isKind_mem.1 (mem_decisions.1 hd)

omit [Field α] in
theorem decision_table_not_total (hn : n.Valid) {f : NFactor α} (hd : f.forVar ∈ n.decisions) : f.forVar ≠ n.totalName := by
  obtain ⟨v, hv, e, ht⟩ := decision_var hd
  rw [← e]
  exact state_not_total hn (mem_stateVars.2 ⟨hv, by rw [ht]; decide⟩)

omit [Field α] in
theorem known_var (hn : n.Valid) {ds : List String} (hds : ∀ d ∈ ds, d ∈ n.decisions) {s : String} (hs : n.Known ds s) :
    ∃ v ∈ n.variables, v.name = s ∧ v.nodeType ≠ .utility := by
  rcases hs with hs | ⟨f, hf, h1, h2⟩
  · obtain ⟨v, hv, e, ht⟩ := decision_var (hds s hs)
    exact ⟨v, hv, e, by rw [ht]; decide⟩
  · exact hn.parents f hf (decision_table_not_total hn (hds _ h1)) s h2

include h hn hm in
theorem iso_unknown {ds : List String} (hds : ∀ d ∈ ds, d ∈ n.decisions) {v : NVar} (hv : v ∈ n.variables)
    (hs : m.Known (ds.map r) (r v.name)) : n.Known ds v.name := by
  have hinj : ∀ d ∈ ds, r d = r v.name → d = v.name := by
    intro d hd e
    obtain ⟨u, hu, rfl, _⟩ := decision_var (hds d hd)
    exact h.inj u hu v hv e
  rcases hs with hs | ⟨f', hf', h1, h2⟩
  · obtain ⟨d, hd, e⟩ := List.mem_map.1 hs
    exact .inl (by rw [← hinj d hd e]; exact hd)
  · obtain ⟨d, hd, e⟩ := List.mem_map.1 h1
    have hd' := iso_decision h hn hm (hds d hd)
    rw [e] at hd'
    obtain ⟨f, hf, e'⟩ := h.noOther f' hf' (decision_table_not_total hm hd')
    have efd : f.forVar = d := by
      obtain ⟨u, hu, rfl, _⟩ := decision_var (hds d hd)
      obtain ⟨x, hx, ex⟩ := hn.known f hf
      rw [e', ← ex] at e
      rw [← ex]; exact (h.inj u hu x hx e).symm
    have hfd : f.forVar ∈ n.decisions := by rw [efd]; exact hds d hd
    have hnt := decision_table_not_total hn hfd
    obtain ⟨k1, _⟩ := iso_table h hm hf hnt hf' e'
    obtain ⟨g, hg, eg⟩ := List.mem_map.1 (k1.subset h2)
    obtain ⟨u, hu, eu, _⟩ := hn.parents f hf hnt g hg
    rw [← eu] at eg
    have := h.inj u hu v hv eg
    exact .inr ⟨f, hf, by rw [efd]; exact hd, by rw [← this, eu]; exact hg⟩

include h hn hm in
theorem iso_parent {p d : String} (hp : n.DecisionParent p d) : m.DecisionParent (r p) (r d) := by
  obtain ⟨h1, h2, f, hf, rfl, h3⟩ := hp
  obtain ⟨f', hf', e1, e2, _⟩ := h.tables f hf (decision_table_not_total hn (mem_decisions.2 h2))
  exact ⟨mem_decisions.1 (iso_decision h hn hm (mem_decisions.2 h1)),
    mem_decisions.1 (iso_decision h hn hm (mem_decisions.2 h2)), f', hf', e1, e2.symm.subset (List.mem_map_of_mem h3)⟩

include h hn hm in
theorem iso_matters {ds : List String} (hds : ∀ d ∈ ds, d ∈ n.decisions) {s : String} (hs : n.Matters ds s) :
    m.Matters (ds.map r) (r s) := by
  induction hs with
  | @utility f s hf hu ht hs =>
    obtain ⟨f', hf', e1, e2, _⟩ := h.tables f hf ht
    obtain ⟨v, hv, ev⟩ := hn.known f hf
    refine .utility hf' ?_ ?_ (e2.symm.subset (List.mem_map_of_mem hs))
    · rw [e1, ← ev, iso_isKind h hn hm hv, ev]; exact hu
    · rw [e1, ← ev]
      exact fun e => ht (by rw [← ev]; exact (iso_total h hn hm hv).1 e)
  | @chance f u s hf hu hc hk _ hs ih =>
    obtain ⟨hf1, hf2⟩ := mem_chanceTables.1 hf
    obtain ⟨f', hf', e1, e2, _⟩ := h.tables f hf1 (chance_not_total hn (one_kind hn hf2 (by decide)) (hn.known f hf1))
    obtain ⟨v, hv, ev⟩ := hn.known f hf1
    have hdims : ∀ x ∈ f.dims, r x ∈ f'.dims := by
      intro x hx
      unfold NFactor.dims at hx ⊢
      rw [List.mem_append] at hx ⊢
      rcases hx with hx | hx
      · exact .inl (e2.symm.subset (List.mem_map_of_mem hx))
      · right; rw [List.mem_singleton] at hx ⊢; rw [hx, e1]
    obtain ⟨x, hx, ex, _⟩ := isKind_mem.1 hc
    refine .chance (mem_chanceTables.2 ⟨hf', ?_⟩) (hdims u hu) ?_ (fun hk' => hk ?_) ih (hdims s hs)
    · rw [e1, ← ev, iso_isKind h hn hm hv, ev]; exact hf2
    · rw [← ex, iso_isKind h hn hm hx, ex]; exact hc
    · rw [← ex] at hk' ⊢
      exact iso_unknown h hn hm hds hx hk'

include h hn hm in
/-- Strategies carry over, with the same expected total utility. -/
theorem iso_strategies [LinearOrder α] [IsStrictOrderedRing α] {o : List String} (ho : o.Perm n.decisions)
    {δ' : String → World → α} (hδ : ∀ A d B, o.map r = A ++ d :: B → m.Strategy A d (δ' d)) :
    ∃ δ : String → World → α, (∀ A d B, o = A ++ d :: B → n.Strategy A d (δ d)) ∧
      n.expectedTotal δ = m.expectedTotal δ' := by
  classical
  let tr : World → World := fun w s' => if hs : ∃ v ∈ n.variables, s' = r v.name then π hs.choose.name (w hs.choose.name) else 0
  have htr : ∀ w, ∀ v ∈ n.variables, tr w (r v.name) = π v.name (w v.name) := by
    intro w v hv
    have hs : ∃ u ∈ n.variables, r v.name = r u.name := ⟨v, hv, rfl⟩
    have e : tr w (r v.name) = π hs.choose.name (w hs.choose.name) := dif_pos hs
    rw [e, ← h.inj v hv _ hs.choose_spec.1 hs.choose_spec.2]
  have hall : ∀ w, n.Allowed w → m.Allowed (tr w) := by
    intro w hw v' hv'
    obtain ⟨v, hv, e1, e2, e3⟩ := iso_back h hm (mem_stateVars.1 hv').1
    rw [e1, htr w v hv, e3]
    exact h.inside v hv _ (hw v (mem_stateVars.2 ⟨hv, by rw [← e2]; exact (mem_stateVars.1 hv').2⟩))
  have hst : ∀ A d B, o = A ++ d :: B → m.Strategy (A.map r) (r d) (δ' (r d)) := by
    intro A d B e
    exact hδ (A.map r) (r d) (B.map r) (by rw [e]; simp)
  have hdec : ∀ d ∈ o, d ∈ n.decisions := fun d hd => ho.subset hd
  refine ⟨fun d w => δ' (r d) (tr w), fun A d B e => ⟨?_, ?_, ?_⟩, ?_⟩
  · intro w hw
    exact (hst A d B e).nonneg _ (hall w hw)
  · intro w hw
    obtain ⟨v, hv, ev, ht⟩ := decision_var (hdec d (by rw [e]; simp))
    have := (hst A d B e).one _ (hall w hw)
    rw [← ev, iso_count h hn hm hv, count_eq hn hv,
      ← sum_moved (h.inside v hv) (h.apart v hv) (fun k => δ' (r v.name) ((tr w).set (r v.name) k))] at this
    rw [← ev, count_eq hn hv, ← this]
    apply Finset.sum_congr rfl
    intro k _
    show δ' (r v.name) (tr (w.set v.name k)) = _
    congr 1
    funext s'
    by_cases hs : ∃ u ∈ n.variables, s' = r u.name
    · obtain ⟨u, hu, rfl⟩ := hs
      rw [htr (w.set v.name k) u hu]
      unfold World.set
      by_cases e' : u.name = v.name
      · rw [e', if_pos rfl, if_pos rfl]
      · rw [if_neg e', if_neg (fun e2 => e' (h.inj u hu v hv e2)), htr w u hu]
    · have hne : s' ≠ r v.name := fun e' => hs ⟨v, hv, e'⟩
      unfold World.set
      rw [if_neg hne]
      show (if hs : _ then _ else _) = (if hs : _ then _ else _)
      rw [dif_neg hs, dif_neg hs]
  · intro w w₂ hw hw₂ hk
    refine (hst A d B e).known _ _ (hall w hw) (hall w₂ hw₂) (fun s' hs' => ?_)
    have hds : ∀ x ∈ A ++ [d], x ∈ n.decisions := by
      intro x hx
      refine hdec x ?_
      rw [e]
      simp only [List.mem_append, List.mem_cons] at hx ⊢
      tauto
    have hs2 : m.Known ((A ++ [d]).map r) s' := by simpa using hs'
    have hds' : ∀ x ∈ (A ++ [d]).map r, x ∈ m.decisions := by
      intro x hx
      obtain ⟨y, hy, rfl⟩ := List.mem_map.1 hx
      exact iso_decision h hn hm (hds y hy)
    obtain ⟨v', hv', ev', _⟩ := known_var hm hds' hs2
    obtain ⟨v, hv, e1, _⟩ := iso_back h hm hv'
    rw [← ev', e1] at hs2 ⊢
    rw [htr w v hv, htr w₂ v hv, hk v.name (iso_unknown h hn hm hds hv hs2)]
  · unfold Net.expectedTotal
    have hstr : ∀ d' ∈ m.decisions, ∃ A d B, o = A ++ d :: B ∧ d' = r d := by
      intro d' hd'
      obtain ⟨d, hd, rfl⟩ := List.mem_map.1 ((iso_decisions h hn hm).symm.subset hd')
      obtain ⟨A, B, e⟩ := List.append_of_mem (ho.symm.subset hd)
      exact ⟨A, d, B, e, rfl⟩
    refine iso_worlds h hn hm (fun w w' hw => ?_)
    rw [iso_chance h hn hm hw, iso_totalIn h hn hm hw]
    congr 1
    have hwa : n.Allowed w := fun v hv => (hw v (mem_stateVars.1 hv).1 (state_not_total hn hv)).1
    have hwa' : m.Allowed w' := by
      intro v' hv'
      obtain ⟨v, hv, e1, e2, e3⟩ := iso_back h hm (mem_stateVars.1 hv').1
      have hvs : v ∈ n.stateVars := mem_stateVars.2 ⟨hv, by rw [← e2]; exact (mem_stateVars.1 hv').2⟩
      rw [e1, (hw v hv (state_not_total hn hvs)).2, e3]
      exact h.inside v hv _ (hwa v hvs)
    rw [← ((iso_decisions h hn hm).map (fun d' => δ' d' w')).prod_eq, List.map_map]
    congr 1
    apply List.map_congr_left
    intro d hd
    obtain ⟨A, B, e⟩ := List.append_of_mem (ho.symm.subset hd)
    refine (hst A d B e).known _ _ (hall w hwa) hwa' (fun s' hs' => ?_)
    have hds' : ∀ x ∈ A.map r ++ [r d], x ∈ m.decisions := by
      intro x hx
      rw [show A.map r ++ [r d] = (A ++ [d]).map r by simp] at hx
      obtain ⟨y, hy, rfl⟩ := List.mem_map.1 hx
      refine iso_decision h hn hm (hdec y ?_)
      rw [e]
      simp only [List.mem_append, List.mem_cons] at hy ⊢
      tauto
    obtain ⟨v', hv', ev', ht'⟩ := known_var hm hds' hs'
    obtain ⟨v, hv, e1, e2, _⟩ := iso_back h hm hv'
    have hvs : v ∈ n.stateVars := mem_stateVars.2 ⟨hv, by rw [← e2]; exact ht'⟩
    rw [← ev', e1, htr w v hv, (hw v hv (state_not_total hn hvs)).2]

end one

/-- **C108, decisions.** Networks with the same content have decisions that are worth the same: after `SolvePolicies`,
`SolveUtility` reports the same expected utility (if the declared order of the decisions leaves no choice). -/
theorem C108_decisions [LinearOrder α] [IsStrictOrderedRing α] (sch sch₁ sch' sch₁' : NSched α)
    (h : n.SameContent m r π) (hn : n.Valid) (hm : m.Valid) (hs : n.Solvable) (hd : n.decisions ≠ []) (hl : n.InLine)
    (hnn : ∀ f ∈ n.chanceTables, ∀ x ∈ f.tab, 0 ≤ x) (hnn' : ∀ f ∈ m.chanceTables, ∀ x ∈ f.tab, 0 ≤ x)
    (hmat : ∀ order, order.Perm n.decisions → n.Ordered order → ∀ A d B, order = A ++ d :: B → n.Matters (A ++ [d]) d)
    (ign ign₁ : Bool) :
    ∃ tables n' g n'' tables₁ m' g₁ m'' x,
      n.solvePolicies sch false = (.ok tables, n') ∧ n'.solveUtility sch' [] [] "" ign = (.ok g, n'') ∧ g.data = [x] ∧
      m.solvePolicies sch₁ false = (.ok tables₁, m') ∧ m'.solveUtility sch₁' [] [] "" ign₁ = (.ok g₁, m'') ∧
      g₁.data = [x] := by
  obtain ⟨r', π', h', hr, hr'⟩ := h.symm hn hm
  have hperm := iso_decisions h hn hm
  have hperm' := iso_decisions h' hm hn
  have back : ∀ o' : List String, o'.Perm m.decisions → (o'.map r').map r = o' := by
    intro o' hp
    rw [List.map_map]
    conv_rhs => rw [← List.map_id o']
    apply List.map_congr_left
    intro d hd
    obtain ⟨v, hv, rfl, _⟩ := decision_var (hp.subset hd)
    exact hr' v hv
  have hord : ∀ o' : List String, o'.Perm m.decisions → m.Ordered o' → n.Ordered (o'.map r') := by
    intro o' hp ho A d B e p hpd
    have e2 := congrArg (List.map r) e
    rw [back o' hp] at e2
    simp only [List.map_append, List.map_cons] at e2
    have := ho _ _ _ e2 (r p) (iso_parent h hn hm hpd)
    obtain ⟨q, hq, eq⟩ := List.mem_map.1 this
    have hqd : q ∈ n.decisions := by
      have : q ∈ o'.map r' := by rw [e]; simp [hq]
      exact hperm'.subset ((hp.map r').subset this)
    obtain ⟨v, hv, ev, _⟩ := decision_var hqd
    obtain ⟨u, hu, eu, _⟩ := isKind_mem.1 hpd.1
    rw [← ev, ← eu] at eq
    rw [← eu, ← h.inj v hv u hu eq, ev]
    exact hq
  have hsm : m.Solvable := by
    refine ⟨⟨?_, ?_⟩, ?_⟩
    · intro v' hv' ht
      obtain ⟨v, hv, e1, e2, _⟩ := iso_back h hm hv'
      obtain ⟨f, hf, k1, k2, k3⟩ := hs.used v hv (by rw [← e2]; exact ht)
      obtain ⟨f', hf', e3, e4, _⟩ := h.tables f hf k1
      obtain ⟨u, hu, eu⟩ := hn.known f hf
      refine ⟨f', hf', ?_, ?_, by rw [e1]; exact e4.symm.subset (List.mem_map_of_mem k3)⟩
      · rw [e3, ← eu]
        exact fun e => k1 (by rw [← eu]; exact (iso_total h hn hm hu).1 e)
      · rw [e3, ← eu, iso_isKind h hn hm hu, eu]; exact k2
    · intro s hc
      exact hs.acyclic (r' s) (Relation.TransGen.lift r' (fun a b hab => iso_parent h' hm hn hab) _ _ hc)
    · intro h0
      have := iso_utilityVars h hn hm
      rw [h0] at this
      exact hs.utility (by simpa using this)
  have hdm : m.decisions ≠ [] := by
    intro h0
    rw [h0] at hperm
    exact hd (by simpa using hperm)
  obtain ⟨tables, n', o, k1, k2, k3, k3', k4, g, n'', k5, k6⟩ := C81_optimal sch sch' hn hs hd hnn hmat
    (stepwise := false) (by simp) ign
  obtain ⟨tables₁, m', o', l1, l2, l3, l3', l4, g₁, m'', l5, l6⟩ := C81_optimal sch₁ sch₁' hm hsm hdm hnn' (by
    intro o' hp ho A d B e
    have e2 := congrArg (List.map r') e
    simp only [List.map_append, List.map_cons] at e2
    have hp2 : (o'.map r').Perm n.decisions := (hp.map r').trans hperm'
    have := hmat (o'.map r') hp2 (hord o' hp ho) _ _ _ e2
    have hds : ∀ x ∈ A.map r' ++ [r' d], x ∈ n.decisions := by
      intro x hx
      refine hp2.subset ?_
      rw [e2]
      simp only [List.mem_append, List.mem_cons] at hx ⊢
      tauto
    have := iso_matters h hn hm hds this
    have hsub : ∀ x ∈ A ++ [d], r (r' x) = x := by
      intro x hx
      have : x ∈ m.decisions := by
        refine hp.subset ?_
        rw [e]
        simp only [List.mem_append, List.mem_cons] at hx ⊢
        tauto
      obtain ⟨v, hv, rfl, _⟩ := decision_var this
      exact hr' v hv
    have e3 : (A.map r' ++ [r' d]).map r = A ++ [d] := by
      rw [show A.map r' ++ [r' d] = (A ++ [d]).map r' by simp, List.map_map]
      conv_rhs => rw [← List.map_id (A ++ [d])]
      exact List.map_congr_left hsub
    rw [e3, hsub d (by simp)] at this
    exact this) (stepwise := false) (by simp) ign₁
  have ho : o'.map r' = o := hl.unique hn ((l2.map r').trans hperm') k2 (hord o' l2 l3) k3
  have ho' : o.map r = o' := by rw [← ho, back o' l2]
  refine ⟨tables, n', g, n'', tables₁, m', g₁, m'', _, k1, k5, k6, l1, l5, ?_⟩
  rw [l6]
  congr 1
  apply le_antisymm
  · obtain ⟨δ, d1, d2⟩ := iso_strategies h hn hm k2 (δ' := m.byTables tables₁) (fun A d B e =>
      (l3' A d B (by rw [← ho']; exact e)).1)
    rw [← d2]
    exact k4 δ d1
  · obtain ⟨δ, d1, d2⟩ := iso_strategies h' hm hn l2 (δ' := n.byTables tables) (fun A d B e =>
      (k3' A d B (by rw [← ho]; exact e)).1)
    rw [← d2]
    exact l4 δ d1

end policies

namespace Ex

/-- The umbrella network in German, with the variables, tables, parents and some of the outcomes in another order. -/
def schirm : Net ℚ where
  name := "Schirm"
  info := ""
  «variables» := [⟨"Summe", .utility, ["Wohl", "Last"], (0, 0), "", some 0⟩, ⟨"Last", .utility, ["Last"], (0, 0), "", some 4⟩,
    ⟨"Wohl", .utility, ["Wohl"], (0, 0), "", some 5⟩, ⟨"Schirm", .decision, ["ja", "nein"], (0, 0), "", some 3⟩,
    ⟨"Wetter", .chance, ["Regen", "Sonne"], (0, 0), "", some 2⟩, ⟨"Bericht", .chance, ["gut", "schlecht"], (0, 0), "", some 1⟩]
  factors := [⟨"Summe", ["Wohl", "Last"], some [1, 2], [1, 1], 2⟩, ⟨"Bericht", ["Wetter"], some [1, 9, 8, 2], [2], 2⟩,
    ⟨"Wetter", [], some [30, 70], [], 2⟩, ⟨"Schirm", ["Bericht"], none, [2], 2⟩, ⟨"Last", ["Schirm"], some [-5, 0], [2], 1⟩,
    ⟨"Wohl", ["Schirm", "Wetter"], some [70, 20, 0, 100], [2, 2], 1⟩]
  policies := []
  vs := none
  names := []
  totalUtility := some 0

theorem schirm_new : newNet "Schirm" "" [nv "Summe" .utility ["Wohl", "Last"], nv "Last" .utility ["Last"],
    nv "Wohl" .utility ["Wohl"], nv "Schirm" .decision ["ja", "nein"], nv "Wetter" .chance ["Regen", "Sonne"],
    nv "Bericht" .chance ["gut", "schlecht"]] [nf "Summe" ["Wohl", "Last"] [1, 2], nf "Bericht" ["Wetter"] [1, 9, 8, 2],
    nf "Wetter" [] [30, 70], ⟨"Schirm", ["Bericht"], none, [], 0⟩, nf "Last" ["Schirm"] [-5, 0],
    nf "Wohl" ["Schirm", "Wetter"] [70, 20, 0, 100]] = .ok schirm := rfl

theorem schirm_valid : schirm.Valid where
  names := by decide
  named := by decide
  few := by decide
  outcomes := by decide
  tables := by decide
  hasTable := by decide
  known := by decide
  dims := by decide
  parents := by decide
  size := by
    intro f hf h1 h2
    simp only [schirm, List.mem_cons, List.not_mem_nil, or_false] at hf
    rcases hf with rfl | rfl | rfl | rfl | rfl | rfl
    · exact absurd rfl h1
    · exact ⟨_, rfl, by decide⟩
    · exact ⟨_, rfl, by decide⟩
    · exact absurd h2 (by decide)
    · exact ⟨_, rfl, by decide⟩
    · exact ⟨_, rfl, by decide⟩
  single := by decide
  weights := by
    intro i hi
    obtain rfl : 0 = i := Option.some.inj hi
    exact ⟨_, 0, _, rfl, rfl, rfl, rfl, rfl, by decide, by decide⟩

/-- The German names. -/
def inGerman (s : String) : String :=
  if s = "Weather" then "Wetter" else if s = "Forecast" then "Bericht" else if s = "Umbrella" then "Schirm"
  else if s = "Total" then "Summe" else if s = "Comfort" then "Wohl" else "Last"

/-- The new positions of the outcomes. -/
def swapped (s : String) (k : Nat) : Nat := if s = "Weather" ∨ s = "Umbrella" then 1 - k else k

theorem umb_schirm : umb.SameContent schirm inGerman swapped where
  vars := by decide
  onto := by decide
  inj := by decide
  inside := by decide
  apart := by decide
  tables := by
    intro f hf ht
    have hv : ∀ {w w' : World}, umb.SameOutcomes inGerman swapped w w' →
        (w "Weather" < 2 ∧ w' "Wetter" = 1 - w "Weather") ∧ (w "Forecast" < 2 ∧ w' "Bericht" = w "Forecast") ∧
        (w "Umbrella" < 2 ∧ w' "Schirm" = 1 - w "Umbrella") ∧ (w "Comfort" < 1 ∧ w' "Wohl" = w "Comfort") ∧
        (w "Effort" < 1 ∧ w' "Last" = w "Effort") := by
      intro w w' hw
      exact ⟨hw ⟨"Weather", .chance, ["sun", "rain"], (0, 0), "", some 0⟩ (by decide) (by decide),
        hw ⟨"Forecast", .chance, ["good", "bad"], (0, 0), "", some 1⟩ (by decide) (by decide),
        hw ⟨"Umbrella", .decision, ["no", "yes"], (0, 0), "", some 2⟩ (by decide) (by decide),
        hw ⟨"Comfort", .utility, ["comfort"], (0, 0), "", some 3⟩ (by decide) (by decide),
        hw ⟨"Effort", .utility, ["effort"], (0, 0), "", some 4⟩ (by decide) (by decide)⟩
    simp only [umb, List.mem_cons, List.not_mem_nil, or_false] at hf
    rcases hf with rfl | rfl | rfl | rfl | rfl | rfl
    · refine ⟨⟨"Wetter", [], some [30, 70], [], 2⟩, by decide, rfl, by decide, fun _ w w' hw => ?_⟩
      obtain ⟨⟨a, a'⟩, ⟨b, b'⟩, ⟨c, c'⟩, ⟨d, d'⟩, ⟨e, e'⟩⟩ := hv hw
      show [(30 : ℚ), 70].getD (w' "Wetter" * 1 + 0) 0 = [(70 : ℚ), 30].getD (w "Weather" * 1 + 0) 0
      rw [a']
      interval_cases w "Weather" <;> rfl
    · refine ⟨⟨"Bericht", ["Wetter"], some [1, 9, 8, 2], [2], 2⟩, by decide, rfl, by decide, fun _ w w' hw => ?_⟩
      obtain ⟨⟨a, a'⟩, ⟨b, b'⟩, ⟨c, c'⟩, ⟨d, d'⟩, ⟨e, e'⟩⟩ := hv hw
      show [(1 : ℚ), 9, 8, 2].getD (w' "Wetter" * 2 + (w' "Bericht" * 1 + 0)) 0 =
        [(8 : ℚ), 2, 1, 9].getD (w "Weather" * 2 + (w "Forecast" * 1 + 0)) 0
      rw [a', b']
      interval_cases w "Weather" <;> interval_cases w "Forecast" <;> rfl
    · exact ⟨⟨"Schirm", ["Bericht"], none, [2], 2⟩, by decide, rfl, by decide, fun h => absurd h (by decide)⟩
    · refine ⟨⟨"Wohl", ["Schirm", "Wetter"], some [70, 20, 0, 100], [2, 2], 1⟩, by decide, rfl, by decide, fun _ w w' hw => ?_⟩
      obtain ⟨⟨a, a'⟩, ⟨b, b'⟩, ⟨c, c'⟩, ⟨d, d'⟩, ⟨e, e'⟩⟩ := hv hw
      show [(70 : ℚ), 20, 0, 100].getD (w' "Schirm" * 2 + (w' "Wetter" * 1 + (w' "Wohl" * 1 + 0))) 0 =
        [(100 : ℚ), 20, 0, 70].getD (w "Weather" * 2 + (w "Umbrella" * 1 + (w "Comfort" * 1 + 0))) 0
      rw [a', c', d']
      interval_cases w "Weather" <;> interval_cases w "Umbrella" <;> interval_cases w "Comfort" <;> rfl
    · refine ⟨⟨"Last", ["Schirm"], some [-5, 0], [2], 1⟩, by decide, rfl, by decide, fun _ w w' hw => ?_⟩
      obtain ⟨⟨a, a'⟩, ⟨b, b'⟩, ⟨c, c'⟩, ⟨d, d'⟩, ⟨e, e'⟩⟩ := hv hw
      show [(-5 : ℚ), 0].getD (w' "Schirm" * 1 + (w' "Last" * 1 + 0)) 0 =
        [(0 : ℚ), -5].getD (w "Umbrella" * 1 + (w "Effort" * 1 + 0)) 0
      rw [c', e']
      interval_cases w "Umbrella" <;> interval_cases w "Effort" <;> rfl
    · exact absurd rfl ht
  noOther := by decide
  hasTotal := by decide
  total := by decide
  weights := by decide +kernel

/-- The German network with the same policy. -/
def schirmSolved : Net ℚ :=
  { schirm with policies := [("Schirm", ⟨7, [0, 1, 1, 0], [⟨5, 4, 2, .chance⟩, ⟨3, 2, 2, .decision⟩]⟩)] }

theorem schirmSolved_valid : schirmSolved.Valid :=
  ⟨schirm_valid.names, schirm_valid.named, schirm_valid.few, schirm_valid.outcomes, schirm_valid.tables,
    schirm_valid.hasTable, schirm_valid.known, schirm_valid.dims, schirm_valid.parents, schirm_valid.size,
    schirm_valid.single, schirm_valid.weights⟩

theorem schirmSolved_policies : schirmSolved.PoliciesOK where
  keys := by decide
  wf := by
    intro p hp
    simp only [schirmSolved, List.mem_singleton] at hp
    subst hp
    exact ⟨by decide, by decide⟩
  decision := by
    intro p hp
    simp only [schirmSolved, List.mem_singleton] at hp
    subst hp
    exact ⟨3, _, rfl, rfl, rfl, by decide⟩
  vars := by
    intro p hp w hw
    simp only [schirmSolved, List.mem_singleton] at hp
    subst hp
    simp only [List.mem_cons, List.not_mem_nil, or_false] at hw
    rcases hw with rfl | rfl
    · exact ⟨_, rfl, by decide, by decide, rfl, .inl rfl⟩
    · exact ⟨_, rfl, by decide, by decide, rfl, .inl rfl⟩

theorem solved_content : umbSolved.SameContent schirmSolved inGerman swapped where
  vars := umb_schirm.vars
  onto := umb_schirm.onto
  inj := umb_schirm.inj
  inside := umb_schirm.inside
  apart := umb_schirm.apart
  tables := umb_schirm.tables
  noOther := umb_schirm.noOther
  hasTotal := umb_schirm.hasTotal
  total := umb_schirm.total
  weights := umb_schirm.weights

theorem solved_policies : umbSolved.SamePolicies schirmSolved inGerman swapped where
  there := by
    intro p hp
    simp only [umbSolved, List.mem_singleton] at hp
    subst hp
    refine ⟨_, List.mem_singleton.2 rfl, rfl, fun w w' hw => ?_⟩
    obtain ⟨b, b'⟩ := hw ⟨"Forecast", .chance, ["good", "bad"], (0, 0), "", some 1⟩ (by decide) (by decide)
    obtain ⟨c, c'⟩ := hw ⟨"Umbrella", .decision, ["no", "yes"], (0, 0), "", some 2⟩ (by decide) (by decide)
    have b : w "Forecast" < 2 := b
    have b' : w' "Bericht" = w "Forecast" := b'
    have c : w "Umbrella" < 2 := c
    have c' : w' "Schirm" = 1 - w "Umbrella" := c'
    show [(0 : ℚ), 1, 1, 0].getD (flatIndex [⟨5, 4, 2, .chance⟩, ⟨3, 2, 2, .decision⟩] [w' "Bericht", w' "Schirm"]) 0 =
      [(1 : ℚ), 0, 0, 1].getD (flatIndex [⟨1, 1, 2, .chance⟩, ⟨2, 2, 2, .decision⟩] [w "Forecast", w "Umbrella"]) 0
    rw [b', c']
    interval_cases w "Forecast" <;> interval_cases w "Umbrella" <;> rfl
  back := by decide

/-- The forecast is bad. -/
theorem solved_evidence : umbSolved.SameEvidence schirmSolved inGerman swapped [("Forecast", "bad")] [("Bericht", "schlecht")] :=
  .cons ⟨rfl, by decide⟩ .nil

theorem bad_ok : umbSolved.EvidenceOK [("Forecast", "bad")] := ⟨by decide, by decide⟩

/-- The probability of rain when the forecast is bad is the same in both networks: the second number of the one answer is
the first of the other. -/
example (s1 s2 : NSched ℚ) : ∃ d d' : List ℚ, umbSolved.Answers s1 [("Forecast", "bad")] "Weather" false d ∧
    schirmSolved.Answers s2 [("Bericht", "schlecht")] "Wetter" false d' ∧ d'[0]? = d[1]? ∧ d'[1]? = d[0]? := by
  obtain ⟨d, d', h1, h2, _, _, h5⟩ := C108_query solved_content umbSolved_valid schirmSolved_valid s1 s2 umbSolved_policies
    schirmSolved_policies solved_policies bad_ok solved_evidence (v := ⟨"Weather", .chance, ["sun", "rain"], (0, 0), "", some 0⟩)
    (by decide) rfl (by decide) false (by decide +kernel)
  exact ⟨d, d', h1, h2, h5 1 (by decide), h5 0 (by decide)⟩

/-- So are the utilities and the probability of the forecast. -/
example (s1 s2 s3 s4 s5 s6 : NSched ℚ) :
    (∃ p, umbSolved.Likely s1 [("Forecast", "bad")] true p ∧ schirmSolved.Likely s2 [("Bericht", "schlecht")] true p) ∧
    (∃ x, umbSolved.Worth s3 [("Forecast", "bad")] "" true x ∧ schirmSolved.Worth s4 [("Bericht", "schlecht")] "" true x) ∧
    ∃ x, umbSolved.Worth s5 [("Forecast", "bad")] "Effort" true x ∧
      schirmSolved.Worth s6 [("Bericht", "schlecht")] "Last" true x :=
  ⟨C108_evidence solved_content umbSolved_valid schirmSolved_valid s1 s2 umbSolved_policies schirmSolved_policies
      solved_policies umbSolved_all bad_ok solved_evidence true,
    C108_utility solved_content umbSolved_valid schirmSolved_valid s3 s4 umbSolved_policies schirmSolved_policies
      solved_policies umbSolved_all bad_ok solved_evidence true (.inl ⟨rfl, rfl, by decide⟩),
    C108_utility solved_content umbSolved_valid schirmSolved_valid s5 s6 umbSolved_policies schirmSolved_policies
      solved_policies umbSolved_all bad_ok solved_evidence true
      (.inr ⟨⟨"Effort", .utility, ["effort"], (0, 0), "", some 4⟩, by decide, rfl, rfl⟩)⟩

/-- The best expected utility is the same in both networks. -/
example (sch sch₁ sch' sch₁' : NSched ℚ) : ∃ tables n' g n'' tables₁ m' g₁ m'' x,
    umb.solvePolicies sch false = (.ok tables, n') ∧ n'.solveUtility sch' [] [] "" false = (.ok g, n'') ∧ g.data = [x] ∧
    schirm.solvePolicies sch₁ false = (.ok tables₁, m') ∧ m'.solveUtility sch₁' [] [] "" true = (.ok g₁, m'') ∧
    g₁.data = [x] :=
  C108_decisions sch sch₁ sch' sch₁' umb_schirm umb_valid schirm_valid umb_solvable (by decide)
    (fun d hd e he => by
      have : umb.decisions = ["Umbrella"] := by decide
      rw [this, List.mem_singleton] at hd he
      exact .inl (hd.trans he.symm)) (by decide) (by decide) (matters_order umb_matters) false true

end Ex

end Bbn
