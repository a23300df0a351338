import Verif.Props.NetSolvedValue
import Verif.Props.NetExpect

/-!
# C166: what a solved network answers depends on the joint probabilities and the total utility only
-/

set_option autoImplicit false

namespace Bbn

open Finset

variable {α : Type} [Field α] [LinearOrder α] [IsStrictOrderedRing α]

/-- A solved network: what is stored, and the weight of a world. -/
theorem solved_joint (sch : NSched α) {n : Net α} (hn : n.Valid) (hs : n.Solvable) {stepwise : Bool}
    {tables : List (String × NFactor α)} {m : Net α} (h1 : n.solvePolicies sch stepwise = (.ok tables, m)) :
    m.Valid ∧ m.PoliciesOK ∧ m.AllSolved ∧ (∃ vs names policies, m = { n with vs := vs, names := names, policies := policies }) ∧
      ∀ w, n.Allowed w → m.joint m.policies w = (n.chanceTables.map (fun f => n.prob f w)).prod *
        (n.decisions.map (fun d => n.byTables tables d w)).prod := by
  obtain ⟨ts, m₀, k1, _, k3, _, k5, k6, ⟨vs, names, pols, k7⟩, k8, _⟩ := solvePolicies_net sch hn (fun _ => hs.toFeasible) stepwise
  rw [h1] at k1
  obtain ⟨e1, rfl⟩ := Prod.mk.inj k1
  obtain rfl := Except.ok.inj e1
  obtain ⟨hpp, htb⟩ := stored_tables sch hn (fun _ => hs.toFeasible) h1
  have hvars : m.variables = n.variables := by rw [k7]
  refine ⟨k5, k6.toPoliciesOK, ?_, ⟨vs, names, pols, k7⟩, fun w hw => ?_⟩
  · intro v hv hd
    unfold Net.hasPolicy
    refine mapGet_isSome.2 (k8.symm.subset ((k3 v.name).2 ?_))
    rw [hvars] at hv
    exact (isKind_iff hn hv _).2 hd
  · have hprod : (m.policies.map (fun p => p.2.val (n.ids w))).prod = (n.decisions.map (fun d => n.byTables tables d w)).prod := by
      rw [← (hpp.map _).prod_eq, List.map_map]
      congr 1
      apply List.map_congr_left
      intro p hp
      exact htb p hp w hw
    rw [← hprod]
    rw [k7]
    rfl

omit [Field α] [LinearOrder α] [IsStrictOrderedRing α] in
/-- All policies take part: they are not ignored, or only chance variables are observed. -/
theorem active_all {m : Net α} (hm : m.Valid) (hp : m.PoliciesOK) {evidence : List (String × String)} {ign : Bool}
    (h : ign = false ∨ ∀ e ∈ evidence, m.isKind .chance e.1 = true) : m.active evidence ign = m.policies := by
  unfold Net.active
  split_ifs with hi
  · refine List.filter_eq_self.2 (fun p hpm => ?_)
    simp only [decide_eq_true_eq]
    intro e he e'
    rcases h with h | h
    · rw [h] at hi; cases hi
    · obtain ⟨i, v, hv, e1, e2, _⟩ := hp.decision p hpm
      have hvm := List.mem_of_getElem? hv
      have := (isKind_iff hm hvm _).1 (by rw [e1, ← e']; exact h e he)
      rw [e2] at this
      cases this
  · rfl

/-- The weights of the worlds of two solved networks are the same up to the factor. -/
theorem same_weights (sch sch' : NSched α) {n n' : Net α} (hn : n.Valid) (hn' : n'.Valid) (hs : n.Solvable)
    (hs' : n'.Solvable) (hv : n.SameVars n') (hi : n.SameInfo n') (ho : n.Ordered n.decisions)
    (hm : ∀ d ∈ n.decisions, n.Matters [d] d ∧ n'.Matters [d] d)
    (hnn : ∀ f ∈ n.chanceTables, ∀ x ∈ f.tab, 0 ≤ x) (hnn' : ∀ f ∈ n'.chanceTables, ∀ x ∈ f.tab, 0 ≤ x)
    {a b c : α} (ha : 0 < a) (hc : 0 < c) (hb : b = 0 ∨ n.Regular ∧ ∃ rank, n.Timed n.decisions rank)
    (hj : ∀ w, n.Allowed w → (n'.chanceTables.map (fun f => n'.prob f w)).prod =
      c * (n.chanceTables.map (fun f => n.prob f w)).prod)
    (hu : ∀ w, n.Allowed w → n'.totalIn w = a * n.totalIn w + b) :
    ∃ tables m tables' m', n.solvePolicies sch true = (.ok tables, m) ∧ n'.solvePolicies sch' true = (.ok tables', m') ∧
      ∀ F F' : World → α, ∀ x y : α, (∀ w, n.Allowed w → F' w = x * F w + y) →
        ∀ P : World → Prop, [DecidablePred P] → m'.total m'.policies (fun w => if P w then F' w else 0) =
          c * (x * m.total m.policies (fun w => if P w then F w else 0) + y * m.mass m.policies P) := by
  obtain ⟨tables, m, tables', m', r1, r2, hsame⟩ := same_worth sch sch' hn hn' hs hs' hv hi ho hm hnn hnn' ha hc hb hj hu
  obtain ⟨-, -, -, ⟨vs, names, pols, em⟩, j1⟩ := solved_joint sch hn hs r1
  obtain ⟨-, -, -, ⟨vs', names', pols', em'⟩, j2⟩ := solved_joint sch' hn' hs' r2
  refine ⟨tables, m, tables', m', r1, r2, fun F F' x y hF P _ => ?_⟩
  have hst : m.stateVars = n.stateVars := by rw [em]; rfl
  have hst' : m'.stateVars = n'.stateVars := by rw [em']; rfl
  unfold Net.mass Net.total
  rw [hst, hst', ← sumWorlds_bare _ n'.stateVars, SameVars.bare hv, sumWorlds_bare, ← sumWorlds_mul, ← sumWorlds_mul,
    ← sumWorlds_add, ← sumWorlds_mul]
  refine sumWorlds_congr _ _ (stateVars_names hn) (fun w hw h0 => ?_)
  have hall : ∀ v ∈ n.variables, w v.name < v.outcomes.length := by
    intro v hvm
    by_cases hk : v.nodeType = .utility
    · rw [h0 v.name]
      · exact (hn.outcomes v hvm).1
      · intro hx
        obtain ⟨u, hu1, hu2⟩ := List.mem_map.1 hx
        have := List.inj_on_of_nodup_map hn.names (mem_stateVars.1 hu1).1 hvm hu2
        subst this
        exact (mem_stateVars.1 hu1).2 hk
    · exact hw v (mem_stateVars.2 ⟨hvm, hk⟩)
  have hall' : n'.Allowed w := Net.FitsAll.state ((SameVars.fitsAll hv w).2 hall)
  rw [j1 w hw, j2 w hall', hj w hw, SameVars.decisions hv]
  dsimp only
  rw [hF w hw]
  by_cases hz : (n.chanceTables.map (fun f => n.prob f w)).prod = 0
  · rw [hz]; ring
  · have all : ∀ B A, n.decisions = A ++ B →
        (B.map (fun e => n'.byTables tables' e w)).prod = (B.map (fun e => n.byTables tables e w)).prod := by
      intro B
      induction B with
      | nil => intro A _; rfl
      | cons d B ih =>
        intro A e
        have ih' := ih (A ++ [d]) (by rw [e]; simp)
        rw [List.map_cons, List.map_cons, List.prod_cons, List.prod_cons, ih']
        by_cases hz' : (B.map (fun e => n.byTables tables e w)).prod = 0
        · rw [hz', mul_zero, mul_zero]
        · obtain ⟨v, hvm, hv1, _⟩ := isKind_mem.1 (mem_decisions.1 (show d ∈ n.decisions by rw [e]; simp))
          have := hsame A d B e w hall hz hz' (w d) (by rw [← hv1, count_eq hn hvm]; exact hall v hvm)
          rw [World.set_self] at this
          rw [this]
    rw [all n.decisions [] rfl]
    split_ifs <;> ring

/-- **C166.** Two networks as in C161, both solved step by step. With the same evidence (policies not ignored, or only chance
variables observed), the probability of the evidence that `SolveQuery` reports is the same up to the factor of the joint
probabilities; and the total utility that `SolveUtility` reports differs by the factor and constant of the total
utilities. -/
theorem C166_answers (sch sch' : NSched α) {n n' : Net α} (hn : n.Valid) (hn' : n'.Valid) (hs : n.Solvable)
    (hs' : n'.Solvable) (hv : n.SameVars n') (hi : n.SameInfo n') (ho : n.Ordered n.decisions)
    (hm : ∀ d ∈ n.decisions, n.Matters [d] d ∧ n'.Matters [d] d)
    (hnn : ∀ f ∈ n.chanceTables, ∀ x ∈ f.tab, 0 ≤ x) (hnn' : ∀ f ∈ n'.chanceTables, ∀ x ∈ f.tab, 0 ≤ x)
    {a b c : α} (ha : 0 < a) (hc : 0 < c) (hb : b = 0 ∨ n.Regular ∧ ∃ rank, n.Timed n.decisions rank)
    (hj : ∀ w, n.Allowed w → (n'.chanceTables.map (fun f => n'.prob f w)).prod =
      c * (n.chanceTables.map (fun f => n.prob f w)).prod)
    (hu : ∀ w, n.Allowed w → n'.totalIn w = a * n.totalIn w + b) :
    ∃ tables m tables' m', n.solvePolicies sch true = (.ok tables, m) ∧ n'.solvePolicies sch' true = (.ok tables', m') ∧
      ∀ s₁ s₂ s₁' s₂' evidence ign, n.EvidenceOK evidence → (ign = false ∨ ∀ e ∈ evidence, n.isKind .chance e.1 = true) →
        ∃ p x, m.Likely s₁ evidence ign p ∧ m.Worth s₂ evidence "" ign x ∧
          m'.Likely s₁' evidence ign (c * p) ∧ m'.Worth s₂' evidence "" ign (c * (a * x + b * p)) := by
  obtain ⟨tables, m, tables', m', r1, r2, key⟩ := same_weights sch sch' hn hn' hs hs' hv hi ho hm hnn hnn' ha hc hb hj hu
  obtain ⟨v1, p1, a1, ⟨vs, names, pols, em⟩, -⟩ := solved_joint sch hn hs r1
  obtain ⟨v2, p2, a2, ⟨vs', names', pols', em'⟩, -⟩ := solved_joint sch' hn' hs' r2
  refine ⟨tables, m, tables', m', r1, r2, fun s₁ s₂ s₁' s₂' evidence ign hev hig => ?_⟩
  have e1 : m.EvidenceOK evidence := by rw [em]; exact ⟨hev.keys, hev.known⟩
  have e2 : m'.EvidenceOK evidence := by
    rw [em']; exact ⟨(SameVars.evidence hv hev).keys, (SameVars.evidence hv hev).known⟩
  have ac1 : m.active evidence ign = m.policies := active_all v1 p1 (by
    refine hig.imp_right (fun h e he => ?_)
    rw [em]; exact h e he)
  have ac2 : m'.active evidence ign = m'.policies := active_all v2 p2 (by
    refine hig.imp_right (fun h e he => ?_)
    rw [em']
    exact (SameVars.isKind hv _ _).trans (h e he))
  have ag1 : ∀ w, m.Agrees evidence w ↔ n.Agrees evidence w := by intro w; rw [em]; exact Iff.rfl
  have ag2 : ∀ w, m'.Agrees evidence w ↔ n.Agrees evidence w := by
    intro w; rw [em']; exact SameVars.agrees hv evidence w
  have q1 := likely_mass s₁ v1 p1 a1 e1 ign
  have q2 := likely_mass s₁' v2 p2 a2 e2 ign
  have q3 := worth_total s₂ v1 p1 a1 e1 (u := "") (.inl ⟨rfl, by rw [em]; exact hs.utility⟩) ign
  have q4 := worth_total s₂' v2 p2 a2 e2 (u := "") (.inl ⟨rfl, by rw [em']; exact hs'.utility⟩) ign
  rw [ac1] at q1 q3
  rw [ac2] at q2 q4
  refine ⟨_, _, q1, q3, ?_, ?_⟩
  · convert q2 using 1
    have := key (fun _ => 1) (fun _ => 1) 1 0 (fun w _ => by ring) (n.Agrees evidence)
    rw [one_mul, zero_mul, add_zero] at this
    rw [mass_congr m' _ ag2, mass_congr m _ ag1]
    exact this.symm
  · convert q4 using 1
    have h1 : m.asked "" = n.totalIn := by rw [em]; rfl
    have h2 : m'.asked "" = n'.totalIn := by rw [em']; rfl
    rw [h1, h2, mass_congr m _ ag1]
    simp only [ag1, ag2]
    exact (key n.totalIn n'.totalIn a b hu (n.Agrees evidence)).symm

/-- **C166, queries.** And if the evidence is possible, `SolveQuery` gives the same probabilities for all variables, the decisions
included. -/
theorem C166_posterior (sch sch' : NSched α) {n n' : Net α} (hn : n.Valid) (hn' : n'.Valid) (hs : n.Solvable)
    (hs' : n'.Solvable) (hv : n.SameVars n') (hi : n.SameInfo n') (ho : n.Ordered n.decisions)
    (hm : ∀ d ∈ n.decisions, n.Matters [d] d ∧ n'.Matters [d] d)
    (hnn : ∀ f ∈ n.chanceTables, ∀ x ∈ f.tab, 0 ≤ x) (hnn' : ∀ f ∈ n'.chanceTables, ∀ x ∈ f.tab, 0 ≤ x)
    {a b c : α} (ha : 0 < a) (hc : 0 < c) (hb : b = 0 ∨ n.Regular ∧ ∃ rank, n.Timed n.decisions rank)
    (hj : ∀ w, n.Allowed w → (n'.chanceTables.map (fun f => n'.prob f w)).prod =
      c * (n.chanceTables.map (fun f => n.prob f w)).prod)
    (hu : ∀ w, n.Allowed w → n'.totalIn w = a * n.totalIn w + b) :
    ∃ tables m tables' m', n.solvePolicies sch true = (.ok tables, m) ∧ n'.solvePolicies sch' true = (.ok tables', m') ∧
      ∀ s₁ s₂ s₂' evidence ign p, n.EvidenceOK evidence → (ign = false ∨ ∀ e ∈ evidence, n.isKind .chance e.1 = true) →
        m.Likely s₁ evidence ign p → p ≠ 0 →
        ∀ query : List String, (∀ q ∈ query, (∃ v ∈ n.variables, v.name = q ∧ v.nodeType ≠ .utility) ∧ ∀ e ∈ evidence, e.1 ≠ q) →
        ∃ r f k r' f' k', m.solveQuery s₂ evidence query ign = (.ok (r, f), k) ∧
          m'.solveQuery s₂' evidence query ign = (.ok (r', f'), k') ∧
          (∀ s, s ∈ r.map Prod.fst ↔ s ∈ query) ∧ (∀ s, s ∈ r'.map Prod.fst ↔ s ∈ query) ∧
          ∀ q ∈ query, ∃ d, mapGet r q = some d ∧ mapGet r' q = some d := by
  obtain ⟨tables, m, tables', m', r1, r2, key⟩ := same_weights sch sch' hn hn' hs hs' hv hi ho hm hnn hnn' ha hc hb hj hu
  obtain ⟨v1, p1, a1, ⟨vs, names, pols, em⟩, -⟩ := solved_joint sch hn hs r1
  obtain ⟨v2, p2, a2, ⟨vs', names', pols', em'⟩, -⟩ := solved_joint sch' hn' hs' r2
  refine ⟨tables, m, tables', m', r1, r2, fun s₁ s₂ s₂' evidence ign p hev hig hlik hp query hq => ?_⟩
  have e1 : m.EvidenceOK evidence := by rw [em]; exact ⟨hev.keys, hev.known⟩
  have e2 : m'.EvidenceOK evidence := by
    rw [em']; exact ⟨(SameVars.evidence hv hev).keys, (SameVars.evidence hv hev).known⟩
  have ac1 : m.active evidence ign = m.policies := active_all v1 p1 (by
    refine hig.imp_right (fun h e he => ?_)
    rw [em]; exact h e he)
  have ac2 : m'.active evidence ign = m'.policies := active_all v2 p2 (by
    refine hig.imp_right (fun h e he => ?_)
    rw [em']
    exact (SameVars.isKind hv _ _).trans (h e he))
  have ag1 : ∀ w, m.Agrees evidence w ↔ n.Agrees evidence w := by intro w; rw [em]; exact Iff.rfl
  have ag2 : ∀ w, m'.Agrees evidence w ↔ n.Agrees evidence w := by
    intro w; rw [em']; exact SameVars.agrees hv evidence w
  have hmass : ∀ (P : World → Prop) [DecidablePred P], m'.mass m'.policies P = c * m.mass m.policies P := by
    intro P _
    have := key (fun _ => 1) (fun _ => 1) 1 0 (fun w _ => by ring) P
    rw [one_mul, zero_mul, add_zero] at this
    exact this
  have hpos : m.mass (m.active evidence ign) (m.Agrees evidence) ≠ 0 := by
    obtain ⟨r, g, k, h1, h2⟩ := hlik
    obtain ⟨r₀, g₀, k₀, h1₀, h2₀⟩ := likely_mass s₁ v1 p1 a1 e1 ign
    rw [h1] at h1₀
    obtain ⟨⟨-, rfl⟩, -⟩ : (r = r₀ ∧ g = g₀) ∧ k = k₀ := by simpa using h1₀
    rw [h2] at h2₀
    rw [← List.head_eq_of_cons_eq h2₀]
    exact hp
  have hpos' : m'.mass (m'.active evidence ign) (m'.Agrees evidence) ≠ 0 := by
    rw [ac1, mass_congr m _ ag1] at hpos
    rw [ac2, mass_congr m' _ ag2, hmass]
    exact mul_ne_zero hc.ne' hpos
  have sv1 : ∀ q ∈ query, ∃ v ∈ m.stateVars, v.name = q := by
    intro q h
    obtain ⟨v, h1, h2, h3⟩ := (hq q h).1
    exact ⟨v, by rw [em]; exact mem_stateVars.2 ⟨h1, h3⟩, h2⟩
  have sv2 : ∀ q ∈ query, ∃ v ∈ m'.stateVars, v.name = q := by
    intro q h
    obtain ⟨v, h1, h2, h3⟩ := (hq q h).1
    obtain ⟨u, hu, k1, k2, _⟩ := SameVars.var (SameVars.symm hv) h1
    exact ⟨u, by rw [em']; exact mem_stateVars.2 ⟨hu, by rw [k2]; exact h3⟩, by rw [k1, h2]⟩
  have ok : ∀ {m : Net α}, m.Valid → m.PoliciesOK → m.AllSolved → (∀ q ∈ query, ∃ v ∈ m.stateVars, v.name = q) →
      m.QueryOK evidence ign query := by
    intro m v1 p1 a1 sv
    refine ⟨sv, fun q h => (hq q h).2, fun q h => ?_⟩
    obtain ⟨v, h1, rfl⟩ := sv q h
    exact a1.occurs v1 p1 ign h1 (hq _ h).2
  obtain ⟨r, f, k, x1, x2, x3, x4⟩ := C31_solveQuery_posterior s₂ v1 p1 e1 ign (ok v1 p1 a1 sv1) hpos
  obtain ⟨r', f', k', y1, y2, y3, y4⟩ := C31_solveQuery_posterior s₂' v2 p2 e2 ign (ok v2 p2 a2 sv2) hpos'
  refine ⟨r, f, k, r', f', k', x1, y1, x3, y3, fun q h => ?_⟩
  obtain ⟨d, d1, d2, d3⟩ := x4 q h
  obtain ⟨d', d1', d2', d3'⟩ := y4 q h
  refine ⟨d, (mapGet_mem x2).2 d1, ?_⟩
  have hcount : m'.count q = m.count q := by
    obtain ⟨v, h1, h2, _⟩ := (hq q h).1
    have := SameVars.count hv hn hn' ⟨v, h1, h2⟩
    rw [em, em']
    exact this
  have : d' = d := by
    apply List.ext_getElem?
    intro i
    by_cases hi : i < m.count q
    · rw [d3 i hi, d3' i (by rw [hcount]; exact hi), ac1, ac2, mass_congr m' _ ag2, mass_congr m _ ag1,
        mass_congr m' _ (fun w => and_congr_left (fun _ => ag2 w)), mass_congr m _ (fun w => and_congr_left (fun _ => ag1 w)),
        hmass, hmass, mul_div_mul_left _ _ hc.ne']
    · rw [List.getElem?_eq_none (l := d) (by omega), List.getElem?_eq_none (l := d') (by rw [d2', hcount]; omega)]
  rw [← this]
  exact (mapGet_mem y2).2 d1'

open Ex in
/-- The hypotheses of `C166_answers` are met, with a good forecast: the umbrella network written down in two ways, comfort
in half units and counted from 7 below. -/
example (sch sch' : NSched ℚ) : ∃ tables m tables' m', umb.solvePolicies sch true = (.ok tables, m) ∧
    (umbBack.shifted (fun _ => 7)).solvePolicies sch' true = (.ok tables', m') ∧
    ∀ s₁ s₂ s₁' s₂', ∃ p x, m.Likely s₁ [("Forecast", "good")] true p ∧ m.Worth s₂ [("Forecast", "good")] "" true x ∧
      m'.Likely s₁' [("Forecast", "good")] true (1 * p) ∧
      m'.Worth s₂' [("Forecast", "good")] "" true (1 * (2 * x + umbBack.totalShift (fun _ => 7) * p)) := by
  obtain ⟨tables, m, tables', m', h1, h2, h3⟩ := C166_answers sch sch' umb_valid
    (shifted_valid (b := fun _ => 7) umbBack_valid) umb_solvable (shifted_solvable umbBack_solvable) rfl
    (by
      intro d hd s
      obtain rfl := umb_decision hd
      simp [umbBack, umb, Net.shifted, Net.isKind, Net.totalName])
    (listed_ordered umb_timed.decision umb_timed.order)
    (fun d hd => ⟨(umbBack_matters d hd).1, shifted_matters umbBack_valid (umbBack_matters d hd).2⟩) (by decide +kernel)
    (by rw [shifted_chanceTables umbBack_valid]; decide +kernel) two_pos one_pos (.inr ⟨umb_regular, _, umb_timed⟩)
    (fun w hw => by rw [shifted_prob umbBack_valid]; simpa [Net.joint] using umbBack_joint w hw)
    (fun w hw => by rw [shifted_total umbBack_valid hw, umbBack_total w hw])
  exact ⟨tables, m, tables', m', h1, h2, fun s₁ s₂ s₁' s₂' => h3 s₁ s₂ s₁' s₂' _ true ⟨by decide, by decide⟩ (.inr (by decide))⟩

open Ex in
/-- The hypotheses of `C166_posterior` are met: how often the umbrella is taken, and in which weather. -/
example (sch sch' : NSched ℚ) : ∃ tables m tables' m', umb.solvePolicies sch true = (.ok tables, m) ∧
    umbBack.solvePolicies sch' true = (.ok tables', m') ∧
    ∀ s₂ s₂', ∃ r f k r' f' k', m.solveQuery s₂ [] ["Umbrella", "Weather"] false = (.ok (r, f), k) ∧
      m'.solveQuery s₂' [] ["Umbrella", "Weather"] false = (.ok (r', f'), k') ∧
      ∃ d, mapGet r "Umbrella" = some d ∧ mapGet r' "Umbrella" = some d := by
  obtain ⟨tables, m, tables', m', h1, h2, h3⟩ := C166_posterior sch sch' umb_valid umbBack_valid umb_solvable umbBack_solvable
    rfl umbBack_info (listed_ordered umb_timed.decision umb_timed.order) umbBack_matters (by decide +kernel) (by decide +kernel)
    two_pos one_pos (.inl rfl) (fun w hw => by simpa [Net.joint] using umbBack_joint w hw)
    (fun w hw => by rw [umbBack_total w hw, add_zero])
  refine ⟨tables, m, tables', m', h1, h2, fun s₂ s₂' => ?_⟩
  obtain ⟨v1, p1, a1, -⟩ := solved_joint sch umb_valid umb_solvable h1
  have hl := likely_mass s₂ v1 p1 a1 (evidence := []) ⟨by simp, by simp⟩ false
  have hone : m.mass (m.active [] false) (m.Agrees []) ≠ 0 := by
    have := umb_mass sch true h1
    rw [mass_congr m _ (Q := fun _ => True) (fun w => by simp [Net.Agrees])]
    show m.mass m.policies _ ≠ 0
    rw [this]
    decide
  obtain ⟨r, f, k, r', f', k', x1, x2, -, -, x3⟩ := h3 s₂ s₂ s₂' [] false _ ⟨by simp, by simp⟩ (.inl rfl) hl hone
    ["Umbrella", "Weather"] (by decide)
  exact ⟨r, f, k, r', f', k', x1, x2, x3 _ (by simp)⟩

end Bbn
