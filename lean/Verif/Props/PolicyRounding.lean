import Verif.Lemmas.RoundedSteps
import Verif.Spec.RoundedPolicy
import Verif.Props.NetStepwise
import Verif.Props.UtilityRounding

/-!
# C115: policies with rounded arithmetic
-/

set_option autoImplicit false
set_option linter.unusedSectionVars false

namespace Bbn

open Finset

section Map

variable {A B : Type}

theorem matters_mapNum {n : Net A} (φ : A → B) {ds : List String} {s : String} (h : n.Matters ds s) :
    (n.mapNum φ).Matters ds s := by
  have hc : (n.mapNum φ).chanceTables = n.chanceTables.map (NFactor.mapNum φ) := by
    unfold Net.chanceTables Net.mapNum
    dsimp only
    rw [List.filter_map]
    rfl
  induction h with
  | @utility f s hf hu ht hs => exact .utility (f := f.mapNum φ) (List.mem_map_of_mem hf) hu ht hs
  | @chance f u s hf hu hch hk _ hs ih =>
    exact .chance (f := f.mapNum φ) (by rw [hc]; exact List.mem_map_of_mem hf) hu hch
      (by rw [known_mapNum]; exact hk) ih hs

theorem entry_mapNum [Zero A] [Zero B] {φ : A → B} (h0 : φ 0 = 0) (n : Net A) (f : NFactor A) (w : World) :
    (n.mapNum φ).entry (f.mapNum φ) w = φ (n.entry f w) := by
  unfold Net.entry
  rw [NFactor.tab_mapNum, List.getD_eq_getElem?_getD, List.getD_eq_getElem?_getD, List.getElem?_map]
  show (Option.map φ f.tab[rowMajor (f.dims.map (fun s => (n.count s, w s)))]?).getD 0 = _
  cases f.tab[rowMajor (f.dims.map (fun s => (n.count s, w s)))]? with
  | none => simp [h0]
  | some x => rfl

end Map

variable {β K : Type} [Zero β] [One β] [Add β] [Mul β] [Div β] [NatCast β] [LinearOrder β] [Field K] [LinearOrder K]
  [IsStrictOrderedRing K] {val : β → K} {u : K}

/-- `SolvePolicies` one decision after another, with rounded numbers: what is stored and what is returned. -/
theorem rounded_order (h : OrderedRounding val u) (sch : NSched β) {n : Net β} (hn : n.Valid) (hs : n.Solvable)
    (hd : n.decisions ≠ []) (h0 : ∀ f ∈ (n.mapNum val).chanceTables, ∀ x ∈ f.tab, 0 ≤ x) :
    ∃ tables n', n.solvePolicies sch true = (.ok tables, n') ∧ (tables.map Prod.fst).Nodup ∧
      (n'.policies.map Prod.fst).Perm n.decisions ∧
      (∀ p ∈ n'.policies, ∃ t ∈ tables, t.1 = p.1 ∧ t.2.forVar = p.1 ∧ t.2.dims = p.2.vars.map n.nameAt ∧
        (∀ s ∈ t.2.given, n.isKind .chance s = true ∨ n.isKind .decision s = true) ∧
        (∀ w : World, (∀ s ∈ t.2.dims, w s < n.count s) → Fits (n.ids w) p.2.vars ∧ n.entry t.2 w = p.2.val (n.ids w)) ∧
        p.2.WF ∧ ∃ d, p.2.RoundedRows val u d ∧ n.IsVar p.1 ∧ d.outcomes = n.count p.1 ∧ d.id = (n.varOf p.1).id) ∧
      ∀ A p B, n'.policies = A ++ p :: B → n.NextAfter A p ∧
        (n.mapNum val).NearBestAfter u (2 * n.outcomeTotal + 6 * n.variables.length + 1)
          (A.map (fun p => (p.1, p.2.mapNum val))) (p.1, p.2.mapNum val) := by
  have hopen : Net.openDecisions { n with policies := [] } = n.variables.filter (fun v => v.nodeType = .decision) := by
    unfold Net.openDecisions
    apply List.filter_congr
    intro v _
    simp [Net.hasPolicy, mapGet]
  have hlen : (n.variables.filter (fun v => v.nodeType = .decision)).length ≠ 0 := by
    intro e
    apply hd
    unfold Net.decisions
    rw [List.length_eq_zero_iff.1 e]; rfl
  have hsteps : n.countDecisionSteps true = (n.variables.filter (fun v => v.nodeType = .decision)).length := by
    unfold Net.countDecisionSteps
    rw [if_neg (by simp)]
    dsimp only
    rw [if_neg hlen]
  obtain ⟨vs, names, new, a1, a2, a3, a4, a5, a6⟩ := rounded_loop h sch (n.countDecisionSteps true) 0 { n with policies := [] }
    (hn.with n.vs n.names []) (hs.with n.vs n.names []) ⟨List.nodup_nil, by simp, by simp, by simp⟩
    ⟨h0, by intro p hp; cases hp⟩ (by intro p hp; cases hp) (by rw [hopen, hsteps])
    (fun e => absurd (hsteps.symm.trans e) hlen)
  simp only [List.nil_append] at a1 a2 a3 a4 a5 a6
  obtain ⟨m, hm⟩ : ∃ m : Net β, m = { n with vs := vs, names := names, policies := new } := ⟨_, rfl⟩
  rw [← hm] at a1 a2 a3 a5
  have hpol : m.policies = new := by rw [hm]
  have hmv : m.Valid := by rw [hm]; exact hn.with vs names new
  obtain ⟨vs1, hvs⟩ := a2.solver
  have hperm := sch.pol_perm (n.countDecisionSteps true) m.policies
  obtain ⟨ts, vs2, k1, k2⟩ := policyTables_any (n := m) (R := fun p t => t.forVar = p.1 ∧ t.dims = p.2.vars.map n.nameAt ∧
        (∀ s ∈ t.given, n.isKind .chance s = true ∨ n.isKind .decision s = true) ∧
        (∀ w : World, (∀ s ∈ t.dims, w s < n.count s) → Fits (n.ids w) p.2.vars ∧ n.entry t w = p.2.val (n.ids w)) ∧
        p.2.WF ∧ ∃ d, p.2.RoundedRows val u d ∧ n.IsVar p.1 ∧ d.outcomes = n.count p.1 ∧ d.id = (n.varOf p.1).id)
    (sch.pol (n.countDecisionSteps true) m.policies) (by
      intro p hp vs
      have hpm := hperm.subset hp
      obtain ⟨d, hr, hdn⟩ := a4 p (hpol ▸ hpm)
      obtain ⟨others, b1⟩ := hr.1
      have b4 : (m.variables[d.id]?).map NVar.name = some p.1 := by rw [hm]; exact hdn
      obtain ⟨t, vs', c1, c2, c3, c4, c5, c6, c7, c8, c9⟩ := policyTable_any hmv a3 a2 hpm b1 b4 vs
      obtain ⟨d1, d2, d3⟩ := policy_decision hmv a3 hpm (d := d) (by rw [b1]; simp) b4
      subst hm
      refine ⟨t, vs', c1, c2, c7, c5, fun w hw => ⟨c8 w hw, c9 w hw⟩, a3.wf p hpm, d, hr, d1, d2, ?_⟩
      rw [d3]
      obtain ⟨i, v, i1, i2, i3⟩ := d1
      have e1 := varOf_eq hmv i1 i3
      have e2 := varOf_eq hn i1 i3
      rw [← i2, e1, e2]
      rfl) ((hperm.map Prod.fst).nodup_iff.2 a3.keys) vs1 [] (by simp)
  have hkeys : ts.map Prod.fst = (sch.pol (n.countDecisionSteps true) m.policies).map Prod.fst := by
    clear k1 hperm
    generalize sch.pol (n.countDecisionSteps true) m.policies = l at k2
    induction k2 with
    | nil => rfl
    | cons h _ ih => rw [List.map_cons, List.map_cons, ih, h.1]
  have hnd : (ts.map Prod.fst).Nodup := by rw [hkeys]; exact (hperm.map Prod.fst).nodup_iff.2 a3.keys
  refine ⟨ts, { m with vs := some vs2 }, ?_, hnd, ?_, ?_, ?_⟩
  · unfold Net.solvePolicies
    dsimp only
    rw [a1]
    dsimp only
    rw [Net.withVs, hvs]
    dsimp only
    rw [k1]
    rfl
  · show (m.policies.map Prod.fst).Perm n.decisions
    rw [List.perm_ext_iff_of_nodup a3.keys (decisions_nodup hn)]
    intro s
    rw [mem_decisions]
    constructor
    · intro hm'
      obtain ⟨p, hp, rfl⟩ := List.mem_map.1 hm'
      obtain ⟨i, v, b1, b2, b3, _⟩ := a3.decision p hp
      rw [hm] at b1
      rw [← b2, isKind_iff hn (List.mem_of_getElem? b1)]
      exact b3
    · intro hk
      obtain ⟨v, hv, b1, b2⟩ := isKind_mem.1 hk
      by_contra hc
      have : v ∈ m.openDecisions := by
        simp only [Net.openDecisions, List.mem_filter, decide_eq_true_eq]
        refine ⟨by rw [hm]; exact hv, b2, ?_⟩
        rw [← Bool.not_eq_true]
        intro hp
        rw [b1] at hp
        exact hc (mapGet_isSome.1 hp)
      rw [a5] at this
      simp at this
  · intro p hp
    have hp : p ∈ m.policies := hp
    obtain ⟨t, ht, k⟩ := forall₂_mem_left k2 (hperm.symm.subset hp)
    exact ⟨t, ht, k⟩
  · intro A p B e
    have e : m.policies = A ++ p :: B := e
    rw [hpol] at e
    obtain ⟨c1, c2⟩ := a6 A p B e
    exact ⟨c1.with (n := n) (vs := n.vs) (names := n.names) (pols := []),
      NearBestAfter.with (n := n.mapNum val) (vs := n.vs) (names := n.names) (pols := []) c2⟩

/-- Roundings as an error relative to the magnitude. -/
theorem roundings_le {E : Nat} (hu0 : 0 ≤ u) (hu1 : u < 1) (hE : E * u < 1) : (1 - u)⁻¹ ^ E - 1 ≤ E * u / (1 - E * u) := by
  have h1 : 1 - E * u ≤ (1 - u) ^ E := by
    have := one_add_mul_le_pow (a := -u) (by linarith) E
    rw [sub_eq_add_neg 1 u]
    linarith
  have hpos : 0 < 1 - E * u := by linarith
  have h2 : (1 - u)⁻¹ ^ E ≤ (1 - E * u)⁻¹ := by
    rw [inv_pow]
    exact inv_anti₀ hpos h1
  have h3 : E * u / (1 - E * u) = (1 - E * u)⁻¹ - 1 := by
    field_simp
    ring
  rw [h3]
  linarith

/-- **C115.** `SolvePolicies` one decision after another, with rounded numbers, probabilities `≥ 0` and utilities and
weights of any sign: there is an order of the decisions that respects their declared order, and is the listed order if this
respects the declared one, such that each policy uses only what is known by then, its rows sum up to one after at most
two roundings and give equal shares to some outcomes, and it is almost a best response to the (rounded) policies of the later decisions. In every world, another
outcome of the decision is worth at most `E u / (1 - E u)` times the magnitudes of what is compared more to it, where `E`
depends only on the numbers of variables and outcomes. -/
theorem C115_rounding (h : OrderedRounding val u) (sch : NSched β) {n : Net β} (hn : n.Valid) (hs : n.Solvable)
    (hd : n.decisions ≠ []) (h0 : ∀ f ∈ (n.mapNum val).chanceTables, ∀ x ∈ f.tab, 0 ≤ x)
    (E : Nat) (hE : E = 2 * n.outcomeTotal + 6 * n.variables.length + 1) (hEu : E * u < 1) :
    ∃ tables n' order, n.solvePolicies sch true = (.ok tables, n') ∧ order.Perm n.decisions ∧ n.Ordered order ∧
      (n.Ordered n.decisions → order = n.decisions) ∧
      (∀ A d B, order = A ++ d :: B → (n.mapNum val).RoundedStrategy u A d (fun w => val (n.byTables tables d w)) ∧
        (∀ t ∈ tables, t.1 = d → ∀ s ∈ t.2.given, n.Known (A ++ [d]) s) ∧
        ∀ w, n.Allowed w → ∃ S : List Nat, S ≠ [] ∧ S.Nodup ∧ (∀ k ∈ S, k < n.count d) ∧
          ∀ k < n.count d, n.byTables tables d (w.set d k) = if k ∈ S then 1 / (S.length : β) else 0) ∧
      ∀ A d B, order = A ++ d :: B → n.Matters [d] d →
        ∀ w : World, (∀ v ∈ n.variables, w v.name < v.outcomes.length) → n.byTables tables d w ≠ 0 → ∀ k < n.count d,
          (n.mapNum val).worthTo (fun e w => val (n.byTables tables e w)) B d (w.set d k) ≤
            (n.mapNum val).worthTo (fun e w => val (n.byTables tables e w)) B d w + E * u / (1 - E * u) *
              ((n.mapNum val).worthSizeTo (fun e w => val (n.byTables tables e w)) B d (w.set d k) +
                (n.mapNum val).worthSizeTo (fun e w => val (n.byTables tables e w)) B d w) := by
  obtain ⟨tables, n', h1, h2, h3, h5, h4⟩ := rounded_order h sch hn hs hd h0
  have hN := Valid.mapNum hn val
  have h4' := fun A p B e => (h4 A p B e).1
  obtain ⟨o1, o2⟩ := ordered_of_next hn h3 h4'
  have hin : ∀ p ∈ n'.policies, ∀ t ∈ tables, t.2.forVar = p.1 → n.isKind .decision p.1 = true →
      (∀ s ∈ t.2.given, n.isKind .chance s = true ∨ n.isKind .decision s = true) → ∀ w, n.Allowed w →
      ∀ s ∈ t.2.dims, w s < n.count s := by
    intro p hp t ht hfor hdec hpar w hw s hst
    have key : ∀ k, k ≠ NodeType.utility → n.isKind k s = true → w s < n.count s := by
      intro k hk h
      obtain ⟨v, hv, rfl, e2⟩ := isKind_mem.1 h
      rw [count_eq hn hv]
      exact hw v (mem_stateVars.2 ⟨hv, by rw [e2]; exact hk⟩)
    rcases List.mem_append.1 hst with h | h
    · rcases hpar s h with h | h
      · exact key _ (by decide) h
      · exact key _ (by decide) h
    · exact key .decision (by decide) (by rw [List.mem_singleton.1 h, hfor]; exact hdec)
  have hdec : ∀ p ∈ n'.policies, n.isKind .decision p.1 = true := fun p hp =>
    mem_decisions.1 (h3.subset (List.mem_map_of_mem (f := Prod.fst) hp))
  have hvals : ∀ p ∈ n'.policies, ∀ w, n.Allowed w → n.byTables tables p.1 w = p.2.val (n.ids w) := by
    intro p hp w hw
    obtain ⟨t, ht, hte, hfor, hdm, hpar, hval, _⟩ := h5 p hp
    rw [← hte, byTables_eq h2 ht]
    exact (hval w (hin p hp t ht hfor (hdec p hp) hpar w hw)).2
  refine ⟨tables, n', (n'.policies.map Prod.fst).reverse, h1, (List.reverse_perm _).trans h3, o1, o2, ?_, ?_⟩
  · intro A d B e
    obtain ⟨X, q, Y, e2, rfl, _, hkq⟩ := known_of_next h3 h4' e
    have hq : q ∈ n'.policies := by rw [e2]; simp
    obtain ⟨t, ht, hte, hfor, hdm, hpar, hval, _, d, hr, hd1, hd2, hd3⟩ := h5 q hq
    have hfit : ∀ w, n.Allowed w → Fits (n.ids w) q.2.vars := fun w hw =>
      (hval w (hin q hq t ht hfor (hdec q hq) hpar w hw)).1
    have hkn : ∀ s ∈ t.2.dims, n.Known (A ++ [q.1]) s := by
      intro s hs
      rw [hdm] at hs
      obtain ⟨x, hx, rfl⟩ := List.mem_map.1 hs
      exact hkq x hx
    have hset : ∀ w, n.Allowed w → ∀ k < n.count q.1, n.byTables tables q.1 (w.set q.1 k) =
        q.2.val ((n.ids w).upd d.id k) := by
      intro w hw k hk
      have hw2 : n.Allowed (w.set q.1 k) := by
        intro v hv
        unfold World.set
        split_ifs with e
        · rw [← count_eq hn (mem_stateVars.1 hv).1, e]; exact hk
        · exact hw v hv
      rw [hvals q hq _ hw2, ids_set hn hd1, hd3]
    refine ⟨⟨?_, ?_, ?_⟩, ?_, ?_⟩
    · intro w hw
      rw [hvals q hq w hw]
      exact hr.2.1 _ (hfit w hw)
    · intro w hw
      have := hr.2.2.1 _ (hfit w hw)
      rw [hd2] at this
      have e3 : ∀ k ∈ range (n.count q.1), val (n.byTables tables q.1 (w.set q.1 k)) =
          val (q.2.val ((n.ids w).upd d.id k)) := by
        intro k hk
        rw [hset w hw k (Finset.mem_range.1 hk)]
      show Within u 2 (∑ k ∈ range (n.count q.1), val (n.byTables tables q.1 (w.set q.1 k))) 1
      rw [Finset.sum_congr rfl e3]
      exact this
    · intro w w' _ _ hww
      rw [← hte, byTables_eq h2 ht]
      have : n.entry t.2 w = n.entry t.2 w' := entry_agree (fun s hs => hww s ((known_mapNum n val _ _).2 (hkn s hs)))
      rw [this]
    · intro t' ht' hte' s hs
      obtain rfl := List.inj_on_of_nodup_map h2 ht' ht (hte'.trans hte.symm)
      exact hkn s (by simp [NFactor.dims, hs])
    · intro w hw
      obtain ⟨S, s1, s2, s3, s4⟩ := hr.2.2.2 _ (hfit w hw)
      rw [hd2] at s3 s4
      exact ⟨S, s1, s2, s3, fun k hk => (hset w hw k hk).trans (s4 k hk)⟩
  · intro A d B e hm w hw hne k hk
    obtain ⟨X, q, Y, e2, rfl, hX, _⟩ := known_of_next h3 h4' e
    have hall : n.Allowed w := fun v hv => hw v (mem_stateVars.1 hv).1
    have hw2 : n.Allowed (w.set q.1 k) := by
      intro v hv
      unfold World.set
      split_ifs with e
      · rw [← count_eq hn (mem_stateVars.1 hv).1, e]; exact hk
      · exact hall v hv
    have hq : q ∈ n'.policies := by rw [e2]; simp
    have hkeys : (X.map (fun p => (p.1, p.2.mapNum val))).map Prod.fst = X.map Prod.fst := by
      rw [List.map_map]; rfl
    have hl : B.Perm ((X.map (fun p => (p.1, p.2.mapNum val))).map Prod.fst) := by
      rw [hkeys, hX]; exact (List.reverse_perm B).symm
    have hvX : ∀ p ∈ X.map (fun p => (p.1, p.2.mapNum val)), ∀ w, (n.mapNum val).Allowed w →
        p.2.val ((n.mapNum val).ids w) = val (n.byTables tables p.1 w) := by
      intro p hp w hw
      obtain ⟨r, hr, rfl⟩ := List.mem_map.1 hp
      rw [hvals r (by rw [e2]; simp [hr]) w hw]
      exact val_mapped h.zero r.2 _
    have key := (h4 X q Y e2).2 (matters_mapNum val hm) w hw (by
      show (q.2.mapNum val).val (n.ids w) ≠ 0
      rw [val_mapped h.zero]
      intro e0
      exact hne (by rw [hvals q hq w hall]; exact h.eq_zero _ e0)) k hk
    have hsize : ∀ w, (n.mapNum val).Allowed w →
        (n.mapNum val).sizePols (X.map (fun p => (p.1, p.2.mapNum val))) q.1 w =
        (n.mapNum val).worthSizeTo (fun e w => val (n.byTables tables e w)) B q.1 w := fun w hw =>
      sumPols_tables hN ((n.mapNum val).askedSize "") hvX hl hw
    have hworth : ∀ w, (n.mapNum val).Allowed w →
        (n.mapNum val).worthPols (X.map (fun p => (p.1, p.2.mapNum val))) q.1 w =
        (n.mapNum val).worthTo (fun e w => val (n.byTables tables e w)) B q.1 w := fun w hw =>
      sumPols_tables hN (n.mapNum val).totalIn hvX hl hw
    rw [hworth _ hw2, hworth _ hall, hsize _ hw2, hsize _ hall, ← hE] at key
    refine key.trans (add_le_add le_rfl (mul_le_mul_of_nonneg_right (roundings_le h.nonneg h.lt_one hEu) ?_))
    rw [← hsize _ hw2, ← hsize _ hall]
    have hnn : Net.Nonneg { n.mapNum val with policies := X.map (fun p => (p.1, p.2.mapNum val)) } := by
      refine ⟨h0, fun p hp x hx => ?_⟩
      obtain ⟨r, hr, rfl⟩ := List.mem_map.1 hp
      obtain ⟨_, _, _, _, _, _, _, hwf, d, hrows, _⟩ := h5 r (by rw [e2]; simp [hr])
      obtain ⟨y, hy, rfl⟩ := List.mem_map.1 hx
      obtain ⟨σ, hσ, rfl⟩ := entry_val hwf hy
      exact hrows.2.1 σ hσ
    exact add_nonneg (sizePols_nonneg hnn _ _) (sizePols_nonneg hnn _ _)

/-! ## Floating-point numbers -/

instance Ex.Dbl.instNatCast : NatCast Ex.Dbl := ⟨fun k => ⟨Ex.nearest k⟩⟩

theorem Ex.Dbl.val_injective : Function.Injective Ex.Dbl.val := by
  rintro ⟨a⟩ ⟨b⟩ e
  exact congrArg Ex.Dbl.mk e

instance Ex.Dbl.instLinearOrder : LinearOrder Ex.Dbl := LinearOrder.lift' Ex.Dbl.val Ex.Dbl.val_injective

theorem Ex.dbl_ordered : OrderedRounding Ex.Dbl.val (1 / 2 ^ 53 : ℚ) where
  toSignedRounding := Ex.dbl_signed
  le _ _ := Iff.rfl
  natCast _ := Ex.nearest_error _

/-- The letter in 53 bit arithmetic, for all iteration orders: the policy for `Act` never takes the second outcome. -/
example (sch : NSched Ex.Dbl) : ∃ tables n', (Ex.letter.mapNum Ex.Dbl.mk).solvePolicies sch true = (.ok tables, n') ∧
    ∀ l < 2, ∀ f < 2, (Ex.letter.mapNum Ex.Dbl.mk).byTables tables "Act" (Ex.W l f 1) = 0 := by
  have e : (Ex.letter.mapNum Ex.Dbl.mk).mapNum Ex.Dbl.val = Ex.letter :=
    (Net.mapNum_mapNum _ _ _).trans Ex.letter.mapNum_id
  obtain ⟨tables, n', order, k1, k2, k3, _, _, k5⟩ := C115_rounding Ex.dbl_ordered sch (n := Ex.letter.mapNum Ex.Dbl.mk)
    (Valid.mapNum Ex.letter_valid _) (Solvable.mapNum Ex.letter_solvable _) (by decide) (by rw [e]; decide)
    (2 * (Ex.letter.mapNum Ex.Dbl.mk).outcomeTotal + 6 * (Ex.letter.mapNum Ex.Dbl.mk).variables.length + 1) rfl
    (by
      have : 2 * (Ex.letter.mapNum Ex.Dbl.mk).outcomeTotal + 6 * (Ex.letter.mapNum Ex.Dbl.mk).variables.length + 1 = 39 := by
        decide
      rw [this]; norm_num)
  have hE : 2 * (Ex.letter.mapNum Ex.Dbl.mk).outcomeTotal + 6 * (Ex.letter.mapNum Ex.Dbl.mk).variables.length + 1 = 39 := by
    decide
  rw [hE, e] at k5
  obtain rfl := Ex.letter_order k2
    (fun A d B h p hp => k3 A d B h p ((decisionParent_mapNum Ex.letter Ex.Dbl.mk p d).2 hp))
  refine ⟨tables, n', by convert k1, fun l hl f hf => ?_⟩
  have hlt : ∀ l < 2, ∀ f < 2, Ex.letter.worthTo (fun _ _ => 1) [] "Act" (Ex.W l f 1) +
        ((39 : ℕ) : ℚ) * (1 / 2 ^ 53) / (1 - ((39 : ℕ) : ℚ) * (1 / 2 ^ 53)) *
          (Ex.letter.worthSizeTo (fun _ _ => 1) [] "Act" ((Ex.W l f 1).set "Act" 0) +
            Ex.letter.worthSizeTo (fun _ _ => 1) [] "Act" (Ex.W l f 1)) <
      Ex.letter.worthTo (fun _ _ => 1) [] "Act" ((Ex.W l f 1).set "Act" 0) := by decide +kernel
  have hok : ∀ l < 2, ∀ f < 2, ∀ v ∈ Ex.letter.variables, Ex.W l f 1 v.name < v.outcomes.length := by decide
  by_contra hne
  have := k5 ["File"] "Act" [] rfl (matters_mapNum _ (Ex.letter_matters _ (by decide))) (Ex.W l f 1) (hok l hl f hf) hne 0
    (by decide)
  exact absurd (hlt l hl f hf) (not_lt.2 this)

end Bbn
