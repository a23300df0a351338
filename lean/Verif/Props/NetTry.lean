import Verif.Props.NetAttain
import Verif.Props.NetUndecided
import Verif.Props.TuiShown
import Verif.Lemmas.TuiOk
import Verif.Lemmas.Before

/-!
# Trying the options of a decision one by one
-/

set_option autoImplicit false

namespace Bbn

open Finset

variable {α : Type}

/-- After `SolvePolicies`, a sum over all worlds with the policies of some of the decisions. -/
theorem solved_filter [Field α] [LinearOrder α] [IsStrictOrderedRing α] (sch : NSched α) {n : Net α} (hn : n.Valid)
    (hs : n.Feasible) {stepwise : Bool} {tables : List (String × NFactor α)} {n' : Net α}
    (h : n.solvePolicies sch stepwise = (.ok tables, n')) (P : String → Bool) (F : World → α) :
    n'.total (n'.policies.filter (fun p => P p.1)) F =
      n.total [] (fun w => F w * ((n.decisions.filter P).map (fun d => n.byTables tables d w)).prod) := by
  obtain ⟨tables', m', h1, h2, h3, h4, h5, h6, ⟨vs0, names0, pols0, h7⟩, h8, _, _, _⟩ :=
    solvePolicies_net sch hn (fun _ => hs) stepwise
  rw [h] at h1
  obtain ⟨e1, rfl⟩ := Prod.mk.inj h1
  obtain rfl := Except.ok.inj e1
  obtain ⟨hpp, htb⟩ := stored_tables sch hn (fun _ => hs) h
  unfold Net.total
  have hst : n'.stateVars = n.stateVars := by rw [h7]; rfl
  rw [hst]
  refine sumWorlds_congr _ _ (stateVars_names hn) (fun w hw _ => ?_)
  have hprod : ((n'.policies.filter (fun p => P p.1)).map (fun p => p.2.val (n.ids w))).prod =
      ((n.decisions.filter P).map (fun d => n.byTables tables d w)).prod := by
    rw [← ((hpp.filter P).map _).prod_eq, List.filter_map, List.map_map]
    congr 1
    exact List.map_congr_left (fun p hp => htb p (List.mem_filter.1 hp).1 w hw)
  have e1 : ∀ pols, n'.joint pols w = (n.chanceTables.map (fun f => n.prob f w)).prod *
      (pols.map (fun p => p.2.val (n.ids w))).prod := fun pols => by
    rw [h7]; rfl
  rw [e1, hprod]
  unfold Net.joint
  simp only [List.map_nil, List.prod_nil, mul_one]
  ring

theorem total_add [Field α] [DecidableEq α] (n : Net α) (pols : List (String × Factor α)) (F G : World → α) :
    n.total pols (fun w => F w + G w) = n.total pols F + n.total pols G := by
  unfold Net.total
  rw [← sumWorlds_add]
  simp only [mul_add]

theorem total_scale [Field α] [DecidableEq α] (n : Net α) (pols : List (String × Factor α)) (c : α) (F : World → α) :
    n.total pols (fun w => c * F w) = c * n.total pols F := by
  unfold Net.total
  rw [← sumWorlds_mul]
  congr 1
  funext w
  ring

theorem split_unique {l A A' B B' : List String} {d : String} (hl : l.Nodup) (h : l = A ++ d :: B) (h' : l = A' ++ d :: B') :
    A = A' := by
  have key : ∀ {A B : List String}, l = A ++ d :: B → A = l.take (l.idxOf d) := by
    intro A B h
    have : d ∉ A := by
      rw [h, List.nodup_append] at hl
      exact fun hd => hl.2.2 d hd d (by simp) rfl
    rw [h, List.idxOf_append_of_notMem this]
    simp
  rw [key h, ← key h']

/-- The product with one of the decisions taken out. -/
theorem prod_without [Field α] {l : List String} (hl : l.Nodup) {d : String} (hd : d ∈ l) (δ : String → α) :
    (l.map δ).prod = δ d * ((l.filter (fun e => e ≠ d)).map δ).prod := by
  obtain ⟨A, B, rfl⟩ := List.append_of_mem hd
  rw [List.nodup_append, List.nodup_cons] at hl
  have hA : A.filter (fun e => decide (e ≠ d)) = A := List.filter_eq_self.2 (fun e he => by
    simp only [decide_eq_true_eq]
    exact hl.2.2 e he d (by simp))
  have hB : B.filter (fun e => decide (e ≠ d)) = B := List.filter_eq_self.2 (fun e he => by
    simp only [decide_eq_true_eq]
    rintro rfl
    exact hl.2.1.1 he)
  rw [List.filter_append, List.filter_cons_of_neg (by simp), hA, hB]
  simp only [List.map_append, List.map_cons, List.prod_append, List.prod_cons]
  ring

theorem agrees_known {n : Net α} {evidence : List (String × String)} {w w' : World}
    (h : ∀ e ∈ evidence, w e.1 = w' e.1) : n.Agrees evidence w ↔ n.Agrees evidence w' := by
  unfold Net.Agrees
  refine forall₂_congr (fun e he => ?_)
  rw [h e he]

variable [Field α] [LinearOrder α] [IsStrictOrderedRing α]

/-- After `SolvePolicies`, what a call with evidence about chance variables sums up. -/
theorem solved_observed (sch : NSched α) {n : Net α} (hn : n.Valid) (hs : n.Feasible) {stepwise : Bool}
    {tables : List (String × NFactor α)} {n' : Net α} (h : n.solvePolicies sch stepwise = (.ok tables, n'))
    {evidence : List (String × String)} (hev : ∀ e ∈ evidence, e.1 ∉ n.decisions) (ign : Bool) (F : World → α) :
    n'.total (n'.active evidence ign) F = n.total [] (fun w => F w * (n.decisions.map (fun d => n.byTables tables d w)).prod) := by
  obtain ⟨hpp, _⟩ := stored_tables sch hn (fun _ => hs) h
  have hact : n'.active evidence ign = n'.policies.filter (fun p => (fun _ => true) p.1) := by
    unfold Net.active
    rw [List.filter_eq_self.2 (fun _ _ => rfl)]
    split_ifs
    · refine List.filter_eq_self.2 (fun p hp => ?_)
      simp only [decide_eq_true_eq]
      exact fun e he h => hev e he (h ▸ hpp.subset (List.mem_map_of_mem hp))
    · rfl
  rw [hact, solved_filter sch hn hs h (fun _ => true), List.filter_eq_self.2 (fun _ _ => rfl)]

/-- After `SolvePolicies`, what a call sums up if an outcome of a decision is tried. -/
theorem solved_tried (sch : NSched α) {n : Net α} (hn : n.Valid) (hs : n.Feasible) {stepwise : Bool}
    {tables : List (String × NFactor α)} {n' : Net α} (h : n.solvePolicies sch stepwise = (.ok tables, n'))
    {evidence : List (String × String)} (hev : ∀ e ∈ evidence, e.1 ∉ n.decisions) (d o : String) (F : World → α) :
    n'.total (n'.active ((d, o) :: evidence) true) F =
      n.total [] (fun w => F w * ((n.decisions.filter (fun e => e ≠ d)).map (fun d => n.byTables tables d w)).prod) := by
  obtain ⟨hpp, _⟩ := stored_tables sch hn (fun _ => hs) h
  have hact : n'.active ((d, o) :: evidence) true = n'.policies.filter (fun p => (fun e => decide (e ≠ d)) p.1) := by
    unfold Net.active
    rw [if_pos rfl]
    refine List.filter_congr (fun p hp => ?_)
    rw [decide_eq_decide]
    constructor
    · intro h e
      exact h (d, o) (by simp) e.symm
    · intro h e he
      rcases List.mem_cons.1 he with rfl | he
      · exact fun h' => h h'.symm
      · exact fun h' => hev e he (h' ▸ hpp.subset (List.mem_map_of_mem hp))
  rw [hact, solved_filter sch hn hs h (fun e => decide (e ≠ d))]

/-- **C149.** After all decisions are solved together: with evidence about chance variables that are known when a decision
is taken, `SolveUtility` reports at least as much as with each outcome of the decision observed in addition, policies
ignored. If all that is known is observed, it reports the same as for the outcomes that the policy recommends. -/
theorem C149_tried (sch sch₁ : NSched α) (sch₂ : Nat → NSched α) {n : Net α} (hn : n.Valid)
    (hs : n.Solvable) (hd : n.decisions ≠ []) (hnn : ∀ f ∈ n.chanceTables, ∀ x ∈ f.tab, 0 ≤ x)
    (hm : ∀ order, order.Perm n.decisions → n.Ordered order → ∀ A d B, order = A ++ d :: B → n.Matters (A ++ [d]) d)
    {stepwise : Bool} (hone : stepwise = true → n.decisions.length = 1) (ign : Bool) :
    ∃ tables n' order, n.solvePolicies sch stepwise = (.ok tables, n') ∧ order.Perm n.decisions ∧ n.Ordered order ∧
      ∀ v ∈ n.variables, v.outcomes.Nodup → ∀ A B, order = A ++ v.name :: B →
        ∀ evidence, n.EvidenceOK evidence → (∀ e ∈ evidence, n.isKind .chance e.1 = true ∧ n.Known (A ++ [v.name]) e.1) →
        ∃ x : α, ∃ y : Nat → α, n'.Worth sch₁ evidence "" ign x ∧
          (∀ (k : Nat) (hk : k < v.outcomes.length), n'.Worth (sch₂ k) ((v.name, v.outcomes[k]) :: evidence) "" true (y k) ∧
            y k ≤ x) ∧
          ((∀ s, n.Known (A ++ [v.name]) s → s = v.name ∨ s ∈ evidence.map Prod.fst) →
            ∀ w, n.Allowed w → n.Agrees evidence w → n.byTables tables v.name w ≠ 0 → y (w v.name) = x) := by
  obtain ⟨tables, n', order, h1, h2, h3, h4, h5, _⟩ := C81_optimal sch sch₁ hn hs hd hnn hm hone ign
  obtain ⟨tables', m', k1, _, k3, _, k5, k6, ⟨vs0, names0, pols0, k7⟩, k8, _⟩ :=
    solvePolicies_net sch hn (fun _ => hs.toFeasible) stepwise
  rw [h1] at k1
  obtain ⟨e1, rfl⟩ := Prod.mk.inj k1
  obtain rfl := Except.ok.inj e1
  have hvars : n'.variables = n.variables := by rw [k7]
  have hkind : ∀ k s, n'.isKind k s = n.isKind k s := by intro k s; unfold Net.isKind; rw [hvars]
  have hsol : n'.AllSolved := by
    intro v hv ht
    unfold Net.hasPolicy
    exact mapGet_isSome.2 (k8.symm.subset ((k3 _).2 (by rw [isKind_iff hn (by rw [← hvars]; exact hv)]; exact ht)))
  have hutil : n'.utilityVars ≠ [] := by rw [k7]; exact hs.utility
  have hask : ∀ w, n'.asked "" w = n.totalIn w := fun w => by rw [k7]; rfl
  have hagr : ∀ ev w, n'.Agrees ev w ↔ n.Agrees ev w := fun ev w => by unfold Net.Agrees; rw [hvars]
  have hevo : ∀ {ev}, n.EvidenceOK ev → n'.EvidenceOK ev := fun h => ⟨h.keys, by rw [hvars]; exact h.known⟩
  have hnd : order.Nodup := h2.nodup_iff.2 (decisions_nodup hn)
  refine ⟨tables, n', order, h1, h2, h3, fun v hv hvn A B hAB evidence hev hk => ?_⟩
  have hdm : v.name ∈ n.decisions := h2.subset (by rw [hAB]; simp)
  have hvt : v.nodeType = .decision := (isKind_iff hn hv _).1 (mem_decisions.1 hdm)
  have hvs : v ∈ n.stateVars := mem_stateVars.2 ⟨hv, by rw [hvt]; decide⟩
  have hchance : ∀ e ∈ evidence, e.1 ∉ n.decisions := by
    intro e he h
    obtain ⟨u, hu, eu, ku⟩ := isKind_mem.1 (mem_decisions.1 h)
    obtain ⟨u', hu', eu', ku'⟩ := isKind_mem.1 (hk e he).1
    rw [name_unique hn hu hu' (by rw [eu, eu']), ku'] at ku
    exact absurd ku (by decide)
  have hfree : ∀ e ∈ evidence, e.1 ≠ v.name := fun e he h => hchance e he (h ▸ hdm)
  have hset : ∀ w k, n.Agrees evidence (w.set v.name k) ↔ n.Agrees evidence w := fun w k =>
    agrees_known (fun e he => World.set_ne _ (hfree e he) _)
  set δ := n.byTables tables with hδ
  set R : World → α := fun w => ((n.decisions.filter (fun e => e ≠ v.name)).map (fun d => δ d w)).prod with hR
  have hcount : n.count v.name = v.outcomes.length := count_eq hn hv
  have hfull : ∀ w, (n.decisions.map (fun d => δ d w)).prod = δ v.name w * R w := fun w =>
    prod_without (decisions_nodup hn) hdm (fun d => δ d w)
  -- what is reported without trying
  have hx : n'.Worth sch₁ evidence "" ign (n.total [] (fun w => if n.Agrees evidence w then
      n.totalIn w * (δ v.name w * R w) else 0)) := by
    have := worth_total sch₁ k5 k6.toPoliciesOK hsol (hevo hev) (u := "") (.inl ⟨rfl, hutil⟩) ign
    rw [solved_observed sch hn hs.toFeasible h1 hchance] at this
    convert this using 3 with w
    rw [← hδ, hfull]
    simp only [hagr, hask]
    split_ifs <;> ring
  have hy : ∀ (k : Nat) (hk : k < v.outcomes.length), n'.Worth (sch₂ k) ((v.name, v.outcomes[k]) :: evidence) "" true
      (n.total [] (fun w => if w v.name = k then (if n.Agrees evidence w then n.totalIn w * R w else 0) else 0)) := by
    intro k hk
    have := worth_total (sch₂ k) k5 k6.toPoliciesOK hsol (evidence := (v.name, v.outcomes[k]) :: evidence)
      (evidence_more (hevo hev) (by rw [show n'.stateVars = n.stateVars by rw [k7]; rfl]; exact hvs)
        (fun h => by obtain ⟨e, he, h⟩ := List.mem_map.1 h; exact hfree e he h) (List.getElem_mem hk))
      (u := "") (.inl ⟨rfl, hutil⟩) true
    rw [solved_tried sch hn hs.toFeasible h1 hchance] at this
    convert this using 3 with w
    have := agrees_cons hn hv v.outcomes[k] w (evidence := evidence)
    rw [hvn.idxOf_getElem k hk] at this
    simp only [hagr, hask, this, hR]
    by_cases a1 : w v.name = k <;> by_cases a2 : n.Agrees evidence w <;> simp [a1, a2, hδ]
  have hle : ∀ k < v.outcomes.length,
      n.total [] (fun w => if w v.name = k then (if n.Agrees evidence w then n.totalIn w * R w else 0) else 0) ≤
      n.total [] (fun w => if n.Agrees evidence w then n.totalIn w * (δ v.name w * R w) else 0) := by
    intro k hkl
    set δ' : String → World → α := fun e w => if e = v.name then
      (if n.Agrees evidence w then (if w v.name = k then 1 else 0) else δ v.name w) else δ e w with hδ'
    have hst : ∀ A' d B', order = A' ++ d :: B' → n.Strategy A' d (δ' d) := by
      intro A' d B' e
      have hold := (h4 A' d B' e).1
      by_cases ed : d = v.name
      · subst ed
        obtain rfl := split_unique hnd hAB e
        have hself : δ' v.name = fun w => if n.Agrees evidence w then (if w v.name = k then 1 else 0) else δ v.name w := by
          funext w; simp [hδ']
        rw [hself]
        refine ⟨fun w hw => ?_, fun w hw => ?_, fun w w' hw hw' h => ?_⟩
        · split_ifs
          · exact zero_le_one
          · exact le_rfl
          · exact hold.nonneg w hw
        · simp only [hset, World.set_eq]
          by_cases ha : n.Agrees evidence w
          · simp only [ha, if_true, hcount]
            simp [hkl]
          · simp only [ha, if_false]
            exact hold.one w hw
        · rw [if_congr (agrees_known (fun e he => h e.1 (hk e he).2)) (by rw [h v.name (.inl (by simp))]) (hold.known w w' hw hw' h)]
      · have : δ' d = δ d := by funext w; simp [hδ', ed]
        rw [this]
        exact hold
    have hopt := h5 δ' hst
    rw [expectedTotal_joint, expectedTotal_joint] at hopt
    have hR' : ∀ w, ((n.decisions.filter (fun e => e ≠ v.name)).map (fun d => δ' d w)).prod = R w := fun w => by
      rw [hR]
      dsimp only
      congr 1
      refine List.map_congr_left (fun e he => ?_)
      have : e ≠ v.name := by simpa using (List.mem_filter.1 he).2
      simp [hδ', this]
    have e1 : (fun w => n.totalIn w * (n.decisions.map (fun d => δ' d w)).prod) = fun w =>
        (if w v.name = k then (if n.Agrees evidence w then n.totalIn w * R w else 0) else 0) +
        (if n.Agrees evidence w then 0 else n.totalIn w * (δ v.name w * R w)) := by
      funext w
      rw [prod_without (decisions_nodup hn) hdm (fun d => δ' d w), hR']
      by_cases a1 : w v.name = k <;> by_cases a2 : n.Agrees evidence w <;> simp [hδ', a1, a2]
    have e2 : (fun w => n.totalIn w * (n.decisions.map (fun d => δ d w)).prod) = fun w =>
        (if n.Agrees evidence w then n.totalIn w * (δ v.name w * R w) else 0) +
        (if n.Agrees evidence w then 0 else n.totalIn w * (δ v.name w * R w)) := by
      funext w
      rw [hfull]
      split_ifs <;> simp
    rw [e1, e2, total_add, total_add] at hopt
    exact le_of_add_le_add_right hopt
  refine ⟨_, _, hx, fun k hkl => ⟨hy k hkl, hle k hkl⟩, fun hall w hw ha hne => ?_⟩
  set x := n.total [] (fun w => if n.Agrees evidence w then n.totalIn w * (δ v.name w * R w) else 0) with hxd
  set y : Nat → α := fun k => n.total [] (fun w => if w v.name = k then
    (if n.Agrees evidence w then n.totalIn w * R w else 0) else 0) with hyd
  have hst := (h4 A v.name B hAB).1
  have hwset : ∀ k < v.outcomes.length, n.Allowed (w.set v.name k) := by
    intro k hk u hu
    by_cases e : u.name = v.name
    · rw [e, World.set_eq, name_unique hn (mem_stateVars.1 hu).1 hv e]; exact hk
    · rw [World.set_ne _ e]; exact hw u hu
  have hwl : w v.name < v.outcomes.length := hw v hvs
  have hsum : x = ∑ k ∈ range v.outcomes.length, δ v.name (w.set v.name k) * y k := by
    rw [hxd, ← total_split hn [] hvs]
    refine Finset.sum_congr rfl (fun k hk => ?_)
    rw [hyd]
    dsimp only
    rw [← total_scale]
    refine total_congr hn (fun w' hw' => ?_)
    by_cases a1 : w' v.name = k <;> by_cases a2 : n.Agrees evidence w' <;> simp only [a1, a2, if_true, if_false, mul_zero]
    have : δ v.name w' = δ v.name (w.set v.name k) := by
      refine hst.known _ _ hw' (hwset k (by simpa using hk)) (fun s h => ?_)
      rcases hall s h with rfl | h
      · rw [World.set_eq, a1]
      · obtain ⟨e, he, rfl⟩ := List.mem_map.1 h
        rw [World.set_ne _ (hfree e he)]
        obtain ⟨u, hu, eu, _⟩ := hev.known e he
        rw [ha e he u hu eu, a2 e he u hu eu]
    rw [this]
    ring
  have h1s : ∑ k ∈ range v.outcomes.length, δ v.name (w.set v.name k) = 1 := by rw [← hcount]; exact hst.one w hw
  by_contra hcon
  have hlt : y (w v.name) < x := lt_of_le_of_ne (hle _ hwl) hcon
  have : x < ∑ k ∈ range v.outcomes.length, δ v.name (w.set v.name k) * x := by
    rw [hsum]
    conv_rhs => rw [← hsum]
    refine Finset.sum_lt_sum (fun k hk => mul_le_mul_of_nonneg_left (hle k (by simpa using hk))
      (hst.nonneg _ (hwset k (by simpa using hk)))) ⟨w v.name, by simpa using hwl, ?_⟩
    rw [World.set_self]
    exact mul_lt_mul_of_pos_left hlt (lt_of_le_of_ne (hst.nonneg w hw) (Ne.symm hne))
  rw [← Finset.sum_mul, h1s, one_mul] at this
  exact lt_irrefl _ this

/-- **C149, probabilities.** After `SolvePolicies`, in both modes: the probability of evidence about chance variables that
come before a decision is the same, whichever outcome of the decision is tried, and the same if none is tried. So what
`SolveUtility` reports for these can be compared with or without division by the probability of the evidence. -/
theorem C149_likely (sch sch₁ : NSched α) (sch₂ : Nat → NSched α) {n : Net α} (hn : n.Valid) (hs : n.Solvable)
    (hr : n.Regular) {rank : String → Nat}
    (hc : ∀ f ∈ n.chanceTables, ∀ g ∈ f.given, rank g < rank f.forVar)
    (hd : ∀ f ∈ n.factors, n.isKind .decision f.forVar = true → ∀ g ∈ f.given, rank g < rank f.forVar)
    (hl : n.decisions.Pairwise (fun d e => rank d < rank e) ∨ n.InLine) (stepwise ign : Bool) :
    ∃ tables n', n.solvePolicies sch stepwise = (.ok tables, n') ∧
      ∀ v ∈ n.variables, v.nodeType = .decision → v.outcomes.Nodup →
        ∀ evidence, n.EvidenceOK evidence → (∀ e ∈ evidence, n.isKind .chance e.1 = true ∧ rank e.1 < rank v.name) →
        ∃ p : α, n'.Likely sch₁ evidence ign p ∧
          ∀ (k : Nat) (hk : k < v.outcomes.length), n'.Likely (sch₂ k) ((v.name, v.outcomes[k]) :: evidence) true p := by
  obtain ⟨tables, n', order, h1, h2, h3, h4, h5⟩ := solved_order sch hn hs stepwise
  obtain ⟨tables', m', k1, _, k3, _, k5, k6, ⟨vs0, names0, pols0, k7⟩, k8, _⟩ :=
    solvePolicies_net sch hn (fun _ => hs.toFeasible) stepwise
  rw [h1] at k1
  obtain ⟨e1, rfl⟩ := Prod.mk.inj k1
  obtain rfl := Except.ok.inj e1
  have htim := timed_order hn hc hd hl h2 h3 h4
  have hvars : n'.variables = n.variables := by rw [k7]
  have hsol : n'.AllSolved := by
    intro v hv ht
    unfold Net.hasPolicy
    exact mapGet_isSome.2 (k8.symm.subset ((k3 _).2 (by rw [isKind_iff hn (by rw [← hvars]; exact hv)]; exact ht)))
  have hagr : ∀ ev w, n'.Agrees ev w ↔ n.Agrees ev w := fun ev w => by unfold Net.Agrees; rw [hvars]
  have hevo : ∀ {ev}, n.EvidenceOK ev → n'.EvidenceOK ev := fun h => ⟨h.keys, by rw [hvars]; exact h.known⟩
  have hnd : order.Nodup := h2.nodup_iff.2 (decisions_nodup hn)
  refine ⟨tables, n', h1, fun v hv hvt hvn evidence hev hk => ?_⟩
  have hdm : v.name ∈ n.decisions := mem_decisions.2 ((isKind_iff hn hv _).2 hvt)
  have hvs : v ∈ n.stateVars := mem_stateVars.2 ⟨hv, by rw [hvt]; decide⟩
  have hcount : n.count v.name = v.outcomes.length := count_eq hn hv
  have hchance : ∀ e ∈ evidence, e.1 ∉ n.decisions := by
    intro e he h
    obtain ⟨u, hu, eu, ku⟩ := isKind_mem.1 (mem_decisions.1 h)
    obtain ⟨u', hu', eu', ku'⟩ := isKind_mem.1 (hk e he).1
    rw [name_unique hn hu hu' (by rw [eu, eu']), ku'] at ku
    exact absurd ku (by decide)
  have hfree : ∀ e ∈ evidence, e.1 ≠ v.name := fun e he h => hchance e he (h ▸ hdm)
  set δ := n.byTables tables with hδ
  set F : World → α := fun w => if n.Agrees evidence w then 1 else 0 with hF
  have hblind : ∀ u ∈ n.stateVars, rank v.name ≤ rank u.name → Blind F u.name := by
    intro u _ hu w k
    simp only [hF]
    rw [if_congr (agrees_known (fun e he => World.set_ne _ (fun h => ?_) _)) rfl rfl]
    have := (hk e he).2
    rw [h] at this
    omega
  refine ⟨_, by
    have := likely_mass sch₁ k5 k6.toPoliciesOK hsol (hevo hev) ign
    unfold Net.mass at this
    rw [solved_observed sch hn hs.toFeasible h1 hchance] at this
    exact this, fun k hkl => ?_⟩
  have := likely_mass (sch₂ k) k5 k6.toPoliciesOK hsol (evidence := (v.name, v.outcomes[k]) :: evidence)
      (evidence_more (hevo hev) (by rw [show n'.stateVars = n.stateVars by rw [k7]; rfl]; exact hvs)
        (fun h => by obtain ⟨e, he, h⟩ := List.mem_map.1 h; exact hfree e he h) (List.getElem_mem hkl)) true
  unfold Net.mass at this
  rw [solved_tried sch hn hs.toFeasible h1 hchance] at this
  convert this using 1
  set δ' : String → World → α := fun e w => if e = v.name then (if w v.name = k then 1 else 0) else δ e w with hδ'
  have hst : ∀ A' d B', order = A' ++ d :: B' → n.Strategy A' d (δ' d) := by
    intro A' d B' e
    have hold := h5 A' d B' e
    by_cases ed : d = v.name
    · subst ed
      have hself : δ' v.name = fun w => if w v.name = k then 1 else 0 := by funext w; simp [hδ']
      rw [hself]
      refine ⟨fun w hw => ?_, fun w hw => ?_, fun w w' hw hw' h => ?_⟩
      · split_ifs
        · exact zero_le_one
        · exact le_rfl
      · simp only [World.set_eq, hcount]
        simp [hkl]
      · rw [h v.name (.inl (by simp))]
    · have : δ' d = δ d := by funext w; simp [hδ', ed]
      rw [this]
      exact hold
  have e1 := strategies_before hn hr htim h2 h5 hblind
  have e2 := strategies_before hn hr htim h2 hst hblind
  have e3 : n.total [] (fun w => (if n'.Agrees evidence w then 1 else 0) * (n.decisions.map (fun d => δ d w)).prod) =
      sumWorlds n.stateVars (fun w => (n.chanceTables.map (fun f => n.prob f w)).prod *
        (n.decisions.map (fun d => δ d w)).prod * F w) (fun _ => 0) := by
    unfold Net.total Net.joint
    congr 1
    funext w
    simp only [List.map_nil, List.prod_nil, mul_one, hagr, hF]
    ring
  have e4 : n.total [] (fun w => (if n'.Agrees ((v.name, v.outcomes[k]) :: evidence) w then 1 else 0) *
      ((n.decisions.filter (fun e => e ≠ v.name)).map (fun d => δ d w)).prod) =
      sumWorlds n.stateVars (fun w => (n.chanceTables.map (fun f => n.prob f w)).prod *
        (n.decisions.map (fun d => δ' d w)).prod * F w) (fun _ => 0) := by
    unfold Net.total Net.joint
    congr 1
    funext w
    have hag := agrees_cons hn hv v.outcomes[k] w (evidence := evidence)
    rw [hvn.idxOf_getElem k hkl] at hag
    have hrest : ((n.decisions.filter (fun e => e ≠ v.name)).map (fun d => δ' d w)).prod =
        ((n.decisions.filter (fun e => e ≠ v.name)).map (fun d => δ d w)).prod := by
      congr 1
      refine List.map_congr_left (fun e he => ?_)
      have : e ≠ v.name := by simpa using (List.mem_filter.1 he).2
      simp [hδ', this]
    rw [prod_without (decisions_nodup hn) hdm (fun d => δ' d w), hrest]
    simp only [List.map_nil, List.prod_nil, mul_one, hagr, hF, hag, hδ', if_true]
    by_cases a1 : w v.name = k <;> by_cases a2 : n.Agrees evidence w <;> simp [a1, a2]
  rw [e3, e4, e1, e2]
  congr 1
  funext w
  congr 2
  refine List.map_congr_left (fun u hu => ?_)
  have : u.name ≠ v.name := by
    intro e
    have := (List.mem_filter.1 hu).2
    rw [e] at this
    simp at this
  simp [hδ', this]

/-- **C149, one decision.** With evidence about parents of the decision, `SolveUtility` reports at least as much as with
each option tried. If all parents are observed it reports what the recommended options give: these are the best. -/
theorem C149_one_decision (sch sch₁ : NSched α) (sch₂ : Nat → NSched α) {n : Net α} (hn : n.Valid)
    (hs : n.Solvable) {d : NVar} (hdv : d ∈ n.variables) (hdn : d.outcomes.Nodup) (hd : n.decisions = [d.name])
    (hnn : ∀ f ∈ n.chanceTables, ∀ x ∈ f.tab, 0 ≤ x) (hm : n.Matters [d.name] d.name) (stepwise ign : Bool) :
    ∃ t n', n.solvePolicies sch stepwise = (.ok [(d.name, t)], n') ∧
      ∀ evidence, n.EvidenceOK evidence → (∀ e ∈ evidence, n.isKind .chance e.1 = true ∧
          ∃ f ∈ n.factors, f.forVar = d.name ∧ e.1 ∈ f.given) →
        ∃ x : α, ∃ y : Nat → α, n'.Worth sch₁ evidence "" ign x ∧
          (∀ (k : Nat) (hk : k < d.outcomes.length), n'.Worth (sch₂ k) ((d.name, d.outcomes[k]) :: evidence) "" true (y k) ∧
            y k ≤ x) ∧
          ((∀ f ∈ n.factors, f.forVar = d.name → ∀ s ∈ f.given, s ∈ evidence.map Prod.fst) →
            ∀ w, n.Allowed w → n.Agrees evidence w → n.entry t w ≠ 0 → y (w d.name) = x) := by
  obtain ⟨t, n', h1, _⟩ := C80_one_decision sch hn hs.toFeasible hd stepwise
  obtain ⟨tables, m', order, k1, k2, k3, k4⟩ := C149_tried sch sch₁ sch₂ hn hs (by rw [hd]; simp) hnn
    (matters_order (by rw [hd]; intro e he; rw [List.mem_singleton] at he; subst he; exact hm)) (stepwise := stepwise)
    (by simp [hd]) ign
  rw [h1] at k1
  obtain ⟨e1, rfl⟩ := Prod.mk.inj k1
  obtain rfl := Except.ok.inj e1
  obtain rfl : order = [d.name] := List.perm_singleton.1 (hd ▸ k2)
  refine ⟨t, n', h1, fun evidence hev hk => ?_⟩
  obtain ⟨x, y, b1, b2, b3⟩ := k4 d hdv hdn [] [] rfl evidence hev (fun e he => ⟨(hk e he).1, by
    obtain ⟨f, hf, h1, h2⟩ := (hk e he).2
    exact .inr ⟨f, hf, by simp [h1], h2⟩⟩)
  refine ⟨x, y, b1, b2, fun hall w hw ha hne => b3 (fun s h => ?_) w hw ha (by simpa [Net.byTables] using hne)⟩
  rcases h with h | ⟨f, hf, h1, h2⟩
  · exact .inl (by simpa using h)
  · exact .inr (hall f hf (by simpa using h1) s h2)

omit [IsStrictOrderedRing α] in
theorem worth_unique {n : Net α} {sch : NSched α} {evidence : List (String × String)} {u : String} {ign : Bool} {x y : α}
    (hx : n.Worth sch evidence u ign x) (hy : n.Worth sch evidence u ign y) : x = y := by
  obtain ⟨g, m, h1, h2⟩ := hx
  obtain ⟨g', m', h1', h2'⟩ := hy
  rw [h1] at h1'
  obtain rfl := Except.ok.inj (Prod.mk.inj h1').1
  rw [h2] at h2'
  exact (List.cons.inj h2').1

omit [IsStrictOrderedRing α] in
theorem likely_unique {n : Net α} {sch : NSched α} {evidence : List (String × String)} {ign : Bool} {x y : α}
    (hx : n.Likely sch evidence ign x) (hy : n.Likely sch evidence ign y) : x = y := by
  obtain ⟨r, g, m, h1, h2⟩ := hx
  obtain ⟨r', g', m', h1', h2'⟩ := hy
  rw [h1] at h1'
  obtain rfl := (Prod.mk.inj (Except.ok.inj (Prod.mk.inj h1').1)).2
  rw [h2] at h2'
  exact (List.cons.inj h2').1

omit [IsStrictOrderedRing α] in
/-- The order in which evidence is listed does not matter. -/
theorem expected_members (N : Net α) {ev ev' : List (String × String)} (h : ∀ e, e ∈ ev ↔ e ∈ ev') (ign : Bool) (u : String) :
    N.expected ev ign u = N.expected ev' ign u ∧
      N.mass (N.active ev ign) (N.Agrees ev) = N.mass (N.active ev' ign) (N.Agrees ev') := by
  have h1 : N.active ev ign = N.active ev' ign := by
    unfold Net.active
    simp only [h]
  have h2 : ∀ w, N.Agrees ev w ↔ N.Agrees ev' w := fun w => by
    unfold Net.Agrees
    simp only [h]
  unfold Net.expected Net.mass
  simp only [h1, h2, and_self]

/-- **C149 in the app.** In a session with bbni in which parents of the decision are chosen as evidence: if an option of the
decision is chosen in addition, with policies ignored, the total utility shown is at most the one shown without it. If all
parents are chosen and the option is recommended, it is the same. -/
theorem C149_shown {n : Net α} (hr : AppReady n) (hs : n.Solvable) {d : NVar} (hdv : d ∈ n.variables)
    (hdn : d.outcomes.Nodup) (hd : n.decisions = [d.name]) (hnn : ∀ f ∈ n.chanceTables, ∀ x ∈ f.tab, 0 ≤ x)
    (hm : n.Matters [d.name] d.name) (hreg : n.Regular) {rank : String → Nat}
    (hc : ∀ f ∈ n.chanceTables, ∀ g ∈ f.given, rank g < rank f.forVar)
    (hdr : ∀ f ∈ n.factors, n.isKind .decision f.forVar = true → ∀ g ∈ f.given, rank g < rank f.forVar)
    {fm : Fmt α} {sch0 : NSched α} {sch1 : Nat → NSched α} {sch sch' : Nat → Nat → NSched α}
    {evidence : List (String × String)} (hev : n.EvidenceOK evidence) {a0 a a' : App α}
    (h0 : startApp fm sch0 sch1 n evidence = .ok a0) {es es' : List Event} {i i' : Nat}
    (h : App.run fm sch i es a0 = .ok a) (h' : App.run fm sch' i' es' a0 = .ok a') (hign : a'.ignorePolicies = true)
    (hpar : ∀ e ∈ a.evidence, n.isKind .chance e.1 = true ∧ ∃ f ∈ n.factors, f.forVar = d.name ∧ e.1 ∈ f.given)
    {k : Nat} (hk : k < d.outcomes.length)
    (hmore : ∀ e, e ∈ a'.evidence ↔ e = (d.name, d.outcomes[k]) ∨ e ∈ a.evidence)
    (possible : (n.solvePolicies sch0 true).2.mass ((n.solvePolicies sch0 true).2.active a.evidence a.ignorePolicies)
      ((n.solvePolicies sch0 true).2.Agrees a.evidence) ≠ 0) :
    ∃ t, (n.solvePolicies sch0 true).1 = .ok [(d.name, t)] ∧ ∃ x y : α,
      (∀ u ∈ n.utilityVars, ∃ b b' : Option α, mapGet a.marginals u.name = some [b, some x] ∧
        mapGet a'.marginals u.name = some [b', some y]) ∧ y ≤ x ∧
      ((∀ f ∈ n.factors, f.forVar = d.name → ∀ s ∈ f.given, s ∈ a.evidence.map Prod.fst) →
        ∀ w, n.Allowed w → n.Agrees a.evidence w → w d.name = k → n.entry t w ≠ 0 → y = x) := by
  have hn := hr.valid
  have hdk : n.isKind .decision d.name = true := mem_decisions.1 (by rw [hd]; simp)
  have hl := run_live hr hev h0 h
  obtain ⟨tables, N, k1, _, _, _, kA, _, k6, vs, names, ps, k7⟩ := hr.solve sch0
  rw [k1] at possible hl
  dsimp only at possible hl
  have hNv : N.variables = n.variables := by rw [k7]
  have heva : n.EvidenceOK a.evidence := ⟨hl.evidence.keys, by rw [← hNv]; exact hl.evidence.known⟩
  obtain ⟨t, N', b1, b2⟩ := C149_one_decision sch0 sch0 (fun _ => sch0) hn hs hdv hdn hd hnn hm true a.ignorePolicies
  obtain ⟨tables'', N'', c1, c2⟩ := C149_likely sch0 sch0 (fun _ => sch0) hn hs hreg hc hdr
    (.inl (by rw [hd]; simp)) true a.ignorePolicies
  rw [k1] at b1 c1
  obtain ⟨e1, rfl⟩ := Prod.mk.inj b1
  obtain rfl := Except.ok.inj e1
  obtain ⟨e1, rfl⟩ := Prod.mk.inj c1
  obtain rfl := Except.ok.inj e1
  obtain ⟨x, y, b3, b4, b5⟩ := b2 a.evidence heva hpar
  obtain ⟨p, c3, c4⟩ := c2 d hdv ((isKind_iff hn hdv _).1 hdk) hdn a.evidence heva (fun e he => ⟨(hpar e he).1, by
    obtain ⟨f, hf, h1, h2⟩ := (hpar e he).2
    have := hdr f hf (by rw [h1]; exact hdk) _ h2
    rwa [h1] at this⟩)
  have hnonneg : N.Nonneg := nonneg_solved k6 (by rw [k7]; exact hnn)
  have hutil : N.utilityVars ≠ [] := by rw [k7]; exact hs.utility
  have hsol : N.AllSolved := kA.solved
  have hev2 : N.EvidenceOK ((d.name, d.outcomes[k]) :: a.evidence) := by
    refine evidence_more hl.evidence (mem_stateVars.2 ⟨by rw [hNv]; exact hdv, ?_⟩) (fun h => ?_) (List.getElem_mem hk)
    · rw [(isKind_iff hn hdv _).1 hdk]; decide
    · obtain ⟨e, he, h⟩ := List.mem_map.1 h
      have := (hpar e he).1
      rw [h, isKind_iff hn hdv, (isKind_iff hn hdv _).1 hdk] at this
      exact absurd this (by decide)
  have hx := worth_unique b3 (worth_total sch0 kA.valid kA.policies hsol hl.evidence (u := "") (.inl ⟨rfl, hutil⟩) a.ignorePolicies)
  have hp := likely_unique c3 (likely_mass sch0 kA.valid kA.policies hsol hl.evidence a.ignorePolicies)
  have hy := worth_unique (b4 k hk).1 (worth_total sch0 kA.valid kA.policies hsol hev2 (u := "") (.inl ⟨rfl, hutil⟩) true)
  have hp' := likely_unique (c4 k hk) (likely_mass sch0 kA.valid kA.policies hsol hev2 true)
  have hpos : 0 < p := lt_of_le_of_ne (hp ▸ mass_nonneg hnonneg active_sub _) (by rw [hp]; exact Ne.symm possible)
  have hmem : ∀ e, e ∈ a'.evidence ↔ e ∈ (d.name, d.outcomes[k]) :: a.evidence := fun e => by rw [hmore, List.mem_cons]
  obtain ⟨m1, m2⟩ := expected_members N hmem true ""
  refine ⟨t, by rw [k1], x / p, y k / p, fun u hu => ?_, div_le_div_of_nonneg_right (b4 k hk).2 hpos.le, fun hall w hw ha hwk hne => ?_⟩
  · have s1 := C72_utilities hr hev h0 h (N := N) (by rw [k1]) possible hu
    have s2 := C72_utilities hr hev h0 h' (N := N) (by rw [k1]) (by rw [hign, m2, ← hp']; exact hpos.ne') hu
    refine ⟨_, _, by rw [s1, hx, hp]; rfl, by rw [s2, hign, m1, hy, hp']; rfl⟩
  · rw [← b5 hall w hw ha hne, hwk]

end Bbn
