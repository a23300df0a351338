import Verif.Lemmas.NetStepwise
import Verif.Props.NetOptimal

/-!
# Decisions solved one after another
-/

set_option autoImplicit false

namespace Bbn

open Finset

variable {α : Type}

/-- A sum over what is not known to a decision, with stored policies or with a way to take the later decisions. -/
theorem sumPols_tables [Field α] [LinearOrder α] [IsStrictOrderedRing α] {n : Net α} (hn : n.Valid)
    {δ : String → World → α} {pols : List (String × Factor α)} (F : World → α)
    (hval : ∀ p ∈ pols, ∀ w, n.Allowed w → p.2.val (n.ids w) = δ p.1 w) {later : List String}
    (hl : later.Perm (pols.map Prod.fst)) {d : String} {w : World} (hw : n.Allowed w) :
    sumWorlds (n.hiddenFrom (pols.map Prod.fst) d) (fun w => n.joint pols w * F w) w =
      sumWorlds (n.hiddenFrom later d) (fun w => (n.chanceTables.map (fun f => n.prob f w)).prod *
        (later.map (fun e => δ e w)).prod * F w) w := by
  have hh : n.hiddenFrom later d = n.hiddenFrom (pols.map Prod.fst) d := by
    unfold Net.hiddenFrom
    simp only [hl.mem_iff]
  rw [hh]
  apply sumWorlds_congr
  · exact hn.names.sublist (List.filter_sublist.map _)
  intro w' h1 h2
  have hw' : n.Allowed w' := by
    intro v hv
    by_cases hu : v.name ∈ (n.hiddenFrom (pols.map Prod.fst) d).map NVar.name
    · obtain ⟨u, hu1, hu2⟩ := List.mem_map.1 hu
      have := name_unique hn (List.mem_filter.1 hu1).1 (mem_stateVars.1 hv).1 hu2
      exact this ▸ h1 u hu1
    · rw [h2 _ hu]; exact hw v hv
  unfold Net.joint
  rw [(hl.map (fun e => δ e w')).prod_eq, List.map_map]
  congr 3
  apply List.map_congr_left
  intro p hp
  exact hval p hp w' hw'

theorem worthPols_tables [Field α] [LinearOrder α] [IsStrictOrderedRing α] {n : Net α} (hn : n.Valid)
    {tables : List (String × NFactor α)} {pols : List (String × Factor α)}
    (hval : ∀ p ∈ pols, ∀ w, n.Allowed w → p.2.val (n.ids w) = n.byTables tables p.1 w) {later : List String}
    (hl : later.Perm (pols.map Prod.fst)) {d : String} {w : World} (hw : n.Allowed w) :
    n.worthPols pols d w = n.worthTo (n.byTables tables) later d w :=
  sumPols_tables hn n.totalIn hval hl hw

theorem idxOf_lt {β : Type} [DecidableEq β] {C D E : List β} {a b : β} (h : (C ++ a :: (D ++ b :: E)).Nodup) :
    (C ++ a :: (D ++ b :: E)).idxOf a < (C ++ a :: (D ++ b :: E)).idxOf b := by
  rw [List.nodup_append] at h
  obtain ⟨_, h1, h2⟩ := h
  have ha : a ∉ C := fun h => h2 a h a (by simp) rfl
  have hb : b ∉ C := fun h => h2 b h b (by simp) rfl
  have hab : a ≠ b := by
    rintro rfl
    exact (List.nodup_cons.1 h1).1 (by simp)
  rw [List.idxOf_append_of_notMem ha, List.idxOf_append_of_notMem hb, List.idxOf_cons_self, List.idxOf_cons_ne _ hab]
  omega

/-- The order in which decisions were solved one after another. -/
theorem stepwise_order [Field α] [LinearOrder α] [IsStrictOrderedRing α] (sch : NSched α) {n : Net α} (hn : n.Valid)
    (hs : (∃ s, n.isKind .decision s = true) → n.Solvable) :
    ∃ tables n', n.solvePolicies sch true = (.ok tables, n') ∧ (n'.policies.map Prod.fst).Perm n.decisions ∧
      (∀ p ∈ n'.policies, ∀ w, n.Allowed w → p.2.val (n.ids w) = n.byTables tables p.1 w) ∧
      (∀ p ∈ n'.policies, ∃ t ∈ tables, t.1 = p.1 ∧ n.PolicyTable t.1 t.2 ∧ n.byTables tables p.1 = n.entry t.2 ∧
        t.2.dims = p.2.vars.map n.nameAt) ∧
      ∀ A p B, n'.policies = A ++ p :: B → n.BestAfter A p := by
  obtain ⟨tables, n', h1, h2, h3, h4, h5, h6, h7, h8, ⟨m, hm1, hm2, _⟩, h9, _⟩ := solvePolicies_net sch hn (fun h => (hs h).toFeasible) true
  obtain ⟨hperm, htab⟩ := stored_tables sch hn (fun h => (hs h).toFeasible) h1
  refine ⟨tables, n', h1, hperm, htab, ?_, ?_⟩
  · intro p hp
    obtain ⟨t, ht, hte⟩ := List.mem_map.1 (h8.subset (List.mem_map_of_mem (f := Prod.fst) hp))
    exact ⟨t, ht, hte, h4 t ht, by rw [← hte, byTables_eq h2 ht], (h9 t ht p hp hte.symm).1⟩
  · by_cases hd : n.decisions = []
    · intro A p B e
      rw [e] at hperm
      rw [hd] at hperm
      simpa using hperm.length_eq
    have hopen : Net.openDecisions { n with policies := [] } = n.variables.filter (fun v => v.nodeType = .decision) := by
      unfold Net.openDecisions
      apply List.filter_congr
      intro v _
      simp [Net.hasPolicy, mapGet]
    have hlen : (n.variables.filter (fun v => v.nodeType = .decision)).length ≠ 0 := by
      intro e
      apply hd
      unfold Net.decisions
      rw [List.length_eq_zero_iff.1 e]; rfl
    have hdn : ∃ s, n.isKind .decision s = true := by
      obtain ⟨s, hs⟩ := List.exists_mem_of_ne_nil _ hd
      exact ⟨s, mem_decisions.1 hs⟩
    obtain ⟨new, k1, k2⟩ := stepwise_loop sch _ 0 { n with policies := [] } (hn.with n.vs n.names [])
      (fun _ => (hs hdn).with n.vs n.names []) ⟨⟨List.nodup_nil, by simp, by simp, by simp⟩, by simp⟩ (by
        rw [hopen]
        unfold Net.countDecisionSteps
        rw [if_neg (by simp)]
        dsimp only
        rw [if_neg hlen]) m hm1
    intro A p B e
    rw [hm2, k1] at e
    have := (k2 A p B e).with
    simpa using this

/-- If everything listed after an element comes before it in another list, the lists are the reverse of each other. -/
theorem eq_reverse_of_later {β : Type} {D : List β} : ∀ {P : List β}, P.Perm D → D.Nodup →
    (∀ X q Y, P = X ++ q :: Y → ∀ A B, D = A ++ q :: B → ∀ e ∈ B, e ∈ X) → P = D.reverse := by
  induction D using List.reverseRecOn with
  | nil => intro P h _ _; simpa using h
  | append_singleton D d ih =>
    intro P h hd hl
    obtain ⟨hd1, _, hd2⟩ := List.nodup_append.1 hd
    match P, h, hl with
    | [], h, _ => have := h.length_eq; simp at this
    | q :: P, h, hl =>
      obtain rfl : q = d := by
        obtain ⟨A, B, e⟩ := List.append_of_mem (h.subset (List.mem_cons_self (a := q) (l := P)))
        obtain rfl : B = [] := List.eq_nil_iff_forall_not_mem.2 (fun x hx => by
          have := hl [] q P rfl A B e x hx
          simp at this)
        have := (List.append_inj' e rfl).2
        simpa using this.symm
      have hp : P.Perm D := by
        have := h.trans (List.perm_append_comm (l₁ := D) (l₂ := [q]))
        exact (List.perm_cons q).1 this
      rw [List.reverse_append, List.reverse_singleton, List.singleton_append, ih hp hd1]
      intro X x Y hX A B hD e he
      have := hl (q :: X) x Y (by rw [hX]; rfl) A (B ++ [q]) (by rw [hD]; simp) e (by simp [he])
      rcases List.mem_cons.1 this with rfl | h'
      · exact absurd rfl (hd2 e (by rw [hD]; simp [he]) e (by simp))
      · exact h'

/-- If each policy comes next after those before it, the reverse order respects the declared order of the decisions. -/
theorem ordered_of_next {n : Net α} (hn : n.Valid) {pols : List (String × Factor α)}
    (h2 : (pols.map Prod.fst).Perm n.decisions) (h4 : ∀ A p B, pols = A ++ p :: B → n.NextAfter A p) :
    n.Ordered (pols.map Prod.fst).reverse ∧ (n.Ordered n.decisions → (pols.map Prod.fst).reverse = n.decisions) := by
  refine ⟨?_, ?_⟩
  · intro A d B e p hp
    have hpm : p ∈ (pols.map Prod.fst).reverse :=
      ((List.reverse_perm _).trans h2).symm.subset (mem_decisions.2 hp.1)
    have e' := congrArg List.reverse e
    rw [List.reverse_reverse] at e'
    simp only [List.reverse_append, List.reverse_cons, List.append_assoc, List.singleton_append] at e'
    have hnd : (pols.map Prod.fst).Nodup := h2.nodup_iff.2 (decisions_nodup hn)
    rw [e, List.mem_append, List.mem_cons] at hpm
    rcases hpm with h | h
    · exact h
    exfalso
    -- `p` was solved when `d` was still open
    obtain ⟨X, q, Y, e2, rfl⟩ : ∃ X q Y, pols = X ++ q :: Y ∧ q.1 = p := by
      have : p ∈ pols.map Prod.fst := h2.symm.subset (mem_decisions.2 hp.1)
      obtain ⟨q, hq, rfl⟩ := List.mem_map.1 this
      obtain ⟨X, Y, e2⟩ := List.append_of_mem hq
      exact ⟨X, q, Y, e2, rfl⟩
    refine (h4 X q Y e2).last d hp.2.1 ?_ hp
    intro hdX
    rcases h with h | h
    · rw [← h] at hdX
      exact (h4 X q Y e2).new hdX
    · have hsp : X.map Prod.fst ++ q.1 :: Y.map Prod.fst = B.reverse ++ d :: A.reverse := by
        rw [← e', e2]; simp
      rw [e'] at hnd
      obtain ⟨C, D, hC⟩ := List.append_of_mem hdX
      have hB : q.1 ∈ B.reverse := List.mem_reverse.2 h
      obtain ⟨E, F, hE⟩ := List.append_of_mem hB
      rw [hC, hE] at hsp
      rw [hE] at hnd
      simp only [List.append_assoc, List.cons_append] at hsp hnd
      -- in a list without duplicates `d` cannot be both before and after `q`
      have hnd2 := hnd
      rw [← hsp] at hnd2
      have i1 := idxOf_lt hnd2
      have i2 := idxOf_lt hnd
      rw [hsp] at i1
      omega
  · intro ho
    rw [eq_reverse_of_later h2 (decisions_nodup hn), List.reverse_reverse]
    intro X q Y e A B hD x hx
    obtain ⟨X', Z, e2, hX, hZ⟩ := List.map_eq_append_iff.1 e
    obtain ⟨q', Y', rfl, rfl, _⟩ := List.map_eq_cons_iff.1 hZ
    rw [← hX]
    exact (h4 X' q' Y' e2).listed ho A B hD x hx

/-- Each policy uses only what is known. -/
theorem known_of_next {n : Net α} {pols : List (String × Factor α)} (h2 : (pols.map Prod.fst).Perm n.decisions)
    (h4 : ∀ A p B, pols = A ++ p :: B → n.NextAfter A p) {A B : List String} {d : String}
    (e : (pols.map Prod.fst).reverse = A ++ d :: B) :
    ∃ X q Y, pols = X ++ q :: Y ∧ q.1 = d ∧ X.map Prod.fst = B.reverse ∧
      ∀ x ∈ q.2.vars, n.Known (A ++ [d]) (n.nameAt x) := by
  have e' := congrArg List.reverse e
  rw [List.reverse_reverse] at e'
  simp only [List.reverse_append, List.reverse_cons, List.append_assoc, List.singleton_append] at e'
  obtain ⟨X, Z, e2, hX, hZ⟩ := List.map_eq_append_iff.1 e'
  obtain ⟨q, Y, rfl, rfl, hY⟩ := List.map_eq_cons_iff.1 hZ
  refine ⟨X, q, Y, e2, rfl, hX, ?_⟩
  intro x hx
  rcases (h4 X q Y e2).sees x hx with ⟨k1, k2⟩ | ⟨f, hf, k1, k2⟩
  · left
    have : n.nameAt x ∈ pols.map Prod.fst := h2.symm.subset (mem_decisions.2 k1)
    rw [e', List.mem_append] at this
    rcases this with h | h
    · rw [hX] at k2; exact absurd h k2
    · rw [List.mem_cons, List.mem_reverse] at h
      simp [h.symm]
  · exact .inr ⟨f, hf, by rw [k1]; simp, k2⟩

/-- **C83**, in detail. Decisions solved one after another: there is an order of the decisions that respects their declared
order, and is the listed order if this respects the declared one, such that each policy is a way to decide that uses
only what is known by then, and a best response to the policies of the later decisions. In every world, another outcome of the
decision is not worth more to it, if the later decisions follow their policies, and all that is not known to the decision
is as its probabilities say. -/
theorem C83_listed [Field α] [LinearOrder α] [IsStrictOrderedRing α] (sch : NSched α) {n : Net α} (hn : n.Valid)
    (hs : (∃ s, n.isKind .decision s = true) → n.Solvable) :
    ∃ tables n' order, n.solvePolicies sch true = (.ok tables, n') ∧ order.Perm n.decisions ∧ n.Ordered order ∧
      (n.Ordered n.decisions → order = n.decisions) ∧
      (∀ A d B, order = A ++ d :: B → n.Strategy A d (n.byTables tables d) ∧
        ∀ t ∈ tables, t.1 = d → ∀ s ∈ t.2.given, n.Known (A ++ [d]) s) ∧
      ((∀ f ∈ n.chanceTables, ∀ x ∈ f.tab, 0 ≤ x) → ∀ A d B, order = A ++ d :: B → n.Matters [d] d →
        ∀ w : World, (∀ v ∈ n.variables, w v.name < v.outcomes.length) → n.byTables tables d w ≠ 0 → ∀ k < n.count d,
          n.worthTo (n.byTables tables) B d (w.set d k) ≤ n.worthTo (n.byTables tables) B d w) := by
  obtain ⟨tables, n', h1, h2, h3, h5, h4⟩ := stepwise_order sch hn hs
  have hkeys : ∀ t ∈ tables, ∀ t' ∈ tables, t.1 = t'.1 → t = t' := by
    obtain ⟨tables', m', k1, k2, _⟩ := solvePolicies_net sch hn (fun h => (hs h).toFeasible) true
    rw [h1] at k1
    obtain rfl := Except.ok.inj (Prod.mk.inj k1).1
    exact fun t ht t' ht' e => List.inj_on_of_nodup_map k2 ht ht' e
  have h4' := fun A p B e => (h4 A p B e).toNextAfter
  obtain ⟨o1, o2⟩ := ordered_of_next hn h2 h4'
  refine ⟨tables, n', (n'.policies.map Prod.fst).reverse, h1, (List.reverse_perm _).trans h2, o1, o2, ?_, ?_⟩
  · intro A d B e
    obtain ⟨X, q, Y, e2, rfl, _, hkq⟩ := known_of_next h2 h4' e
    obtain ⟨t, ht, hte, hpt, htb, hdm⟩ := h5 q (by rw [e2]; simp)
    have hin : ∀ w, n.Allowed w → ∀ s ∈ t.2.dims, w s < n.count s := by
      intro w hw s hst
      have key : ∀ k, k ≠ NodeType.utility → n.isKind k s = true → w s < n.count s := by
        intro k hk h
        obtain ⟨v, hv, rfl, e2⟩ := isKind_mem.1 h
        rw [count_eq hn hv]
        exact hw v (mem_stateVars.2 ⟨hv, by rw [e2]; exact hk⟩)
      rcases List.mem_append.1 hst with h | h
      · rcases hpt.parents s h with h | h
        · exact key _ (by decide) h
        · exact key _ (by decide) h
      · exact key .decision (by decide) (by rw [List.mem_singleton.1 h, hpt.forVar]; exact hpt.decision)
    have hkn : ∀ s ∈ t.2.dims, n.Known (A ++ [q.1]) s := by
      intro s hs
      rw [hdm] at hs
      obtain ⟨x, hx, rfl⟩ := List.mem_map.1 hs
      exact hkq x hx
    refine ⟨?_, ?_⟩
    · rw [htb]
      refine ⟨fun w hw => hpt.nonneg w (hin w hw), fun w hw => ?_, fun w w' _ _ h => ?_⟩
      · have := hpt.one w (hin w hw)
        unfold Net.rowSum at this
        rwa [hpt.forVar, hte] at this
      · exact entry_agree (fun s hs => h s (hkn s hs))
    · intro t' ht' hte' s hs
      obtain rfl := hkeys t' ht' t ht (hte'.trans hte.symm)
      exact hkn s (by simp [NFactor.dims, hs])
  · intro hnn A d B e hm w hw hne k hk
    obtain ⟨X, q, Y, e2, rfl, hX, _⟩ := known_of_next h2 h4' e
    have hall : n.Allowed w := fun v hv => hw v (mem_stateVars.1 hv).1
    have hw2 : n.Allowed (w.set q.1 k) := by
      intro v hv
      unfold World.set
      split_ifs with e
      · rw [← count_eq hn (mem_stateVars.1 hv).1, e]; exact hk
      · exact hall v hv
    have hq : q ∈ n'.policies := by rw [e2]; simp
    have hvX : ∀ p ∈ X, ∀ w, n.Allowed w → p.2.val (n.ids w) = n.byTables tables p.1 w :=
      fun p hp => h3 p (by rw [e2]; simp [hp])
    have hl : B.Perm (X.map Prod.fst) := by rw [hX]; exact (List.reverse_perm B).symm
    have := (h4 X q Y e2).best hnn hm w hw (by rw [h3 q hq w hall]; exact hne) k hk
    rwa [worthPols_tables hn hvX hl hw2, worthPols_tables hn hvX hl hall] at this

/-! ## Step by step, or together -/

theorem Net.Ordered.before {n : Net α} {order : List String} (h : n.Ordered order) {p d : String}
    (hpd : Relation.TransGen n.DecisionParent p d) : ∀ A B, order = A ++ d :: B → p ∈ A := by
  induction hpd with
  | single hp => intro A B e; exact h A _ B e p hp
  | @tail c d _ hc ih =>
    intro A B e
    obtain ⟨A1, A2, rfl⟩ := List.append_of_mem (h A d B e c hc)
    have := ih A1 (A2 ++ d :: B) (by rw [e]; simp)
    simp [this]

/-- **C83.** Decisions solved one after another: there is an order of the decisions that respects their declared order,
such that each policy is a way to decide that uses only what is known by then, and a best response to the policies of
the later decisions. In every world, another outcome of the
decision is not worth more to it, if the later decisions follow their policies, and all that is not known to the decision
is as its probabilities say. -/
theorem C83_stepwise [Field α] [LinearOrder α] [IsStrictOrderedRing α] (sch : NSched α) {n : Net α} (hn : n.Valid)
    (hs : (∃ s, n.isKind .decision s = true) → n.Solvable) (hnn : ∀ f ∈ n.chanceTables, ∀ x ∈ f.tab, 0 ≤ x) :
    ∃ tables n' order, n.solvePolicies sch true = (.ok tables, n') ∧ order.Perm n.decisions ∧ n.Ordered order ∧
      (∀ A d B, order = A ++ d :: B → n.Strategy A d (n.byTables tables d)) ∧
      ∀ A d B, order = A ++ d :: B → n.Matters [d] d →
        ∀ w : World, (∀ v ∈ n.variables, w v.name < v.outcomes.length) → n.byTables tables d w ≠ 0 → ∀ k < n.count d,
          n.worthTo (n.byTables tables) B d (w.set d k) ≤ n.worthTo (n.byTables tables) B d w := by
  obtain ⟨tables, n', order, h1, h2, h3, _, h4, h5⟩ := C83_listed sch hn hs
  exact ⟨tables, n', order, h1, h2, h3, fun A d B e => (h4 A d B e).1, h5 hnn⟩

/-- The declared order of the decisions leaves no choice. -/
def Net.InLine (n : Net α) : Prop :=
  ∀ d ∈ n.decisions, ∀ e ∈ n.decisions, d = e ∨ Relation.TransGen n.DecisionParent d e ∨
    Relation.TransGen n.DecisionParent e d

theorem Net.InLine.unique {n : Net α} (hn : n.Valid) (hl : n.InLine) {o o' : List String} (h1 : o.Perm n.decisions)
    (h2 : o'.Perm n.decisions) (h3 : n.Ordered o) (h4 : n.Ordered o') : o = o' := by
  have key : ∀ {o : List String}, o.Perm n.decisions → n.Ordered o →
      o.Pairwise (fun a b => ¬ Relation.TransGen n.DecisionParent b a) := by
    intro o hp ho
    have hnd : o.Nodup := hp.nodup_iff.2 (decisions_nodup hn)
    rw [List.pairwise_iff_forall_sublist]
    intro a b hsub hba
    obtain ⟨A, B, rfl, hb⟩ : ∃ A B, o = A ++ a :: B ∧ b ∈ B := by
      obtain ⟨r1, r2, rfl, k1, k2⟩ := List.cons_sublist_iff.1 hsub
      obtain ⟨A, A2, rfl⟩ := List.append_of_mem k1
      exact ⟨A, A2 ++ r2, by simp, by simp [List.singleton_sublist.1 k2]⟩
    have hbA := ho.before hba A B rfl
    rw [List.nodup_append] at hnd
    exact hnd.2.2 b hbA b (by simp [hb]) rfl
  refine List.Perm.eq_of_pairwise ?_ (key h1 h3) (key h2 h4) (h1.trans h2.symm)
  intro a b ha hb hab hba
  rcases hl a (h1.subset ha) b (h2.subset hb) with h | h | h
  · exact h
  · exact absurd h hba
  · exact absurd h hab

/-- **C85, what holds.** If the declared order of the decisions leaves no choice, `SolveUtility` reports at most as much
after solving the decisions one after another as after solving them together. (Missing: that it reports the same.) -/
theorem C85_partial [Field α] [LinearOrder α] [IsStrictOrderedRing α] (sch sch₁ sch' sch₁' : NSched α) {n : Net α}
    (hn : n.Valid) (hs : n.Solvable) (hd : n.decisions ≠ []) (hl : n.InLine)
    (hnn : ∀ f ∈ n.chanceTables, ∀ x ∈ f.tab, 0 ≤ x)
    (hm : ∀ order, order.Perm n.decisions → n.Ordered order → ∀ A d B, order = A ++ d :: B → n.Matters (A ++ [d]) d)
    (ign ign₁ : Bool) :
    ∃ tables n' g n'' x tables₁ n₁' g₁ n₁'' y,
      n.solvePolicies sch true = (.ok tables, n') ∧ n'.solveUtility sch' [] [] "" ign = (.ok g, n'') ∧ g.data = [x] ∧
      n.solvePolicies sch₁ false = (.ok tables₁, n₁') ∧ n₁'.solveUtility sch₁' [] [] "" ign₁ = (.ok g₁, n₁'') ∧
      g₁.data = [y] ∧ x ≤ y := by
  obtain ⟨tables, n', g, n'', h1, h2, h3⟩ := C84_utility_after_policies sch sch' hn hs true ign
  obtain ⟨tables', m', order, k1, k2, k3, k4, _⟩ := C83_stepwise sch hn (fun _ => hs) hnn
  rw [h1] at k1
  obtain ⟨e1, rfl⟩ := Prod.mk.inj k1
  obtain rfl := Except.ok.inj e1
  obtain ⟨tables₁, n₁', order', l1, l2, l3, _, l4, g₁, n₁'', l5, l6⟩ := C81_optimal sch₁ sch₁' hn hs hd hnn hm
    (stepwise := false) (by simp) ign₁
  obtain rfl := hl.unique hn k2 l2 k3 l3
  exact ⟨tables, n', g, n'', _, tables₁, n₁', g₁, n₁'', _, h1, h2, h3, l1, l5, l6, l4 _ k4⟩

namespace Ex

/-- A letter is filed after reading it. Then one has to act, knowing where it is filed, but not what was in it. -/
def letter : Net ℚ where
  name := "letter"
  info := ""
  «variables» := [⟨"Letter", .chance, ["a", "b"], (0, 0), "", some 0⟩, ⟨"File", .decision, ["left", "right"], (0, 0), "", some 1⟩,
    ⟨"Act", .decision, ["a", "b"], (0, 0), "", some 2⟩, ⟨"Gain", .utility, ["gain"], (0, 0), "", some 3⟩]
  factors := [⟨"Letter", [], some [3, 1], [], 2⟩, ⟨"File", ["Letter"], none, [2], 2⟩, ⟨"Act", ["File"], none, [2], 2⟩,
    ⟨"Gain", ["Letter", "File", "Act"], some [1, 0, 1, 0, 0, 1, 0, 1], [2, 2, 2], 1⟩]
  policies := []
  vs := none
  names := []
  totalUtility := none

theorem letter_new : newNet "letter" "" [nv "Letter" .chance ["a", "b"], nv "File" .decision ["left", "right"],
    nv "Act" .decision ["a", "b"], nv "Gain" .utility ["gain"]] [nf "Letter" [] [3, 1], ⟨"File", ["Letter"], none, [], 0⟩,
    ⟨"Act", ["File"], none, [], 0⟩, nf "Gain" ["Letter", "File", "Act"] [1, 0, 1, 0, 0, 1, 0, 1]] = .ok letter := rfl

theorem letter_valid : letter.Valid where
  names := by decide
  named := by decide
  few := by decide
  outcomes := by decide
  tables := by decide
  hasTable := by decide
  known := by decide
  dims := by decide
  parents := by decide
  size := by
    intro f hf h1 h2
    simp only [letter, List.mem_cons, List.not_mem_nil, or_false] at hf
    rcases hf with rfl | rfl | rfl | rfl
    · exact ⟨_, rfl, by decide⟩
    · exact absurd h2 (by decide)
    · exact absurd h2 (by decide)
    · exact ⟨_, rfl, by decide⟩
  single := by decide
  weights := by intro i h; cases h

theorem letter_parent {p d : String} (h : letter.DecisionParent p d) : p = "File" ∧ d = "Act" := by
  obtain ⟨h1, h2, f, hf, rfl, h3⟩ := h
  have : ∀ f ∈ letter.factors, letter.isKind .decision f.forVar = true → ∀ p ∈ f.given,
      letter.isKind .decision p = true → p = "File" ∧ f.forVar = "Act" := by decide
  exact this f hf h2 p h3 h1

theorem letter_solvable : letter.Solvable where
  utility := by decide
  used := by decide
  acyclic := by
    intro s h
    obtain ⟨a, h1, h2⟩ := Relation.TransGen.head'_iff.1 h
    obtain ⟨rfl, rfl⟩ := letter_parent h1
    rcases Relation.ReflTransGen.cases_head h2 with h | ⟨b, h3, _⟩
    · exact absurd h (by decide)
    · exact absurd (letter_parent h3).1 (by decide)

theorem letter_inLine : letter.InLine := by
  have hp : letter.DecisionParent "File" "Act" :=
    ⟨by decide, by decide, ⟨"Act", ["File"], none, [2], 2⟩, by decide, rfl, by decide⟩
  intro d hd e he
  have : letter.decisions = ["File", "Act"] := by decide
  rw [this] at hd he
  simp only [List.mem_cons, List.not_mem_nil, or_false] at hd he
  rcases hd with rfl | rfl <;> rcases he with rfl | rfl
  · exact .inl rfl
  · exact .inr (.inl (.single hp))
  · exact .inr (.inr (.single hp))
  · exact .inl rfl

theorem letter_matters {ds : List String} : ∀ d ∈ letter.decisions, letter.Matters ds d := by
  intro d hd
  refine .utility (f := ⟨"Gain", ["Letter", "File", "Act"], some [1, 0, 1, 0, 0, 1, 0, 1], [2, 2, 2], 1⟩) (by decide)
    (by decide) (by decide) ?_
  revert d
  decide

theorem letter_order {order : List String} (h1 : order.Perm letter.decisions) (h2 : letter.Ordered order) :
    order = ["File", "Act"] := by
  refine letter_inLine.unique letter_valid h1 (by decide) h2 ?_
  intro A d B e p hp
  obtain ⟨rfl, rfl⟩ := letter_parent hp
  match A, e with
  | [], e => exact absurd (List.cons.inj e).1 (by decide)
  | x :: A, e => rw [← (List.cons.inj e).1]; simp

/-- The conditions of C85_partial hold for the letter. -/
example (sch sch₁ sch' sch₁' : NSched ℚ) : ∃ tables n' g n'' x tables₁ n₁' g₁ n₁'' y,
    letter.solvePolicies sch true = (.ok tables, n') ∧ n'.solveUtility sch' [] [] "" false = (.ok g, n'') ∧ g.data = [x] ∧
    letter.solvePolicies sch₁ false = (.ok tables₁, n₁') ∧ n₁'.solveUtility sch₁' [] [] "" true = (.ok g₁, n₁'') ∧
    g₁.data = [y] ∧ x ≤ y :=
  C85_partial sch sch₁ sch' sch₁' letter_valid letter_solvable (by decide) letter_inLine (by decide) (matters_order letter_matters)
    false true

/-- The conditions of C84 hold for the letter. -/
example (sch sch' : NSched ℚ) : ∃ tables n' g n'', letter.solvePolicies sch true = (.ok tables, n') ∧
    n'.solveUtility sch' [] [] "" false = (.ok g, n'') ∧ g.data = [letter.expectedTotal (letter.byTables tables)] :=
  C84_utility_after_policies sch sch' letter_valid letter_solvable true false

/-- The worlds of the letter network. -/
def W (l f a : Nat) : World := World.set (World.set (World.set (fun _ => 0) "Letter" l) "File" f) "Act" a

theorem W_act {l f a b : Nat} : (W l f a).set "Act" b = W l f b := by
  funext s
  unfold W World.set
  split_ifs <;> rfl

theorem W_file {l f a g : Nat} : (W l f a).set "File" g = W l g a := by
  funext s
  unfold W World.set
  by_cases h1 : s = "File"
  · subst h1; simp
  · simp [h1]

theorem letter_expected {δ : String → World → ℚ} : letter.expectedTotal δ =
    ∑ l ∈ range 2, ∑ f ∈ range 2, ∑ a ∈ range 2, (if l = a then (if l = 0 then 3 / 4 else 1 / 4) else 0) *
      (δ "File" (W l f a) * δ "Act" (W l f a)) := by
  have h : ∀ l < 2, ∀ f < 2, ∀ a < 2, (letter.chanceTables.map (fun t => letter.prob t (W l f a))).prod *
      letter.totalIn (W l f a) = (if l = a then (if l = 0 then 3 / 4 else 1 / 4) else 0) := by decide +kernel
  have hd : letter.decisions = ["File", "Act"] := by decide
  have hv : letter.stateVars = [⟨"Letter", .chance, ["a", "b"], (0, 0), "", some 0⟩,
    ⟨"File", .decision, ["left", "right"], (0, 0), "", some 1⟩, ⟨"Act", .decision, ["a", "b"], (0, 0), "", some 2⟩] := by
    decide
  unfold Net.expectedTotal
  rw [hd, hv]
  simp only [sumWorlds]
  apply Finset.sum_congr rfl
  intro l hl
  apply Finset.sum_congr rfl
  intro f hf
  apply Finset.sum_congr rfl
  intro a ha
  have := h l (Finset.mem_range.1 hl) f (Finset.mem_range.1 hf) a (Finset.mem_range.1 ha)
  unfold W at this
  rw [this]
  simp [W]

end Ex

/-- **C85 fails.** For the letter, solving the decisions one after another leaves an expected utility of 3/4 where solving
them together finds at least 1, whatever order the maps are iterated in. -/
theorem C85_refuted (sch sch₁ sch' sch₁' : NSched ℚ) : ∃ tables n' g n'' tables₁ n₁' g₁ n₁'' y,
    Ex.letter.solvePolicies sch true = (.ok tables, n') ∧ n'.solveUtility sch' [] [] "" false = (.ok g, n'') ∧
    g.data = [3 / 4] ∧
    Ex.letter.solvePolicies sch₁ false = (.ok tables₁, n₁') ∧ n₁'.solveUtility sch₁' [] [] "" false = (.ok g₁, n₁'') ∧
    g₁.data = [y] ∧ 1 ≤ y := by
  have hn := Ex.letter_valid
  have hs := Ex.letter_solvable
  have hnn : ∀ f ∈ Ex.letter.chanceTables, ∀ x ∈ f.tab, 0 ≤ x := by decide
  obtain ⟨tables, n', g, n'', h1, h2, h3⟩ := C84_utility_after_policies sch sch' hn hs true false
  obtain ⟨tables', m', order, k1, k2, k3, k4, k5⟩ := C83_stepwise sch hn (fun _ => hs) hnn
  rw [h1] at k1
  obtain ⟨e1, rfl⟩ := Prod.mk.inj k1
  obtain rfl := Except.ok.inj e1
  obtain ⟨tables₁, n₁', order', l1, l2, l3, _, l4, g₁, n₁'', l5, l6⟩ := C81_optimal sch₁ sch₁' hn hs (by decide) hnn
    (matters_order Ex.letter_matters) (stepwise := false) (by simp) false
  obtain rfl := Ex.letter_order k2 k3
  obtain rfl := Ex.letter_order l2 l3
  refine ⟨tables, n', g, n'', tables₁, n₁', g₁, n₁'', _, h1, h2, ?_, l1, l5, l6, ?_⟩
  · rw [h3]
    congr 1
    have hF := k4 [] "File" ["Act"] rfl
    have hA := k4 ["File"] "Act" [] rfl
    have hbest := k5 ["File"] "Act" [] rfl (Ex.letter_matters _ (by decide))
    generalize Ex.letter.byTables tables = δ at hF hA hbest
    have hok : ∀ l < 2, ∀ f < 2, ∀ a < 2, ∀ v ∈ Ex.letter.variables, Ex.W l f a v.name < v.outcomes.length := by decide
    have hok' : ∀ l < 2, ∀ f < 2, ∀ a < 2, Ex.letter.Allowed (Ex.W l f a) :=
      fun l hl f hf a ha v hv => hok l hl f hf a ha v (mem_stateVars.1 hv).1
    have hA1 : ∀ l < 2, ∀ f < 2, δ "Act" (Ex.W l f 1) = 0 := by
      intro l hl f hf
      have hlt : ∀ l < 2, ∀ f < 2, Ex.letter.worthTo (fun _ _ => 1) [] "Act" (Ex.W l f 1) <
          Ex.letter.worthTo (fun _ _ => 1) [] "Act" ((Ex.W l f 1).set "Act" 0) := by decide +kernel
      by_contra hne
      have := hbest (Ex.W l f 1) (hok l hl f hf 1 (by decide)) hne 0 (by decide)
      exact absurd (hlt l hl f hf) (not_lt.2 this)
    have hA0 : ∀ l < 2, ∀ f < 2, δ "Act" (Ex.W l f 0) = 1 := by
      intro l hl f hf
      have := hA.one (Ex.W l f 0) (hok' l hl f hf 0 (by decide))
      have hc : Ex.letter.count "Act" = 2 := by decide
      rw [hc, Finset.sum_range_succ, Finset.sum_range_succ, Finset.sum_range_zero, zero_add, Ex.W_act, Ex.W_act,
        hA1 l hl f hf, add_zero] at this
      exact this
    have hF1 : δ "File" (Ex.W 0 0 0) + δ "File" (Ex.W 0 1 0) = 1 := by
      have := hF.one (Ex.W 0 0 0) (hok' 0 (by decide) 0 (by decide) 0 (by decide))
      have hc : Ex.letter.count "File" = 2 := by decide
      rw [hc, Finset.sum_range_succ, Finset.sum_range_succ, Finset.sum_range_zero, zero_add, Ex.W_file, Ex.W_file] at this
      exact this
    rw [Ex.letter_expected]
    simp only [Finset.sum_range_succ, Finset.sum_range_zero, zero_add, hA1, hA0, Nat.zero_lt_two, Nat.one_lt_two]
    norm_num
    linarith
  · refine le_trans ?_ (l4 (fun d w => if d = "File" then (if w "File" = 0 then 1 else 0) else
      (if w "Act" = w "Letter" then 1 else 0)) ?_)
    · decide +kernel
    · intro A d B e
      match A, e with
      | [], e =>
        obtain ⟨rfl, _⟩ := List.cons.inj e
        refine ⟨fun w _ => ?_, fun w _ => ?_, fun w w' _ _ h => ?_⟩
        · rw [if_pos rfl]; split <;> decide
        · have hc : Ex.letter.count "File" = 2 := by decide
          rw [hc]
          simp [World.set]
        · rw [if_pos rfl, if_pos rfl, h "File" (.inl (by simp))]
      | [x], e =>
        obtain ⟨rfl, _⟩ := List.cons.inj (List.cons.inj e).2
        obtain rfl := (List.cons.inj e).1
        refine ⟨fun w _ => ?_, fun w hw => ?_, fun w w' _ _ h => ?_⟩
        · rw [if_neg (by decide)]; split <;> decide
        · have hc : Ex.letter.count "Act" = 2 := by decide
          have hl : w "Letter" < 2 := hw ⟨"Letter", .chance, ["a", "b"], (0, 0), "", some 0⟩ (by decide)
          rw [hc, Finset.sum_range_succ, Finset.sum_range_succ, Finset.sum_range_zero, zero_add]
          have : w "Letter" = 0 ∨ w "Letter" = 1 := by omega
          rcases this with h | h <;> simp [World.set, h]
        · rw [if_neg (c := "Act" = "File") (by decide), if_neg (c := "Act" = "File") (by decide), h "Act" (.inl (by simp)),
            h "Letter" (.inr ⟨⟨"File", ["Letter"], none, [2], 2⟩, by decide, by decide, by decide⟩)]
      | x :: y :: A, e =>
        have := congrArg List.length e
        simp at this

/-- A case for C83: solved one after another, the policy for acting never acts as if it were the less likely letter. -/
example (sch : NSched ℚ) : ∃ tables n', Ex.letter.solvePolicies sch true = (.ok tables, n') ∧
    ∀ l < 2, ∀ f < 2, Ex.letter.byTables tables "Act" (Ex.W l f 1) = 0 := by
  obtain ⟨tables, n', order, k1, k2, k3, _, k5⟩ := C83_stepwise sch Ex.letter_valid (fun _ => Ex.letter_solvable) (by decide)
  obtain rfl := Ex.letter_order k2 k3
  refine ⟨tables, n', k1, fun l hl f hf => ?_⟩
  have hlt : ∀ l < 2, ∀ f < 2, Ex.letter.worthTo (fun _ _ => 1) [] "Act" (Ex.W l f 1) <
      Ex.letter.worthTo (fun _ _ => 1) [] "Act" ((Ex.W l f 1).set "Act" 0) := by decide +kernel
  have hok : ∀ l < 2, ∀ f < 2, ∀ v ∈ Ex.letter.variables, Ex.W l f 1 v.name < v.outcomes.length := by decide
  by_contra hne
  have := k5 ["File"] "Act" [] rfl (Ex.letter_matters _ (by decide)) (Ex.W l f 1) (hok l hl f hf) hne 0 (by decide)
  exact absurd (hlt l hl f hf) (not_lt.2 this)

end Bbn
