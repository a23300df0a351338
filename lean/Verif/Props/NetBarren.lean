import Verif.Props.NetMarkov

/-!
# What an answer cannot depend on

Variables that are neither asked for, nor observed, nor above such a variable can be changed, added or removed.
-/

set_option autoImplicit false

namespace Bbn

open Finset

variable {α : Type}

/-- Only name and outcomes. -/
def NVar.bare (v : NVar) : NVar := ⟨v.name, .chance, v.outcomes, (0, 0), "", none⟩

theorem sumWorlds_bare [AddCommMonoid α] (F : World → α) : ∀ (l : List NVar) (w : World),
    sumWorlds (l.map NVar.bare) F w = sumWorlds l F w := by
  intro l
  induction l with
  | nil => intro w; rfl
  | cons v l ih => intro w; simp only [List.map_cons, sumWorlds, ih]; rfl

theorem bare_names (l : List NVar) : (l.map NVar.bare).map NVar.name = l.map NVar.name := by
  rw [List.map_map]; rfl

/-- The sum over worlds depends only on names and outcomes, not on the order. -/
theorem sumWorlds_relisted [AddCommMonoid α] (F : World → α) {l l' : List NVar} (h : (l.map NVar.bare).Perm (l'.map NVar.bare))
    (w : World) (hnd : (l.map NVar.name).Nodup) : sumWorlds l F w = sumWorlds l' F w := by
  rw [← sumWorlds_bare F l, ← sumWorlds_bare F l', sumWorlds_perm F h w (by rw [bare_names]; exact hnd)]

theorem bare_perm {l l' : List NVar} (h1 : (l.map NVar.name).Nodup) (h2 : (l'.map NVar.name).Nodup)
    (h : ∀ v ∈ l, ∃ v' ∈ l', v'.name = v.name ∧ v'.outcomes = v.outcomes)
    (h' : ∀ v' ∈ l', ∃ v ∈ l, v.name = v'.name ∧ v.outcomes = v'.outcomes) : (l.map NVar.bare).Perm (l'.map NVar.bare) := by
  have key : ∀ {a b : NVar}, a.name = b.name → a.outcomes = b.outcomes → a.bare = b.bare := by
    intro a b e1 e2; unfold NVar.bare; rw [e1, e2]
  rw [List.perm_ext_iff_of_nodup (List.Nodup.of_map NVar.name (by rw [bare_names]; exact h1))
    (List.Nodup.of_map NVar.name (by rw [bare_names]; exact h2))]
  intro x
  simp only [List.mem_map]
  constructor
  · rintro ⟨v, hv, rfl⟩
    obtain ⟨v', hv', e1, e2⟩ := h v hv
    exact ⟨v', hv', key e1 e2⟩
  · rintro ⟨v, hv, rfl⟩
    obtain ⟨v', hv', e1, e2⟩ := h' v hv
    exact ⟨v', hv', key e1 e2⟩

theorem below_trans {n : Net α} {x y z : String} (h1 : n.Below x y) (h2 : n.Below y z) : n.Below x z := by
  induction h2 with
  | child hf hx => exact .step h1 hf hx
  | step _ hf hy ih => exact .step ih hf hy

theorem upward_given {n : Net α} {l : List String} {f : NFactor α} (hf : f ∈ n.chanceTables) (h : n.Upward l f.forVar)
    {g : String} (hg : g ∈ f.given) : n.Upward l g := by
  rcases h with h | ⟨y, hy, h⟩
  · exact .inr ⟨_, h, .child hf hg⟩
  · exact .inr ⟨y, hy, below_trans (.child hf hg) h⟩

theorem below_state {n : Net α} (hn : n.Valid) {x y : String} (h : n.Below x y) : ∃ v ∈ n.stateVars, v.name = x := by
  induction h with
  | child hf hx =>
    obtain ⟨v, hv, e, ht⟩ := hn.parents _ (mem_chanceTables.1 hf).1 (chanceTables_notTotal hn hf) _ hx
    exact ⟨v, mem_stateVars.2 ⟨hv, ht⟩, e⟩
  | step _ _ _ ih => exact ih

theorem prob_same [Field α] [DecidableEq α] {n n' : Net α} {f f' : NFactor α} (e1 : f'.forVar = f.forVar)
    (e2 : f'.given = f.given) (e3 : f'.table = f.table) (hc : ∀ s ∈ f.dims, n'.count s = n.count s) :
    n'.prob f' = n.prob f := by
  have hd : f'.dims = f.dims := by unfold NFactor.dims; rw [e1, e2]
  have he : ∀ w, n'.entry f' w = n.entry f w := by
    intro w
    unfold Net.entry NFactor.tab
    rw [hd, e3, List.map_congr_left (fun s hs => by rw [hc s hs])]
  funext w
  unfold Net.prob Net.rowSum
  simp only [he, e1, hc f.forVar (by simp [NFactor.dims])]

section same

variable {n n' : Net α} (hn : n.Valid) (hn' : n'.Valid) {l : List String}
  (hl : ∀ s ∈ l, ∃ v ∈ n.stateVars, v.name = s) (hs : n.SameAbove n' l)

include hn hl in
theorem upward_state {s : String} (h : n.Upward l s) : ∃ v ∈ n.stateVars, v.name = s := by
  rcases h with h | ⟨y, _, h⟩
  · exact hl s h
  · exact below_state hn h

include hn hn' hl hs in
/-- The same variable in the second network. -/
theorem same_var {v' : NVar} (hv' : v' ∈ n'.variables) (h : n.Upward l v'.name) :
    ∃ v ∈ n.stateVars, v.name = v'.name ∧ v.nodeType = v'.nodeType ∧ v.outcomes = v'.outcomes := by
  obtain ⟨v, hv, e⟩ := upward_state hn hl h
  obtain ⟨u, hu, e1, e2, e3⟩ := hs.vars v (mem_stateVars.1 hv).1 (e ▸ h)
  have : u = v' := name_unique hn' hu hv' (by rw [e1, e])
  subst this
  exact ⟨v, hv, e1.symm, e2.symm, e3.symm⟩

include hn hn' hl hs in
theorem same_table {f' : NFactor α} (hf' : f' ∈ n'.chanceTables) (h : n.Upward l f'.forVar) :
    ∃ f ∈ n.chanceTables, f'.forVar = f.forVar ∧ f'.given = f.given ∧ f'.table = f.table := by
  obtain ⟨v', hv', e', hc'⟩ := chanceTables_forVar hf'
  obtain ⟨v, hv, e1, e2, _⟩ := same_var hn hn' hl hs (mem_stateVars.1 hv').1 (by rw [e']; exact h)
  have hv0 := (mem_stateVars.1 hv).1
  obtain ⟨f, hf, ef⟩ := hn.hasTable v hv0 (by rw [e2, hc']; decide)
  have hf0 : f ∈ n.chanceTables := mem_chanceTables.2 ⟨hf, by rw [ef, isKind_iff hn hv0, e2, hc']⟩
  obtain ⟨g, hg, g1, g2, g3⟩ := hs.tables f hf0 (by rw [ef, e1, e']; exact h)
  have : g = f' := List.inj_on_of_nodup_map (chanceTables_nodup hn') hg hf' (by rw [g1, ef, e1, e'])
  subst this
  exact ⟨f, hf0, g1, g2, g3⟩

include hn hn' hl hs in
theorem same_count {s : String} (h : n.Upward l s) : n'.count s = n.count s := by
  obtain ⟨v, hv, rfl⟩ := upward_state hn hl h
  obtain ⟨u, hu, e1, _, e3⟩ := hs.vars v (mem_stateVars.1 hv).1 h
  rw [count_eq hn (mem_stateVars.1 hv).1, ← e1, count_eq hn' hu, e3]

include hn hn' hl hs in
theorem same_kernel [Field α] [DecidableEq α] {v v' : NVar} (hv : v ∈ n.stateVars) (h : n.Upward l v.name) (hv' : v' ∈ n'.stateVars)
    (e : v'.name = v.name) : n'.kernel v' = n.kernel v := by
  have hv0 := (mem_stateVars.1 hv).1
  obtain ⟨u, hu, e1, e2, _⟩ := hs.vars v hv0 h
  have : u = v' := name_unique hn' hu (mem_stateVars.1 hv').1 (by rw [e1, e])
  subst this
  by_cases hc : v.nodeType = .chance
  · obtain ⟨f, hf, ef⟩ := hn.hasTable v hv0 (by rw [hc]; decide)
    have hf0 : f ∈ n.chanceTables := mem_chanceTables.2 ⟨hf, by rw [ef, isKind_iff hn hv0, hc]⟩
    obtain ⟨f', hf', g1, g2, g3⟩ := hs.tables f hf0 (by rw [ef]; exact h)
    rw [kernel_table hn hf0 ef.symm, kernel_table hn' hf' (by rw [g1, ef, e])]
    refine prob_same g1 g2 g3 (fun s hsd => same_count hn hn' hl hs ?_)
    rcases List.mem_append.1 hsd with hg | hg
    · exact upward_given hf0 (by rw [ef]; exact h) hg
    · rw [List.mem_singleton] at hg; rw [hg, ef]; exact h
  · rw [kernel_none (n := n) (by rw [Bool.eq_false_iff, ne_eq, isKind_iff hn hv0]; exact hc),
      kernel_none (n := n') (by rw [Bool.eq_false_iff, ne_eq, isKind_iff hn' hu, e2]; exact hc)]

include hn hn' hl hs in
/-- Totals of what looks only at the common part differ by a constant factor, which is one if all else is chance. -/
theorem total_same [Field α] [DecidableEq α] [CharZero α] (ha : n.Acyclic) (hr : n.Regular) (ha' : n'.Acyclic) (hr' : n'.Regular) :
    ∃ c c' : α, c ≠ 0 ∧ c' ≠ 0 ∧ ((∀ v ∈ n.stateVars, ¬ n.Upward l v.name → v.nodeType = .chance) → c = 1) ∧
      ((∀ v ∈ n'.stateVars, ¬ n.Upward l v.name → v.nodeType = .chance) → c' = 1) ∧ ∀ F : World → α, (∀ s, ¬ n.Upward l s → Blind F s) →
      ∃ x : α, n.total [] F = c * x ∧ n'.total [] F = c' * x := by
  classical
  set keep : String → Bool := fun s => decide (n.Upward l s) with hk
  have hpos : ∀ {m : Net α}, m.Valid →
      ((m.stateVars.filter (fun v => !keep v.name)).map (openCount (α := α))).prod ≠ 0 := by
    intro m hm
    apply List.prod_ne_zero
    intro h0
    obtain ⟨v, hv, e⟩ := List.mem_map.1 h0
    have hv := (mem_stateVars.1 (List.mem_filter.1 hv).1).1
    unfold openCount at e
    split_ifs at e
    · exact one_ne_zero e
    · have := (hm.outcomes v hv).1
      rw [Nat.cast_eq_zero] at e
      omega
  have hone : ∀ {m : Net α}, (∀ v ∈ m.stateVars, ¬ n.Upward l v.name → v.nodeType = .chance) →
      ((m.stateVars.filter (fun v => !keep v.name)).map (openCount (α := α))).prod = 1 := by
    intro m hm
    apply List.prod_eq_one
    intro x hx
    obtain ⟨v, hv, rfl⟩ := List.mem_map.1 hx
    simp only [List.mem_filter, hk, Bool.not_eq_true', decide_eq_false_iff_not] at hv
    rw [openCount, if_pos (hm v hv.1 hv.2)]
  refine ⟨_, _, hpos hn, hpos hn', hone, hone, fun F hF => ⟨_, total_kept hn ha hr keep ?_ F ?_, ?_⟩⟩
  · intro f hf h g hg
    simp only [hk, decide_eq_true_eq] at h ⊢
    exact upward_given hf h hg
  · intro s h
    simp only [hk, decide_eq_false_iff_not] at h
    exact hF s h
  · rw [total_kept hn' ha' hr' keep ?_ F ?_]
    · congr 1
      have hnd := (stateVars_names hn).sublist ((List.filter_sublist (p := fun v => keep v.name)).map NVar.name)
      have hnd' := (stateVars_names hn').sublist ((List.filter_sublist (p := fun v => keep v.name)).map NVar.name)
      have h1 : ∀ v ∈ n.stateVars.filter (fun v => keep v.name),
          ∃ v' ∈ n'.stateVars.filter (fun v => keep v.name), v'.name = v.name ∧ v'.outcomes = v.outcomes := by
        intro v hv
        simp only [List.mem_filter, hk, decide_eq_true_eq] at hv
        obtain ⟨u, hu, e1, e2, e3⟩ := hs.vars v (mem_stateVars.1 hv.1).1 hv.2
        refine ⟨u, ?_, e1, e3⟩
        simp only [List.mem_filter, hk, decide_eq_true_eq, e1]
        exact ⟨mem_stateVars.2 ⟨hu, by rw [e2]; exact (mem_stateVars.1 hv.1).2⟩, hv.2⟩
      have h2 : ∀ v' ∈ n'.stateVars.filter (fun v => keep v.name),
          ∃ v ∈ n.stateVars.filter (fun v => keep v.name), v.name = v'.name ∧ v.outcomes = v'.outcomes := by
        intro v hv
        simp only [List.mem_filter, hk, decide_eq_true_eq] at hv
        obtain ⟨u, hu, e1, e2, e3⟩ := same_var hn hn' hl hs (mem_stateVars.1 hv.1).1 hv.2
        refine ⟨u, ?_, e1, e3⟩
        simp only [List.mem_filter, hk, decide_eq_true_eq, e1]
        exact ⟨hu, hv.2⟩
      have hp := bare_perm hnd hnd' h1 h2
      rw [← sumWorlds_relisted _ hp _ hnd]
      congr 1
      funext w
      congr 1
      -- products over names
      have key : ∀ {m : Net α}, ∀ L : List NVar, L.map (fun v => m.kernel v w) =
          (L.map NVar.bare).map (fun v => m.kernel v w) := by
        intro m L; rw [List.map_map]; rfl
      rw [key (m := n), key (m := n'), ← (hp.map (fun v => n'.kernel v w)).prod_eq]
      congr 1
      apply List.map_congr_left
      intro b hb
      obtain ⟨v, hv, rfl⟩ := List.mem_map.1 hb
      obtain ⟨v', hv', e1, _⟩ := h1 v hv
      simp only [List.mem_filter, hk, decide_eq_true_eq] at hv hv'
      have := same_kernel hn hn' hl hs hv.1 hv.2 hv'.1 e1
      have e4 : n'.kernel v' = n'.kernel v.bare := by funext w; unfold Net.kernel; rw [e1]; rfl
      rw [← e4, this]; rfl
    · intro f' hf' h g hg
      simp only [hk, decide_eq_true_eq] at h ⊢
      obtain ⟨f, hf, g1, g2, _⟩ := same_table hn hn' hl hs hf' h
      exact upward_given hf (by rw [← g1]; exact h) (g2 ▸ hg)
    · intro s h
      simp only [hk, decide_eq_false_iff_not] at h
      exact hF s h

end same

/-- **C87.** What is neither asked for, nor observed, nor above (an ancestor of) something asked for or observed has no
influence on answers. If two networks have the same variables and tables for what is asked for and observed and
everything above, then they give the same answers, whatever other variables and tables they have. -/
theorem C87_barren [Field α] [CharZero α] [DecidableEq α] (sch sch' : NSched α) {n n' : Net α} (hn : n.Valid)
    (hn' : n'.Valid) (hpol : n.policies = []) (hpol' : n'.policies = []) (ha : n.Acyclic) (hr : n.Regular)
    (ha' : n'.Acyclic) (hr' : n'.Regular) {evidence : List (String × String)} (hev : n.EvidenceOK evidence)
    {query : List String} (hq : ∀ q ∈ query, n.isKind .chance q = true ∧ q ∉ evidence.map Prod.fst)
    (hs : n.SameAbove n' (query ++ evidence.map Prod.fst)) (ign ign' : Bool)
    (possible : n.mass [] (n.Agrees evidence) ≠ 0) :
    ∃ r f m r' f' m', n.solveQuery sch evidence query ign = (.ok (r, f), m) ∧
      n'.solveQuery sch' evidence query ign' = (.ok (r', f'), m') ∧
      (∀ s, s ∈ r.map Prod.fst ↔ s ∈ query) ∧ ∀ q d, (q, d) ∈ r' ↔ (q, d) ∈ r := by
  classical
  have hl : ∀ s ∈ query ++ evidence.map Prod.fst, ∃ v ∈ n.stateVars, v.name = s := by
    intro s h
    rcases List.mem_append.1 h with h | h
    · obtain ⟨v, hv, e, ht⟩ := isKind_mem.1 (hq s h).1
      exact ⟨v, mem_stateVars.2 ⟨hv, by rw [ht]; decide⟩, e⟩
    · obtain ⟨e, he, rfl⟩ := List.mem_map.1 h
      obtain ⟨v, hv, e1, e2, _⟩ := hev.known e he
      exact ⟨v, mem_stateVars.2 ⟨hv, e2⟩, e1⟩
  have hupq : ∀ q ∈ query, n.Upward (query ++ evidence.map Prod.fst) q := fun q h => .inl (List.mem_append_left _ h)
  have hupe : ∀ e ∈ evidence, n.Upward (query ++ evidence.map Prod.fst) e.1 := fun e h =>
    .inl (List.mem_append_right _ (List.mem_map_of_mem h))
  have hev' : n'.EvidenceOK evidence := by
    refine ⟨hev.keys, fun e he => ?_⟩
    obtain ⟨v, hv, e1, e2, e3⟩ := hev.known e he
    obtain ⟨u, hu, k1, k2, k3⟩ := hs.vars v hv (by rw [e1]; exact hupe e he)
    exact ⟨u, hu, by rw [k1, e1], by rw [k2]; exact e2, by rw [k3]; exact e3⟩
  have hag : ∀ w, n'.Agrees evidence w ↔ n.Agrees evidence w := by
    intro w
    constructor
    · intro h e he v hv hve
      obtain ⟨u, hu, k1, _, k3⟩ := hs.vars v hv (by rw [hve]; exact hupe e he)
      rw [h e he u hu (by rw [k1, hve]), k3]
    · intro h e he v hv hve
      obtain ⟨u, hu, k1, _, k3⟩ := same_var hn hn' hl hs hv (by rw [hve]; exact hupe e he)
      rw [h e he u (mem_stateVars.1 hu).1 (by rw [k1, hve]), k3]
  have hcount : ∀ q ∈ query, n'.count q = n.count q := fun q h => same_count hn hn' hl hs (hupq q h)
  obtain ⟨c, c', hc, hc', _, _, htot⟩ := total_same hn hn' hl hs ha hr ha' hr'
  have hblind : ∀ (P : World → Prop) [DecidablePred P], (∀ w w', (∀ q ∈ query, w q = w' q) → (P w ↔ P w')) →
      ∀ s, ¬ n.Upward (query ++ evidence.map Prod.fst) s →
      Blind (fun w => if n.Agrees evidence w ∧ P w then (1 : α) else 0) s := by
    intro P _ hP s h w k
    have h1 : ∀ e ∈ evidence, e.1 ≠ s := fun e he e' => h (e' ▸ hupe e he)
    have h2 : P (w.set s k) ↔ P w := hP _ _ (fun q hq' => World.set_ne _ (fun e' : q = s => h (e' ▸ hupq q hq')) _)
    simp only [agrees_blind h1, h2]
  have hm : ∀ (P : World → Prop) [DecidablePred P], (∀ w w', (∀ q ∈ query, w q = w' q) → (P w ↔ P w')) →
      ∃ x : α, n.mass [] (fun w => n.Agrees evidence w ∧ P w) = c * x ∧
        n'.mass [] (fun w => n'.Agrees evidence w ∧ P w) = c' * x := by
    intro P _ hP
    obtain ⟨x, h1, h2⟩ := htot _ (hblind P hP)
    refine ⟨x, h1, ?_⟩
    rw [← h2]
    unfold Net.mass
    simp only [hag]
  obtain ⟨x0, y1, y2⟩ := hm (fun _ => True) (fun _ _ _ => Iff.rfl)
  simp only [and_true] at y1 y2
  have hx0 : x0 ≠ 0 := by
    intro h0
    apply possible
    have : n.mass [] (n.Agrees evidence) = n.mass [] (fun w => n.Agrees evidence w) := rfl
    rw [this, y1, h0, mul_zero]
  have hkind' : ∀ q ∈ query, ∃ v ∈ n'.variables, v.name = q ∧ v.nodeType = .chance := by
    intro q h
    obtain ⟨v, hv, e1, e2⟩ := isKind_mem.1 (hq q h).1
    obtain ⟨u, hu, k1, k2, _⟩ := hs.vars v hv (by rw [e1]; exact hupq q h)
    exact ⟨u, hu, by rw [k1, e1], by rw [k2, e2]⟩
  have hok : ∀ {m : Net α}, m.Valid → ∀ i, (∀ q ∈ query, ∃ v ∈ m.variables, v.name = q ∧ v.nodeType = .chance) →
      m.QueryOK evidence i query := by
    intro m hm i h
    refine ⟨fun q hq' => ?_, fun q hq' e he e' => (hq q hq').2 (e' ▸ List.mem_map_of_mem he), fun q hq' => ?_⟩
    · obtain ⟨v, hv, e1, e2⟩ := h q hq'
      exact ⟨v, mem_stateVars.2 ⟨hv, by rw [e2]; decide⟩, e1⟩
    · obtain ⟨v, hv, e1, e2⟩ := h q hq'
      rw [← e1]; exact chance_occurs hm _ hv e2
  have hact : n.active evidence ign = [] := by simp [Net.active, hpol]
  have hact' : n'.active evidence ign' = [] := by simp [Net.active, hpol']
  obtain ⟨r, f, m, a1, a2, a3, a4⟩ := C31_solveQuery_posterior sch hn (by constructor <;> simp [hpol]) hev ign
    (hok hn _ (fun q h => isKind_mem.1 (hq q h).1)) (by rw [hact]; exact possible)
  obtain ⟨r', f', m', b1, b2, b3, b4⟩ := C31_solveQuery_posterior sch' hn' (by constructor <;> simp [hpol']) hev' ign'
    (hok hn' _ hkind') (by
      rw [hact']
      have : n'.mass [] (n'.Agrees evidence) = n'.mass [] (fun w => n'.Agrees evidence w) := rfl
      rw [this, y2]; exact mul_ne_zero hc' hx0)
  refine ⟨r, f, m, r', f', m', a1, b1, a3, ?_⟩
  have hsame : ∀ q ∈ query, ∃ d, (q, d) ∈ r ∧ (q, d) ∈ r' := by
    intro q h
    obtain ⟨d, u1, u2, u3⟩ := a4 q h
    obtain ⟨d', v1, v2, v3⟩ := b4 q h
    have : d' = d := by
      apply List.ext_getElem?
      intro k
      by_cases hk : k < n.count q
      · rw [u3 k hk, v3 k (by rw [hcount q h]; exact hk), hact, hact']
        obtain ⟨x, z1, z2⟩ := hm (fun w => w q = k) (fun w w' e => by rw [e q h])
        rw [z1, z2, show n.mass [] (n.Agrees evidence) = c * x0 from y1,
          show n'.mass [] (n'.Agrees evidence) = c' * x0 from y2, mul_div_mul_left _ _ hc, mul_div_mul_left _ _ hc']
      · rw [List.getElem?_eq_none (l := d) (by omega), List.getElem?_eq_none (l := d') (by rw [v2, hcount q h]; omega)]
    exact ⟨d, u1, this ▸ v1⟩
  have huni : ∀ {L : List (String × List α)}, (L.map Prod.fst).Nodup → ∀ {q d d'}, (q, d) ∈ L → (q, d') ∈ L → d = d' := by
    intro L hL q d d' h1 h2
    have := List.inj_on_of_nodup_map hL h1 h2 rfl
    simpa using this
  intro q d
  constructor
  · intro h
    obtain ⟨e, h1, h2⟩ := hsame q ((b3 q).1 (List.mem_map_of_mem h))
    rw [huni b2 h h2]; exact h1
  · intro h
    obtain ⟨e, h1, h2⟩ := hsame q ((a3 q).1 (List.mem_map_of_mem h))
    rw [huni a2 h h1]; exact h2

/-- The sprinkler network without the grass, the variables and tables listed in another order. -/
def Ex.dry : Net ℚ where
  name := "dry"
  info := ""
  «variables» := [⟨"Sprinkler", .chance, ["on", "off"], (0, 0), "", some 0⟩,
    ⟨"Rain", .chance, ["yes", "no"], (0, 0), "", some 1⟩]
  factors := [⟨"Sprinkler", ["Rain"], some [1, 99, 4, 6], [2], 2⟩, ⟨"Rain", [], some [20, 80], [], 2⟩]
  policies := []
  vs := none
  names := []
  totalUtility := none

theorem Ex.dry_valid : Ex.dry.Valid where
  names := by decide
  named := by decide
  few := by decide
  outcomes := by decide
  tables := by decide
  hasTable := by decide
  known := by decide
  dims := by decide
  parents := by decide
  size := by
    intro f hf _ _
    simp only [Ex.dry, List.mem_cons, List.not_mem_nil, or_false] at hf
    rcases hf with rfl | rfl <;> exact ⟨_, rfl, by decide⟩
  single := by decide
  weights := by intro i h; simp [Ex.dry] at h

theorem Ex.dry_acyclic : Ex.dry.Acyclic := ⟨fun s => if s = "Rain" then 0 else 1, by decide⟩

theorem Ex.dry_regular : Ex.dry.Regular := by
  intro f hf w hw
  have h1 : w "Rain" < 2 := hw ⟨"Rain", .chance, ["yes", "no"], (0, 0), "", some 1⟩ (by decide)
  have key : ∀ a < 2, ∀ f ∈ Ex.dry.chanceTables, Ex.dry.rowSum f (World.set (fun _ => 0) "Rain" a) ≠ 0 := by
    decide +kernel
  intro h0
  apply key _ h1 f hf
  rw [← h0]
  unfold Net.rowSum
  refine Finset.sum_congr rfl (fun k _ => entry_congr _ f (fun s hs => ?_))
  have : ∀ f ∈ Ex.dry.chanceTables, ∀ s ∈ f.dims, s = "Rain" ∨ s = f.forVar := by decide
  unfold World.set
  by_cases e0 : s = f.forVar
  · simp [e0]
  · rcases this f hf s hs with rfl | e
    · simp [e0]
    · exact absurd e e0

/-- The hypotheses of **C87** are met: without the grass, rain is as likely given the sprinkler as with it. -/
example : ∃ r f m r' f' m', Ex.spr.solveQuery Ex.back [("Sprinkler", "on")] ["Rain"] false = (.ok (r, f), m) ∧
      Ex.dry.solveQuery Ex.back [("Sprinkler", "on")] ["Rain"] false = (.ok (r', f'), m') ∧
      (∀ s, s ∈ r.map Prod.fst ↔ s ∈ ["Rain"]) ∧ ∀ q d, (q, d) ∈ r' ↔ (q, d) ∈ r := by
  have hgrass : ¬ Ex.spr.Upward ["Rain", "Sprinkler"] "Grass" := by
    have hb : ∀ {y}, ¬ Ex.spr.Below "Grass" y := by
      intro y h
      induction h with
      | child hf hx =>
        have : ∀ f ∈ Ex.spr.chanceTables, "Grass" ∉ f.given := by decide
        exact this _ hf hx
      | step _ _ _ ih => exact ih
    rintro (h | ⟨y, _, h⟩)
    · exact absurd h (by decide)
    · exact hb h
  refine C87_barren Ex.back Ex.back Ex.spr_valid Ex.dry_valid rfl rfl Ex.spr_acyclic Ex.spr_regular Ex.dry_acyclic
    Ex.dry_regular ⟨by decide, by decide⟩ (by decide) ⟨?_, ?_⟩ false false (by decide +kernel)
  · intro v hv hup
    have : ∀ v ∈ Ex.spr.variables, v.name ≠ "Grass" → ∃ v' ∈ Ex.dry.variables, v'.name = v.name ∧
      v'.nodeType = v.nodeType ∧ v'.outcomes = v.outcomes := by decide
    exact this v hv (fun e => hgrass (e ▸ hup))
  · intro f hf hup
    have : ∀ f ∈ Ex.spr.chanceTables, f.forVar ≠ "Grass" → ∃ f' ∈ Ex.dry.chanceTables, f'.forVar = f.forVar ∧
      f'.given = f.given ∧ f'.table = f.table := by decide
    exact this f hf (fun e => hgrass (e ▸ hup))

end Bbn
