import Verif.Spec.SameInfo
import Verif.Props.NetSameJoint
import Verif.Props.NetKnown
import Verif.Props.NetShift
import Verif.Props.NetSettle
import Verif.Lemmas.HiddenConst

/-!
# C161: what to do depends on the joint probabilities and the total utility only
-/

set_option autoImplicit false

namespace Bbn

open Finset

variable {α : Type}

section Same

variable {n n' : Net α} (hv : n.SameVars n')

include hv

theorem SameVars.filter {P P' : NVar → Prop} [DecidablePred P] [DecidablePred P']
    (h : ∀ v v' : NVar, v.name = v'.name → v.nodeType = v'.nodeType → (P' v' ↔ P v)) :
    (n'.variables.filter P').map NVar.bare = (n.variables.filter P).map NVar.bare := by
  unfold Net.SameVars at hv
  revert hv
  generalize n.variables = l
  generalize n'.variables = l'
  induction l generalizing l' with
  | nil => intro h; cases l' with
    | nil => rfl
    | cons a l' => simp at h
  | cons v l ih =>
    intro h'
    cases l' with
    | nil => simp at h'
    | cons v' l' =>
      simp only [List.map_cons, List.cons.injEq, Prod.mk.injEq] at h'
      obtain ⟨⟨e1, e2, e3⟩, h'⟩ := h'
      have hp := h v v' e1.symm e2.symm
      rw [List.filter_cons, List.filter_cons]
      simp only [decide_eq_true_eq, hp]
      split
      · rw [List.map_cons, List.map_cons, ih _ h']
        unfold NVar.bare
        rw [e1, e3]
      · exact ih _ h'

theorem SameVars.decisions : n'.decisions = n.decisions := by
  have := SameVars.filter hv (P := fun v => v.nodeType = .decision) (P' := fun v => v.nodeType = .decision)
    (fun v v' _ e => by rw [e])
  have h2 := congrArg (List.map NVar.name) this
  rw [List.map_map, List.map_map] at h2
  exact h2

theorem SameVars.fitsAll (w : World) : n'.FitsAll w ↔ n.FitsAll w := by
  constructor
  · intro h v hm
    obtain ⟨u, hu, e1, _, e3⟩ := SameVars.var (SameVars.symm hv) hm
    rw [← e1, ← e3]; exact h u hu
  · intro h v hm
    obtain ⟨u, hu, e1, _, e3⟩ := SameVars.var hv hm
    rw [← e1, ← e3]; exact h u hu

variable (hi : n.SameInfo n')

include hi

theorem SameVars.parent (p d : String) : n'.DecisionParent p d ↔ n.DecisionParent p d := by
  unfold Net.DecisionParent
  rw [SameVars.isKind hv, SameVars.isKind hv]
  exact and_congr_right (fun _ => and_congr_right (fun h => hi d h p))

theorem SameVars.hiddenFrom (B : List String) {d : String} (hd : n.isKind .decision d = true) :
    (n'.hiddenFrom B d).map NVar.bare = (n.hiddenFrom B d).map NVar.bare := by
  unfold Net.hiddenFrom
  refine SameVars.filter hv (fun v v' e1 e2 => ?_)
  rw [e1, e2]
  refine and_congr_right (fun _ => not_congr ?_)
  unfold Net.Known
  have := hi d hd v'.name
  simpa using or_congr_right (a := v'.name = d) this

end Same

variable [Field α] [LinearOrder α] [IsStrictOrderedRing α]

theorem bestOutcomes_affine {m : Nat} {u : Nat → α} {x y : α} (hx : 0 < x) :
    bestOutcomes m (fun c => x * u c + y) = bestOutcomes m u := by
  rw [← bestOutcomes_scale (u := u) hx]
  unfold bestOutcomes
  simp only [add_le_add_iff_right]

/-- The general form: the total utilities may also differ by a constant, if there is a time for every variable and all rows
can be normalised. -/
theorem same_worth (sch sch' : NSched α) {n n' : Net α} (hn : n.Valid) (hn' : n'.Valid) (hs : n.Solvable)
    (hs' : n'.Solvable) (hv : n.SameVars n') (hi : n.SameInfo n') (ho : n.Ordered n.decisions)
    (hm : ∀ d ∈ n.decisions, n.Matters [d] d ∧ n'.Matters [d] d)
    (hnn : ∀ f ∈ n.chanceTables, ∀ x ∈ f.tab, 0 ≤ x) (hnn' : ∀ f ∈ n'.chanceTables, ∀ x ∈ f.tab, 0 ≤ x)
    {a b c : α} (ha : 0 < a) (hc : 0 < c) (hb : b = 0 ∨ n.Regular ∧ ∃ rank, n.Timed n.decisions rank)
    (hj : ∀ w, n.Allowed w → (n'.chanceTables.map (fun f => n'.prob f w)).prod =
      c * (n.chanceTables.map (fun f => n.prob f w)).prod)
    (hu : ∀ w, n.Allowed w → n'.totalIn w = a * n.totalIn w + b) :
    ∃ tables m tables' m', n.solvePolicies sch true = (.ok tables, m) ∧ n'.solvePolicies sch' true = (.ok tables', m') ∧
      ∀ A d B, n.decisions = A ++ d :: B → ∀ w : World, (∀ v ∈ n.variables, w v.name < v.outcomes.length) →
        (n.chanceTables.map (fun f => n.prob f w)).prod ≠ 0 → (B.map (fun e => n.byTables tables e w)).prod ≠ 0 →
        ∀ k < n.count d, n'.byTables tables' d (w.set d k) = n.byTables tables d (w.set d k) := by
  obtain ⟨tables, m, order, a1, _, _, a2, a3⟩ := C150_stepwise sch hn (fun _ => hs) hnn
  obtain ⟨tables', m', order', b1, _, _, b2, b3⟩ := C150_stepwise sch' hn' (fun _ => hs') hnn'
  obtain ⟨_, _, order₁, e1, _, _, e2, e3, _⟩ := C83_listed sch hn (fun _ => hs)
  rw [a1] at e1
  obtain ⟨e1, -⟩ := Prod.mk.inj e1
  obtain rfl := Except.ok.inj e1
  obtain rfl := e2 ho
  have hds : n'.decisions = n.decisions := SameVars.decisions hv
  obtain rfl := a2 ho
  obtain rfl := b2 (by rw [hds]; exact fun A d B e p hp => ho A d B e p ((SameVars.parent hv hi p d).1 hp))
  rw [hds] at b3
  refine ⟨tables, m, tables', m', a1, b1, ?_⟩
  set J : World → α := fun w => (n.chanceTables.map (fun f => n.prob f w)).prod with hJ
  have allowed : ∀ {w}, n.FitsAll w → n.Allowed w := fun h => h.state
  -- one decision, if the later ones are known to be taken alike
  have step : ∀ A d B, n.decisions = A ++ d :: B →
      (∀ w, n.FitsAll w → J w ≠ 0 →
        (B.map (fun e => n'.byTables tables' e w)).prod = (B.map (fun e => n.byTables tables e w)).prod) →
      ∀ w, n.FitsAll w → J w ≠ 0 → (B.map (fun e => n.byTables tables e w)).prod ≠ 0 →
      ∀ k < n.count d, n'.byTables tables' d (w.set d k) = n.byTables tables d (w.set d k) := by
    intro A d B e hB w hw h0 h1 k hk
    have hd : d ∈ n.decisions := by rw [e]; simp
    have hdk := mem_decisions.1 hd
    obtain ⟨dv, hdv, hdn, _⟩ := isKind_mem.1 hdk
    have hcount : n'.count d = n.count d := SameVars.count hv hn hn' ⟨dv, hdv, hdn⟩
    have r1 := a3 A d B e (hm d hd).1 w hw h0 h1 k hk
    have r2 := b3 A d B e (hm d hd).2 w ((SameVars.fitsAll hv w).2 hw)
      (by rw [hj w (allowed hw)]; exact mul_ne_zero hc.ne' h0) (by rw [hB w hw h0]; exact h1) k (by rw [hcount]; exact hk)
    have hset : ∀ c < n.count d, n.FitsAll (w.set d c) := by
      intro c hc v hv
      unfold World.set
      split_ifs with e
      · rw [← count_eq hn hv, e]; exact hc
      · exact hw v hv
    have hnd : ((n.hiddenFrom B d).map NVar.name).Nodup := hn.names.sublist (List.filter_sublist.map _)
    have hfit : ∀ c < n.count d, ∀ w', (∀ v ∈ n.hiddenFrom B d, w' v.name < v.outcomes.length) →
        (∀ s, s ∉ (n.hiddenFrom B d).map NVar.name → w' s = (w.set d c) s) → n.FitsAll w' := by
      intro c hc w' h1 h2 v hv
      by_cases hu : v.name ∈ (n.hiddenFrom B d).map NVar.name
      · obtain ⟨u, hu1, hu2⟩ := List.mem_map.1 hu
        have := name_unique hn (List.mem_filter.1 hu1).1 hv hu2
        exact this ▸ h1 u hu1
      · rw [h2 _ hu]; exact hset c hc v hv
    set G : World → α := sumWorlds (n.hiddenFrom B d) (fun w => (n.chanceTables.map (fun f => n.prob f w)).prod *
      (B.map (fun e => n.byTables tables e w)).prod) with hG
    have hconst : ∀ k < n.count d, b * G (w.set d k) = b * G w := by
      intro k hk
      rcases hb with rfl | ⟨hr, rank, ht⟩
      · rw [zero_mul, zero_mul]
      · rw [hG, hidden_constant hn hr ht (fun A d B e => (e3 A d B e).1) e (allowed hw) hk]
    have w2 : ∀ k < n.count d, n'.worthTo (n'.byTables tables') B d (w.set d k) =
        (c * a) * n.worthTo (n.byTables tables) B d (w.set d k) + c * (b * G w) := by
      intro k hk
      rw [← hconst k hk, hG]
      unfold Net.worthTo
      rw [← sumWorlds_bare, SameVars.hiddenFrom hv hi B hdk, sumWorlds_bare, ← sumWorlds_mul, ← sumWorlds_mul, ← sumWorlds_mul,
        ← sumWorlds_add]
      refine sumWorlds_congr _ _ hnd (fun w' h1 h2 => ?_)
      have hf := hfit k hk w' h1 h2
      rw [hj w' (allowed hf), hu w' (allowed hf)]
      by_cases h0' : J w' = 0
      · rw [show (n.chanceTables.map (fun f => n.prob f w')).prod = 0 from h0']; ring
      · rw [hB w' hf h0']; ring
    rw [hcount, bestOutcomes_congr w2, bestOutcomes_affine (mul_pos hc ha)] at r2
    exact r2.trans r1.symm
  have all : ∀ B A, n.decisions = A ++ B → ∀ w, n.FitsAll w → J w ≠ 0 →
      (B.map (fun e => n'.byTables tables' e w)).prod = (B.map (fun e => n.byTables tables e w)).prod := by
    intro B
    induction B with
    | nil => intro A _ w _ _; rfl
    | cons d B ih =>
      intro A e w hw h0
      have ih' := ih (A ++ [d]) (by rw [e]; simp)
      rw [List.map_cons, List.map_cons, List.prod_cons, List.prod_cons, ih' w hw h0]
      by_cases hz : (B.map (fun e => n.byTables tables e w)).prod = 0
      · rw [hz, mul_zero, mul_zero]
      · have hdk := mem_decisions.1 (show d ∈ n.decisions by rw [e]; simp)
        obtain ⟨v, hv, hv1, _⟩ := isKind_mem.1 hdk
        have hwd : w.set d (w d) = w := by
          funext s
          unfold World.set
          split_ifs with h
          · rw [h]
          · rfl
        have := step A d B e ih' w hw h0 hz (w d) (by rw [← hv1, count_eq hn hv]; exact hw v hv)
        rw [hwd] at this
        rw [this]
  intro A d B e w hw h0 h1 k hk
  exact step A d B e (all B (A ++ [d]) (by rw [e]; simp)) w hw h0 h1 k hk

/-- **C161.** Two networks over the same variables, with the same information for each decision: if the joint probabilities
are the same in every situation up to a positive factor, and the total utilities are the same up to a positive factor, then
`SolvePolicies` takes the same decisions in every situation that can occur. Nothing else is assumed about the tables, the
parents of the chance and utility variables, the number of utility variables that contribute, and their weights. -/
theorem C161_same_worth (sch sch' : NSched α) {n n' : Net α} (hn : n.Valid) (hn' : n'.Valid) (hs : n.Solvable)
    (hs' : n'.Solvable) (hv : n.SameVars n') (hi : n.SameInfo n') (ho : n.Ordered n.decisions)
    (hm : ∀ d ∈ n.decisions, n.Matters [d] d ∧ n'.Matters [d] d)
    (hnn : ∀ f ∈ n.chanceTables, ∀ x ∈ f.tab, 0 ≤ x) (hnn' : ∀ f ∈ n'.chanceTables, ∀ x ∈ f.tab, 0 ≤ x)
    {a c : α} (ha : 0 < a) (hc : 0 < c)
    (hj : ∀ w, n.Allowed w → (n'.chanceTables.map (fun f => n'.prob f w)).prod =
      c * (n.chanceTables.map (fun f => n.prob f w)).prod)
    (hu : ∀ w, n.Allowed w → n'.totalIn w = a * n.totalIn w) :
    ∃ tables m tables' m', n.solvePolicies sch true = (.ok tables, m) ∧ n'.solvePolicies sch' true = (.ok tables', m') ∧
      ∀ A d B, n.decisions = A ++ d :: B → ∀ w : World, (∀ v ∈ n.variables, w v.name < v.outcomes.length) →
        (n.chanceTables.map (fun f => n.prob f w)).prod ≠ 0 → (B.map (fun e => n.byTables tables e w)).prod ≠ 0 →
        ∀ k < n.count d, n'.byTables tables' d (w.set d k) = n.byTables tables d (w.set d k) :=
  same_worth sch sch' hn hn' hs hs' hv hi ho hm hnn hnn' ha hc (.inl rfl) hj (fun w hw => by rw [hu w hw, add_zero])

/-- **C161, another zero.** The same if the total utilities are the same up to a positive factor and a constant. Here all rows
must have a sum other than zero, and there must be a time for every variable, with parents before chance variables,
observations before decisions, and decisions in the order in which they are listed. -/
theorem C161_affine (sch sch' : NSched α) {n n' : Net α} (hn : n.Valid) (hn' : n'.Valid) (hs : n.Solvable)
    (hs' : n'.Solvable) (hv : n.SameVars n') (hi : n.SameInfo n')
    (hm : ∀ d ∈ n.decisions, n.Matters [d] d ∧ n'.Matters [d] d)
    (hnn : ∀ f ∈ n.chanceTables, ∀ x ∈ f.tab, 0 ≤ x) (hnn' : ∀ f ∈ n'.chanceTables, ∀ x ∈ f.tab, 0 ≤ x)
    {a b c : α} (ha : 0 < a) (hc : 0 < c) (hr : n.Regular)
    {rank : String → Nat} (ht : n.Timed n.decisions rank)
    (hj : ∀ w, n.Allowed w → (n'.chanceTables.map (fun f => n'.prob f w)).prod =
      c * (n.chanceTables.map (fun f => n.prob f w)).prod)
    (hu : ∀ w, n.Allowed w → n'.totalIn w = a * n.totalIn w + b) :
    ∃ tables m tables' m', n.solvePolicies sch true = (.ok tables, m) ∧ n'.solvePolicies sch' true = (.ok tables', m') ∧
      ∀ A d B, n.decisions = A ++ d :: B → ∀ w : World, (∀ v ∈ n.variables, w v.name < v.outcomes.length) →
        (n.chanceTables.map (fun f => n.prob f w)).prod ≠ 0 → (B.map (fun e => n.byTables tables e w)).prod ≠ 0 →
        ∀ k < n.count d, n'.byTables tables' d (w.set d k) = n.byTables tables d (w.set d k) :=
  same_worth sch sch' hn hn' hs hs' hv hi (listed_ordered ht.decision ht.order) hm hnn hnn' ha hc (.inr ⟨hr, rank, ht⟩) hj hu

/-- **C161, units.** Giving all utilities in another unit does not change what to do. -/
theorem C161_units (sch sch' : NSched α) {n : Net α} (hn : n.Valid) (hs : n.Solvable) (ho : n.Ordered n.decisions)
    (hm : ∀ d ∈ n.decisions, n.Matters [d] d) (hnn : ∀ f ∈ n.chanceTables, ∀ x ∈ f.tab, 0 ≤ x) {k : α} (hk : 0 < k) :
    ∃ tables m tables' m', n.solvePolicies sch true = (.ok tables, m) ∧
      (n.rescaled k).solvePolicies sch' true = (.ok tables', m') ∧
      ∀ A d B, n.decisions = A ++ d :: B → ∀ w : World, (∀ v ∈ n.variables, w v.name < v.outcomes.length) →
        (n.chanceTables.map (fun f => n.prob f w)).prod ≠ 0 → (B.map (fun e => n.byTables tables e w)).prod ≠ 0 →
        ∀ k < n.count d, n.byTables tables' d (w.set d k) = n.byTables tables d (w.set d k) :=
  C161_same_worth sch sch' hn (rescaled_valid hn) hs (rescaled_solvable hs) rfl
    (fun d _ s => by
      constructor
      · rintro ⟨f, hf, h1, h2⟩
        rw [rescaled_factors] at hf
        obtain ⟨g, hg, rfl⟩ := List.mem_map.1 hf
        exact ⟨g, hg, by rw [← h1]; exact (rescale_forVar g).symm, by rw [rescale_given] at h2; exact h2⟩
      · rintro ⟨g, hg, h1, h2⟩
        exact ⟨n.rescaleTable k g, by rw [rescaled_factors]; exact List.mem_map_of_mem hg, by rw [rescale_forVar]; exact h1,
          by rw [rescale_given]; exact h2⟩)
    ho (fun d hd => ⟨hm d hd, rescaled_matters hn (hm d hd)⟩) hnn (by rw [rescaled_chanceTables hn]; exact hnn) hk one_pos
    (fun w _ => by rw [rescaled_chanceTables hn, one_mul]; rfl) (fun w _ => rescaled_total hn w)

/-- **C161, zero.** Adding constants to the tables of the utility variables does not change what to do. -/
theorem C161_zero (sch sch' : NSched α) {n : Net α} (hn : n.Valid) (hs : n.Solvable)
    (hm : ∀ d ∈ n.decisions, n.Matters [d] d) (hnn : ∀ f ∈ n.chanceTables, ∀ x ∈ f.tab, 0 ≤ x) (hr : n.Regular)
    {rank : String → Nat} (ht : n.Timed n.decisions rank) (b : String → α) :
    ∃ tables m tables' m', n.solvePolicies sch true = (.ok tables, m) ∧
      (n.shifted b).solvePolicies sch' true = (.ok tables', m') ∧
      ∀ A d B, n.decisions = A ++ d :: B → ∀ w : World, (∀ v ∈ n.variables, w v.name < v.outcomes.length) →
        (n.chanceTables.map (fun f => n.prob f w)).prod ≠ 0 → (B.map (fun e => n.byTables tables e w)).prod ≠ 0 →
        ∀ k < n.count d, n.byTables tables' d (w.set d k) = n.byTables tables d (w.set d k) :=
  C161_affine sch sch' hn (shifted_valid hn) hs (shifted_solvable hs) rfl
    (fun d _ s => by
      constructor
      · rintro ⟨f, hf, h1, h2⟩
        rw [shifted_factors] at hf
        obtain ⟨g, hg, rfl⟩ := List.mem_map.1 hf
        exact ⟨g, hg, by rw [← h1]; exact (shift_forVar g).symm, by rw [shift_given] at h2; exact h2⟩
      · rintro ⟨g, hg, h1, h2⟩
        exact ⟨n.shiftTable b g, by rw [shifted_factors]; exact List.mem_map_of_mem hg, by rw [shift_forVar]; exact h1,
          by rw [shift_given]; exact h2⟩)
    (fun d hd => ⟨hm d hd, shifted_matters hn (hm d hd)⟩) hnn (by rw [shifted_chanceTables hn]; exact hnn) one_pos one_pos
    hr ht (fun w _ => by rw [shifted_prob hn, one_mul]) (fun w hw => by rw [shifted_total hn hw, one_mul])

namespace Ex

/-- The umbrella network with the arrow between weather and forecast turned around, and with the utilities written down in
another way: all is in the table for comfort, in half units. -/
def umbBack : Net ℚ :=
  { Ex.umb with factors := [⟨"Weather", ["Forecast"], some [56, 3, 14, 27], [2], 2⟩, ⟨"Forecast", [], some [59, 41], [], 2⟩,
      ⟨"Umbrella", ["Forecast"], none, [2], 2⟩,
      ⟨"Comfort", ["Weather", "Umbrella"], some [200, 20, 0, 120], [2, 2], 1⟩, ⟨"Effort", [], some [0], [], 1⟩,
      ⟨"Total", ["Effort", "Comfort"], some [3, 1], [1, 1], 2⟩] }

theorem umbBack_valid : umbBack.Valid where
  names := by decide
  named := by decide
  few := by decide
  outcomes := by decide
  tables := by decide
  hasTable := by decide
  known := by decide
  dims := by decide
  parents := by decide
  size := by
    intro f hf h1 h2
    simp only [umbBack, List.mem_cons, List.not_mem_nil, or_false] at hf
    rcases hf with rfl | rfl | rfl | rfl | rfl | rfl
    · exact ⟨_, rfl, by decide⟩
    · exact ⟨_, rfl, by decide⟩
    · exact absurd h2 (by decide)
    · exact ⟨_, rfl, by decide⟩
    · exact ⟨_, rfl, by decide⟩
    · exact absurd rfl h1
  single := by decide
  weights := by
    intro i h
    have : i = 3 := by simpa [umbBack, umb] using h.symm
    subst this
    exact ⟨_, 5, _, rfl, rfl, rfl, rfl, rfl, by decide, by decide⟩

theorem umbBack_solvable : umbBack.Solvable where
  utility := by decide
  used := by decide
  acyclic := by
    have hno : ∀ p d, ¬ umbBack.DecisionParent p d := by
      rintro p d ⟨h1, h2, f, hf, rfl, h3⟩
      have : ∀ f ∈ umbBack.factors, umbBack.isKind .decision f.forVar = true →
          ∀ p ∈ f.given, umbBack.isKind .decision p = false := by decide
      rw [this f hf h2 p h3] at h1
      exact absurd h1 (by simp)
    intro s h
    obtain ⟨_, h, _⟩ := Relation.TransGen.head'_iff.1 h
    exact hno _ _ h

/-- Three numbers decide about the total utility. -/
theorem totalIn_three (n : Net ℚ) {x y z : String} (h : ∀ u ∈ n.utilityVars, ∀ f ∈ n.factors, f.forVar = u.name →
    ∀ s ∈ f.dims, s = u.name ∨ s = x ∨ s = y ∨ s = z) (w : World) :
    n.totalIn w = n.totalIn (three x y z (w x) (w y) (w z)) := by
  unfold Net.totalIn
  congr 1
  refine List.map_congr_left (fun u hu => ?_)
  congr 1
  unfold Net.utilityIn
  congr 1
  refine List.map_congr_left (fun f hf => entry_agree (fun s hs => ?_))
  rw [List.mem_filter] at hf
  unfold World.set
  split_ifs with e
  · rfl
  · rcases h u hu f hf.1 (by simpa using hf.2) s hs with rfl | rfl | rfl | rfl
    · exact absurd rfl e
    all_goals
      unfold three
      split_ifs <;> simp_all

theorem umb_three (w : World) (hw : umb.Allowed w) : w "Weather" < 2 ∧ w "Forecast" < 2 ∧ w "Umbrella" < 2 :=
  ⟨hw ⟨"Weather", .chance, ["sun", "rain"], (0, 0), "", some 0⟩ (by decide),
    hw ⟨"Forecast", .chance, ["good", "bad"], (0, 0), "", some 1⟩ (by decide),
    hw ⟨"Umbrella", .decision, ["no", "yes"], (0, 0), "", some 2⟩ (by decide)⟩

theorem umbBack_joint (w : World) (hw : umb.Allowed w) : umbBack.joint [] w = umb.joint [] w := by
  obtain ⟨h1, h2, h3⟩ := umb_three w hw
  rw [joint_three umbBack (x := "Weather") (y := "Forecast") (z := "Umbrella") (by decide) w,
    joint_three umb (x := "Weather") (y := "Forecast") (z := "Umbrella") (by decide) w]
  have : ∀ a < 2, ∀ b < 2, ∀ c < 2, umbBack.joint [] (three "Weather" "Forecast" "Umbrella" a b c) =
      umb.joint [] (three "Weather" "Forecast" "Umbrella" a b c) := by decide +kernel
  exact this _ h1 _ h2 _ h3

theorem umbBack_total (w : World) (hw : umb.Allowed w) : umbBack.totalIn w = 2 * umb.totalIn w := by
  obtain ⟨h1, h2, h3⟩ := umb_three w hw
  rw [totalIn_three umbBack (x := "Weather") (y := "Forecast") (z := "Umbrella") (by decide) w,
    totalIn_three umb (x := "Weather") (y := "Forecast") (z := "Umbrella") (by decide) w]
  have : ∀ a < 2, ∀ b < 2, ∀ c < 2, umbBack.totalIn (three "Weather" "Forecast" "Umbrella" a b c) =
      2 * umb.totalIn (three "Weather" "Forecast" "Umbrella" a b c) := by decide +kernel
  exact this _ h1 _ h2 _ h3

end Ex

namespace Ex

theorem umb_decision {d : String} (hd : umb.isKind .decision d = true) : d = "Umbrella" := by
  have h := mem_decisions.2 hd
  rw [show umb.decisions = ["Umbrella"] by decide] at h
  simpa using h

theorem umbBack_info : umb.SameInfo umbBack := by
  intro d hd s
  obtain rfl := umb_decision hd
  simp [umbBack, umb]

theorem umbBack_matters : ∀ d ∈ umb.decisions, umb.Matters [d] d ∧ umbBack.Matters [d] d := by
  intro d hd
  obtain rfl := umb_decision (mem_decisions.1 hd)
  exact ⟨.utility (f := ⟨"Effort", ["Umbrella"], some [0, -5], [2], 1⟩) (by decide) (by decide) (by decide) (by decide),
    .utility (f := ⟨"Comfort", ["Weather", "Umbrella"], some [200, 20, 0, 120], [2, 2], 1⟩) (by decide) (by decide)
      (by decide) (by decide)⟩

theorem umb_timed : umb.Timed umb.decisions umbRank := ⟨by decide, by decide, by decide⟩

end Ex

open Ex in
/-- The hypotheses of `C161_same_worth` are met: whether to take the umbrella, with the network written down in two ways. -/
example (sch sch' : NSched ℚ) : ∃ tables m tables' m', umb.solvePolicies sch true = (.ok tables, m) ∧
    umbBack.solvePolicies sch' true = (.ok tables', m') ∧
    ∀ w : World, (∀ v ∈ umb.variables, w v.name < v.outcomes.length) →
      (umb.chanceTables.map (fun f => umb.prob f w)).prod ≠ 0 →
      ∀ k < 2, umbBack.byTables tables' "Umbrella" (w.set "Umbrella" k) = umb.byTables tables "Umbrella" (w.set "Umbrella" k) := by
  obtain ⟨tables, m, tables', m', h1, h2, h3⟩ := C161_same_worth sch sch' umb_valid umbBack_valid umb_solvable umbBack_solvable
    rfl umbBack_info (listed_ordered umb_timed.decision umb_timed.order) umbBack_matters (by decide +kernel) (by decide +kernel)
    two_pos one_pos (fun w hw => by simpa [Net.joint] using umbBack_joint w hw) umbBack_total
  exact ⟨tables, m, tables', m', h1, h2, fun w hw h0 => h3 [] "Umbrella" [] (by decide) w hw h0 (by simp)⟩

open Ex in
/-- The hypotheses of `C161_affine` are met: in addition, comfort is counted from 7 below. -/
example (sch sch' : NSched ℚ) : ∃ tables m tables' m', umb.solvePolicies sch true = (.ok tables, m) ∧
    (umbBack.shifted (fun _ => 7)).solvePolicies sch' true = (.ok tables', m') ∧
    ∀ w : World, (∀ v ∈ umb.variables, w v.name < v.outcomes.length) →
      (umb.chanceTables.map (fun f => umb.prob f w)).prod ≠ 0 →
      ∀ k < 2, umbBack.byTables tables' "Umbrella" (w.set "Umbrella" k) = umb.byTables tables "Umbrella" (w.set "Umbrella" k) := by
  obtain ⟨tables, m, tables', m', h1, h2, h3⟩ := C161_affine sch sch' umb_valid (shifted_valid (b := fun _ => 7) umbBack_valid)
    umb_solvable (shifted_solvable umbBack_solvable) rfl
    (by
      intro d hd s
      obtain rfl := umb_decision hd
      simp [umbBack, umb, Net.shifted, Net.isKind, Net.totalName])
    (fun d hd => ⟨(umbBack_matters d hd).1, shifted_matters umbBack_valid (umbBack_matters d hd).2⟩) (by decide +kernel)
    (by rw [shifted_chanceTables umbBack_valid]; decide +kernel) two_pos one_pos umb_regular umb_timed
    (fun w hw => by rw [shifted_prob umbBack_valid]; simpa [Net.joint] using umbBack_joint w hw)
    (fun w hw => by rw [shifted_total umbBack_valid hw, umbBack_total w hw])
  exact ⟨tables, m, tables', m', h1, h2, fun w hw h0 => h3 [] "Umbrella" [] (by decide) w hw h0 (by simp)⟩

open Ex in
/-- The hypotheses of `C161_zero` are met: a switch is set, a sign shows it, one acts; the gain is counted from 5 below. -/
example (sch sch' : NSched ℚ) : ∃ tables m tables' m', unloop.solvePolicies sch true = (.ok tables, m) ∧
    (unloop.shifted (fun _ => 5)).solvePolicies sch' true = (.ok tables', m') ∧
    ∀ A d B, unloop.decisions = A ++ d :: B → ∀ w : World, (∀ v ∈ unloop.variables, w v.name < v.outcomes.length) →
      (unloop.chanceTables.map (fun f => unloop.prob f w)).prod ≠ 0 → (B.map (fun e => unloop.byTables tables e w)).prod ≠ 0 →
      ∀ k < unloop.count d, unloop.byTables tables' d (w.set d k) = unloop.byTables tables d (w.set d k) :=
  C161_zero sch sch' unloop_valid unloop_solvable (fun d hd => unloop_matters d hd) (by decide +kernel) unloop_regular
    (rank := loopRank) ⟨by decide, by decide, by decide⟩ (fun _ => 5)

open Ex in
/-- The hypotheses of `C161_units` are met: filing a letter and acting on it, with the gain in cents. -/
example (sch sch' : NSched ℚ) : ∃ tables m tables' m', letter.solvePolicies sch true = (.ok tables, m) ∧
    (letter.rescaled 100).solvePolicies sch' true = (.ok tables', m') ∧
    ∀ A d B, letter.decisions = A ++ d :: B → ∀ w : World, (∀ v ∈ letter.variables, w v.name < v.outcomes.length) →
      (letter.chanceTables.map (fun f => letter.prob f w)).prod ≠ 0 → (B.map (fun e => letter.byTables tables e w)).prod ≠ 0 →
      ∀ k < letter.count d, letter.byTables tables' d (w.set d k) = letter.byTables tables d (w.set d k) :=
  C161_units sch sch' letter_valid letter_solvable (by
    rw [show letter.decisions = ["File", "Act"] by decide]
    intro A d B e p hp
    obtain ⟨rfl, rfl⟩ := letter_parent hp
    cases A with
    | nil => simp at e
    | cons x A =>
      simp only [List.cons_append, List.cons.injEq] at e
      rw [← e.1]
      exact List.mem_cons_self) (fun d hd => letter_matters d hd) (by decide +kernel) (by norm_num)

end Bbn
