import Verif.Props.NetTies
import Verif.Props.NetExpect
import Verif.Props.NetAttain
import Verif.Spec.Replace

/-!
# How likely a situation is does not matter for what to do in it
-/

set_option autoImplicit false

namespace Bbn

open Finset

variable {α : Type}

theorem prob_on_dims [Field α] [DecidableEq α] {n : Net α} {f : NFactor α} {w w' : World} (h : ∀ s ∈ f.dims, w s = w' s) :
    n.prob f w = n.prob f w' := by
  have h1 := entry_agree (n := n) h
  have h2 : n.rowSum f w = n.rowSum f w' := by
    unfold Net.rowSum
    refine Finset.sum_congr rfl (fun k _ => entry_agree (fun s hs => ?_))
    unfold World.set
    split_ifs
    · rfl
    · exact h s hs
  unfold Net.prob
  rw [h1, h2]

variable [Field α] [LinearOrder α] [IsStrictOrderedRing α]

theorem prob_pos {n : Net α} (hn : n.Valid) {f : NFactor α} (hf : f ∈ n.chanceTables) (hpos : ∀ x ∈ f.tab, 0 < x) {w : World}
    (hw : n.FitsAll w) : 0 < n.prob f w := by
  obtain ⟨hf1, hf2⟩ := List.mem_filter.1 hf
  obtain ⟨v, hv, h1, h2⟩ := isKind_mem.1 hf2
  have ht : f.forVar ≠ n.totalName := by
    intro e
    have := total_utility hn hv (h1.trans e)
    rw [h2] at this; exact absurd this (by decide)
  obtain ⟨t, h3, h4⟩ := hn.size f hf1 ht (by
    rw [Bool.eq_false_iff]
    intro hd
    rw [← h1, isKind_iff hn hv, h2] at hd
    exact absurd hd (by decide))
  have hent : ∀ w, n.FitsAll w → 0 < n.entry f w := fun w hw => hpos _ (entry_mem h3 h4 (fits_table hn hf1 ht hw))
  have hsum : 0 < n.rowSum f w := by
    unfold Net.rowSum
    refine Finset.sum_pos (fun k hk => hent _ ?_) ⟨0, ?_⟩
    · intro u hu
      unfold World.set
      split_ifs with e
      · rw [← count_eq hn hu, e]; exact Finset.mem_range.1 hk
      · exact hw u hu
    · rw [Finset.mem_range, ← h1, count_eq hn hv]; exact (hn.outcomes v hv).1
  unfold Net.prob
  rw [if_neg hsum.ne']
  exact div_pos (hent w hw) hsum

/-- The probabilities of the tables that `T` replaces. -/
def Net.probOf (n : Net α) (T : String → Option (List α)) (w : World) : α :=
  ((n.chanceTables.filter (fun f => (T f.forVar).isSome)).map (fun f => n.prob f w)).prod

/-- The probabilities of the other tables. -/
def Net.probRest (n : Net α) (T : String → Option (List α)) (w : World) : α :=
  ((n.chanceTables.filter (fun f => (T f.forVar).isNone)).map (fun f => n.prob f w)).prod

theorem probOf_rest (n : Net α) (T : String → Option (List α)) (w : World) :
    (n.chanceTables.map (fun f => n.prob f w)).prod = n.probOf T w * n.probRest T w := by
  unfold Net.probOf Net.probRest
  rw [← List.prod_append, ← List.map_append]
  refine (List.Perm.map _ ?_).prod_eq
  have := List.filter_append_perm (fun f : NFactor α => (T f.forVar).isSome) n.chanceTables
  simpa using this.symm

section
variable {n : Net α} {T : String → Option (List α)}

theorem replace_chance : (n.replaceTables T).chanceTables =
    n.chanceTables.map (fun f => { f with table := (T f.forVar).or f.table }) := by
  unfold Net.chanceTables Net.replaceTables
  rw [List.filter_map]
  rfl

theorem replace_rest (w : World) : (n.replaceTables T).probRest T w = n.probRest T w := by
  unfold Net.probRest
  rw [replace_chance, List.filter_map, List.map_map]
  congr 1
  apply List.map_congr_left
  intro f hf
  have h : T f.forVar = none := by
    have := (List.mem_filter.1 hf).2
    simpa using this
  show n.prob { f with table := (T f.forVar).or f.table } w = n.prob f w
  rw [h]
  rfl

theorem replace_keeps {f : NFactor α} (h : T f.forVar = none) : { f with table := (T f.forVar).or f.table } = f := by
  rw [h]; rfl

theorem replace_none (hn : n.Valid) (hT : ∀ s, (T s).isSome → n.isKind .chance s = true) {u : String}
    (hu : ∃ v ∈ n.variables, v.name = u ∧ v.nodeType ≠ .chance) : T u = none := by
  obtain ⟨v, hv, rfl, h⟩ := hu
  match hc : T v.name with
  | none => rfl
  | some t => exact absurd ((isKind_iff hn hv _).1 (hT _ (by rw [hc]; rfl))) h

theorem replace_total (hn : n.Valid) (hT : ∀ s, (T s).isSome → n.isKind .chance s = true) (w : World) :
    (n.replaceTables T).totalIn w = n.totalIn w := by
  unfold Net.totalIn
  show (n.utilityVars.map _).sum = _
  congr 1
  apply List.map_congr_left
  intro u hu
  obtain ⟨hu1, hu2⟩ := List.mem_filter.1 hu
  simp only [decide_eq_true_eq] at hu2
  have hTu : T u.name = none := replace_none hn hT ⟨u, hu1, rfl, by rw [hu2.1]; decide⟩
  congr 1
  · unfold Net.weight
    show (match n.totalUtility with
      | none => (1 : α)
      | some _ => (((n.replaceTables T).factors.find? (fun f : NFactor α => f.forVar = n.totalName)).map
        (fun f : NFactor α => f.tab.getD (f.given.idxOf u.name) 0)).getD 0) = _
    match ht : n.totalUtility with
    | none => rfl
    | some i =>
      dsimp only
      obtain ⟨v, _, _, h1, h2, _⟩ := hn.weights i ht
      have hTt : T n.totalName = none := replace_none hn hT ⟨v, List.mem_of_getElem? h1,
        (Net.totalName_eq ht h1).symm, by rw [h2]; decide⟩
      congr 1
      unfold Net.replaceTables
      dsimp only
      rw [List.find?_map]
      match hf : n.factors.find? (fun f => f.forVar = n.totalName) with
      | none =>
        have : List.find? ((fun f : NFactor α => decide (f.forVar = n.totalName)) ∘
          fun f => { f with table := (T f.forVar).or f.table }) n.factors = none := hf
        rw [this, hf]; rfl
      | some f =>
        have h : List.find? ((fun f : NFactor α => decide (f.forVar = n.totalName)) ∘
          fun f => { f with table := (T f.forVar).or f.table }) n.factors = some f := hf
        rw [h, hf]
        have e : f.forVar = n.totalName := by simpa using List.find?_some hf
        simp only [Option.map_some]
        rw [replace_keeps (by rw [e]; exact hTt)]
  · unfold Net.utilityIn Net.replaceTables
    dsimp only
    rw [List.filter_map, List.map_map]
    congr 1
    apply List.map_congr_left
    intro f hf
    have e : f.forVar = u.name := by simpa using (List.mem_filter.1 hf).2
    simp only [Function.comp]
    rw [replace_keeps (by rw [e]; exact hTu)]
    rfl

omit [Field α] [LinearOrder α] [IsStrictOrderedRing α] in
theorem replace_mem {P : NFactor α → Prop} (hP : ∀ f t, P { f with table := t } ↔ P f) :
    (∃ f ∈ (n.replaceTables T).factors, P f) ↔ ∃ f ∈ n.factors, P f := by
  unfold Net.replaceTables
  simp only [List.mem_map]
  constructor
  · rintro ⟨_, ⟨f, hf, rfl⟩, h⟩
    exact ⟨f, hf, (hP f _).1 h⟩
  · rintro ⟨f, hf, h⟩
    exact ⟨_, ⟨f, hf, rfl⟩, (hP f _).2 h⟩

theorem replace_known (ds : List String) (s : String) : (n.replaceTables T).Known ds s ↔ n.Known ds s :=
  or_congr_right (replace_mem (P := fun f => f.forVar ∈ ds ∧ s ∈ f.given) (fun _ _ => Iff.rfl))

theorem replace_parent {p d : String} : (n.replaceTables T).DecisionParent p d ↔ n.DecisionParent p d :=
  and_congr_right (fun _ => and_congr_right (fun _ =>
    replace_mem (P := fun f => f.forVar = d ∧ p ∈ f.given) (fun _ _ => Iff.rfl)))

theorem replace_solvable (h : n.Solvable) : (n.replaceTables T).Solvable where
  utility := h.utility
  used := fun v hv hd => (replace_mem (P := fun f => f.forVar ≠ n.totalName ∧ n.isKind .decision f.forVar = false ∧
    v.name ∈ f.given) (fun _ _ => Iff.rfl)).2 (h.used v hv hd)
  acyclic := by
    have : (n.replaceTables T).DecisionParent = n.DecisionParent := by
      funext p d; exact propext replace_parent
    rw [this]; exact h.acyclic

theorem replace_ordered {order : List String} (h : n.Ordered order) : (n.replaceTables T).Ordered order :=
  fun A d B e p hp => h A d B e p (replace_parent.1 hp)

theorem replace_matters {ds : List String} {s : String} (h : n.Matters ds s) : (n.replaceTables T).Matters ds s := by
  induction h with
  | @utility f s hf hu ht hs =>
    exact .utility (f := { f with table := (T f.forVar).or f.table }) (List.mem_map_of_mem hf) hu ht hs
  | @chance f u s hf hu hc hk _ hs ih =>
    refine .chance (f := { f with table := (T f.forVar).or f.table }) ?_ hu hc ?_ ih hs
    · rw [replace_chance]; exact List.mem_map_of_mem hf
    · rw [replace_known]; exact hk

theorem replace_valid (hn : n.Valid) (hT : ∀ s, (T s).isSome → n.isKind .chance s = true)
    (hlen : ∀ f ∈ n.factors, ∀ t, T f.forVar = some t → t.length = (f.dims.map n.count).prod) :
    (n.replaceTables T).Valid where
  names := hn.names
  named := hn.named
  few := hn.few
  outcomes := hn.outcomes
  tables := by
    have : (n.replaceTables T).factors.map NFactor.forVar = n.factors.map NFactor.forVar := by
      simp [Net.replaceTables, Function.comp_def]
    rw [this]; exact hn.tables
  hasTable := by
    intro v hv ht
    obtain ⟨f, hf, e⟩ := hn.hasTable v hv ht
    exact ⟨_, List.mem_map_of_mem hf, e⟩
  known := by
    intro f' hf'
    obtain ⟨f, hf, rfl⟩ := List.mem_map.1 hf'
    exact hn.known f hf
  dims := by
    intro f' hf'
    obtain ⟨f, hf, rfl⟩ := List.mem_map.1 hf'
    exact hn.dims f hf
  parents := by
    intro f' hf'
    obtain ⟨f, hf, rfl⟩ := List.mem_map.1 hf'
    exact hn.parents f hf
  size := by
    intro f' hf'
    obtain ⟨f, hf, rfl⟩ := List.mem_map.1 hf'
    intro h1 h2
    obtain ⟨t, h3, h4⟩ := hn.size f hf h1 h2
    match ht : T f.forVar with
    | none => exact ⟨t, h3, h4⟩
    | some t' => exact ⟨t', rfl, hlen f hf t' ht⟩
  single := hn.single
  weights := by
    intro i hi
    replace hi : n.totalUtility = some i := hi
    obtain ⟨v, j, f, h1, h2, h3, h4, h5, h6, h7⟩ := hn.weights i hi
    refine ⟨v, j, f, h1, h2, h3, ?_, h5, h6, h7⟩
    simp only [Net.replaceTables, List.getElem?_map, h4, Option.map_some]
    rw [replace_keeps]
    rw [h5]
    exact replace_none hn hT ⟨v, List.mem_of_getElem? h1, rfl, by rw [h2]; decide⟩

end

/-- What is worth most does not change if everything is multiplied by a positive number. -/
theorem bestOutcomes_scale {m : Nat} {u : Nat → α} {x : α} (hx : 0 < x) :
    bestOutcomes m (fun c => x * u c) = bestOutcomes m u := by
  unfold bestOutcomes
  apply List.filter_congr
  intro c _
  rw [decide_eq_decide]
  exact forall₂_congr (fun c' _ => mul_le_mul_iff_right₀ hx)

/-- **C151.** How likely a situation is does not matter for what to do in it: with other positive probabilities for variables
that every decision knows, `SolvePolicies` takes the same decisions in every situation that can occur. -/
theorem C151_stepwise (sch sch' : NSched α) {n : Net α} (hn : n.Valid) (hs : n.Solvable) (ho : n.Ordered n.decisions)
    (hm : ∀ d ∈ n.decisions, n.Matters [d] d) (hnn : ∀ f ∈ n.chanceTables, ∀ x ∈ f.tab, 0 ≤ x)
    {T : String → Option (List α)} (hT : ∀ r, (T r).isSome → n.KnownToAll r)
    (hlen : ∀ f ∈ n.factors, ∀ t, T f.forVar = some t → t.length = (f.dims.map n.count).prod)
    (hpos : ∀ f ∈ n.factors, ∀ t, T f.forVar = some t → (∀ x ∈ f.tab, 0 < x) ∧ ∀ x ∈ t, 0 < x) :
    ∃ tables n' tables' m', n.solvePolicies sch true = (.ok tables, n') ∧
      (n.replaceTables T).solvePolicies sch' true = (.ok tables', m') ∧
      ∀ A d B, n.decisions = A ++ d :: B → ∀ w : World, (∀ v ∈ n.variables, w v.name < v.outcomes.length) →
        (n.chanceTables.map (fun f => n.prob f w)).prod ≠ 0 → (B.map (fun e => n.byTables tables e w)).prod ≠ 0 →
        ∀ k < n.count d, n.byTables tables' d (w.set d k) = n.byTables tables d (w.set d k) := by
  have hTc : ∀ s, (T s).isSome → n.isKind .chance s = true := fun s h => (hT s h).1
  set m := n.replaceTables T with hmd
  have hmv : m.Valid := replace_valid hn hTc hlen
  have hmn : ∀ f ∈ m.chanceTables, ∀ x ∈ f.tab, 0 ≤ x := by
    intro f hf
    rw [hmd, replace_chance] at hf
    obtain ⟨g, hg, rfl⟩ := List.mem_map.1 hf
    match ht : T g.forVar with
    | none =>
      rw [show ({ g with table := (none : Option (List α)).or g.table } : NFactor α) = g from rfl]
      exact hnn g hg
    | some t => exact fun x hx => ((hpos g (List.mem_filter.1 hg).1 t ht).2 x hx).le
  obtain ⟨tables, n', order, a1, _, _, a2, a3⟩ := C150_stepwise sch hn (fun _ => hs) hnn
  obtain ⟨tables', m', order', b1, _, _, b2, b3⟩ := C150_stepwise sch' hmv (fun _ => replace_solvable hs) hmn
  obtain rfl := a2 ho
  obtain rfl := b2 (replace_ordered ho)
  refine ⟨tables, n', tables', m', a1, b1, ?_⟩
  -- the replaced probabilities: positive, and the same whatever a decision does not know
  have hC : ∀ w, n.FitsAll w → 0 < n.probOf T w := by
    intro w hw
    refine List.prod_pos ?_
    intro x hx
    obtain ⟨f, hf, rfl⟩ := List.mem_map.1 hx
    obtain ⟨h1, h2⟩ := List.mem_filter.1 hf
    obtain ⟨t, ht⟩ := Option.isSome_iff_exists.1 h2
    exact prob_pos hn h1 (hpos f (List.mem_filter.1 h1).1 t ht).1 hw
  have hC' : ∀ w, n.FitsAll w → 0 < m.probOf T w := by
    intro w hw
    refine List.prod_pos ?_
    intro x hx
    obtain ⟨f, hf, rfl⟩ := List.mem_map.1 hx
    obtain ⟨h1, h2⟩ := List.mem_filter.1 hf
    refine prob_pos hmv h1 ?_ hw
    rw [hmd, replace_chance] at h1
    obtain ⟨g, hg, rfl⟩ := List.mem_map.1 h1
    obtain ⟨t, ht⟩ := Option.isSome_iff_exists.1 h2
    intro x hx
    refine (hpos g (List.mem_filter.1 hg).1 t ht).2 x ?_
    have ht' : T g.forVar = some t := ht
    simpa [NFactor.tab, ht'] using hx
  have hag : ∀ w w' : World, (∀ s, n.isKind .chance s = true → (∀ d ∈ n.decisions, ∃ g ∈ n.factors, g.forVar = d ∧ s ∈ g.given) →
      w' s = w s) → n.probOf T w' = n.probOf T w ∧ m.probOf T w' = m.probOf T w := by
    intro w w' h
    constructor
    · unfold Net.probOf
      congr 1
      refine List.map_congr_left (fun f hf => prob_on_dims (fun s hs => ?_))
      obtain ⟨h1, h2⟩ := List.mem_filter.1 hf
      obtain ⟨k1, k2⟩ := (hT _ h2).2 f (List.mem_filter.1 h1).1 rfl s hs
      exact h s k1 k2
    · unfold Net.probOf
      congr 1
      refine List.map_congr_left (fun f hf => prob_on_dims (fun s hs => ?_))
      obtain ⟨h1, h2⟩ := List.mem_filter.1 hf
      rw [hmd, replace_chance] at h1
      obtain ⟨g, hg, rfl⟩ := List.mem_map.1 h1
      obtain ⟨k1, k2⟩ := (hT _ h2).2 g (List.mem_filter.1 hg).1 rfl s hs
      exact h s k1 k2
  have hne : ∀ w, n.FitsAll w → ((n.chanceTables.map (fun f => n.prob f w)).prod ≠ 0 ↔ n.probRest T w ≠ 0) := by
    intro w hw
    rw [probOf_rest n T w]
    simp [(hC w hw).ne']
  have hne' : ∀ w, n.FitsAll w → ((m.chanceTables.map (fun f => m.prob f w)).prod ≠ 0 ↔ n.probRest T w ≠ 0) := by
    intro w hw
    rw [probOf_rest m T w, replace_rest]
    simp [(hC' w hw).ne']
  -- one decision, if the later ones are known to be taken alike
  have step : ∀ A d B, n.decisions = A ++ d :: B →
      (∀ w, n.FitsAll w → n.probRest T w ≠ 0 →
        (B.map (fun e => n.byTables tables' e w)).prod = (B.map (fun e => n.byTables tables e w)).prod) →
      ∀ w, n.FitsAll w → n.probRest T w ≠ 0 → (B.map (fun e => n.byTables tables e w)).prod ≠ 0 →
      ∀ k < n.count d, n.byTables tables' d (w.set d k) = n.byTables tables d (w.set d k) := by
    intro A d B e hB w hw h0 h1 k hk
    have hd : d ∈ n.decisions := by rw [e]; simp
    have hdk := mem_decisions.1 hd
    have r1 := a3 A d B e (hm d hd) w hw ((hne w hw).2 h0) h1 k hk
    have r2 := b3 A d B e (replace_matters (hm d hd)) w hw ((hne' w hw).2 h0) (by
      have := hB w hw h0
      rw [show (B.map (fun e => m.byTables tables' e w)).prod = (B.map (fun e => n.byTables tables' e w)).prod from rfl, this]
      exact h1) k hk
    have hset : ∀ c < n.count d, n.FitsAll (w.set d c) := by
      intro c hc v hv
      unfold World.set
      split_ifs with e
      · rw [← count_eq hn hv, e]; exact hc
      · exact hw v hv
    have hwset : ∀ c, ∀ s, n.isKind .chance s = true → (w.set d c) s = w s := by
      intro c s hsk
      unfold World.set
      rw [if_neg]
      rintro rfl
      obtain ⟨v, hv, rfl, hv2⟩ := isKind_mem.1 hsk
      rw [isKind_iff hn hv, hv2] at hdk
      exact absurd hdk (by decide)
    set V : World → α := fun w => sumWorlds (n.hiddenFrom B d) (fun w => n.probRest T w *
      (B.map (fun e => n.byTables tables e w)).prod * n.totalIn w) w with hV
    have hnd : ((n.hiddenFrom B d).map NVar.name).Nodup := hn.names.sublist (List.filter_sublist.map _)
    have hconst : ∀ c w', (∀ s, s ∉ (n.hiddenFrom B d).map NVar.name → w' s = (w.set d c) s) →
        n.probOf T w' = n.probOf T w ∧ m.probOf T w' = m.probOf T w := by
      intro c w' h
      refine hag w w' (fun s hsk hsd => ?_)
      rw [h s, hwset c s hsk]
      intro hh
      obtain ⟨u, hu, rfl⟩ := List.mem_map.1 hh
      have := (List.mem_filter.1 hu).2
      simp only [decide_eq_true_eq] at this
      obtain ⟨g, g1, g2, g3⟩ := hsd d hd
      exact this.2 (.inr ⟨g, g1, by simp [g2], g3⟩)
    have hfit : ∀ c < n.count d, ∀ w', (∀ v ∈ n.hiddenFrom B d, w' v.name < v.outcomes.length) →
        (∀ s, s ∉ (n.hiddenFrom B d).map NVar.name → w' s = (w.set d c) s) → n.FitsAll w' := by
      intro c hc w' h1 h2 v hv
      by_cases hu : v.name ∈ (n.hiddenFrom B d).map NVar.name
      · obtain ⟨u, hu1, hu2⟩ := List.mem_map.1 hu
        have := name_unique hn (List.mem_filter.1 hu1).1 hv hu2
        exact this ▸ h1 u hu1
      · rw [h2 _ hu]; exact hset c hc v hv
    have w1 : ∀ c < n.count d, n.worthTo (n.byTables tables) B d (w.set d c) = n.probOf T w * V (w.set d c) := by
      intro c hc
      unfold Net.worthTo
      rw [hV]
      dsimp only
      rw [← sumWorlds_mul]
      refine sumWorlds_congr _ _ hnd (fun w' _ h2 => ?_)
      rw [probOf_rest n T w', (hconst c w' h2).1]
      ring
    have hhid : m.hiddenFrom B d = n.hiddenFrom B d := by
      unfold Net.hiddenFrom
      apply List.filter_congr
      intro v _
      rw [decide_eq_decide]
      refine and_congr_right (fun _ => not_congr (replace_known [d] v.name))
    have w2 : ∀ c < n.count d, m.worthTo (m.byTables tables') B d (w.set d c) = m.probOf T w * V (w.set d c) := by
      intro c hc
      unfold Net.worthTo
      rw [hV, hhid]
      dsimp only
      rw [← sumWorlds_mul]
      refine sumWorlds_congr _ _ hnd (fun w' h1 h2 => ?_)
      rw [probOf_rest m T w', (hconst c w' h2).2, replace_rest, replace_total hn hTc]
      by_cases h0' : n.probRest T w' = 0
      · rw [h0']; ring
      · rw [show (B.map (fun e => m.byTables tables' e w')).prod = (B.map (fun e => n.byTables tables' e w')).prod from rfl,
          hB w' (hfit c hc w' h1 h2) h0']
        ring
    rw [bestOutcomes_congr w1, bestOutcomes_scale (hC w hw)] at r1
    rw [show m.count d = n.count d from rfl, bestOutcomes_congr w2, bestOutcomes_scale (hC' w hw)] at r2
    exact r2.trans r1.symm
  have all : ∀ B A, n.decisions = A ++ B → ∀ w, n.FitsAll w → n.probRest T w ≠ 0 →
      (B.map (fun e => n.byTables tables' e w)).prod = (B.map (fun e => n.byTables tables e w)).prod := by
    intro B
    induction B with
    | nil => intro A _ w _ _; rfl
    | cons d B ih =>
      intro A e w hw h0
      have ih' := ih (A ++ [d]) (by rw [e]; simp)
      rw [List.map_cons, List.map_cons, List.prod_cons, List.prod_cons, ih' w hw h0]
      by_cases hz : (B.map (fun e => n.byTables tables e w)).prod = 0
      · rw [hz, mul_zero, mul_zero]
      · have hdk := mem_decisions.1 (show d ∈ n.decisions by rw [e]; simp)
        obtain ⟨v, hv, hv1, _⟩ := isKind_mem.1 hdk
        have hwd : w.set d (w d) = w := by
          funext s
          unfold World.set
          split_ifs with h
          · rw [h]
          · rfl
        have := step A d B e ih' w hw h0 hz (w d) (by rw [← hv1, count_eq hn hv]; exact hw v hv)
        rw [hwd] at this
        rw [this]
  intro A d B e w hw h0 h1 k hk
  exact step A d B e (all B (A ++ [d]) (by rw [e]; simp)) w hw ((hne w hw).1 h0) h1 k hk

/-- A coat for a trip: the season is known, the weather is not. -/
def Ex.coat : Net ℚ where
  name := "coat"
  info := ""
  «variables» := [⟨"Season", .chance, ["summer", "winter"], (0, 0), "", some 0⟩,
    ⟨"Weather", .chance, ["sun", "rain"], (0, 0), "", some 1⟩, ⟨"Coat", .decision, ["no", "yes"], (0, 0), "", some 2⟩,
    ⟨"Comfort", .utility, ["comfort"], (0, 0), "", some 3⟩]
  factors := [⟨"Season", [], some [1, 1], [], 2⟩, ⟨"Weather", ["Season"], some [9, 1, 2, 8], [2], 2⟩,
    ⟨"Coat", ["Season"], none, [2], 2⟩, ⟨"Comfort", ["Weather", "Coat"], some [10, 5, 0, 8], [2, 2], 1⟩]
  policies := []
  vs := none
  names := []
  totalUtility := none

theorem Ex.coat_new : newNet "coat" "" [Ex.nv "Season" .chance ["summer", "winter"], Ex.nv "Weather" .chance ["sun", "rain"],
    Ex.nv "Coat" .decision ["no", "yes"], Ex.nv "Comfort" .utility ["comfort"]]
    [Ex.nf "Season" [] [1, 1], Ex.nf "Weather" ["Season"] [9, 1, 2, 8], ⟨"Coat", ["Season"], none, [], 0⟩,
      Ex.nf "Comfort" ["Weather", "Coat"] [10, 5, 0, 8]] = .ok Ex.coat := rfl

theorem Ex.coat_valid : Ex.coat.Valid where
  names := by decide
  named := by decide
  few := by decide
  outcomes := by decide
  tables := by decide
  hasTable := by decide
  known := by decide
  dims := by decide
  parents := by decide
  size := by
    intro f hf _ hd
    simp only [Ex.coat, List.mem_cons, List.not_mem_nil, or_false] at hf
    rcases hf with rfl | rfl | rfl | rfl
    · exact ⟨_, rfl, by decide⟩
    · exact ⟨_, rfl, by decide⟩
    · exact absurd hd (by decide)
    · exact ⟨_, rfl, by decide⟩
  single := by decide
  weights := by intro i h; simp [Ex.coat] at h

theorem Ex.coat_no : ∀ p d, ¬ Ex.coat.DecisionParent p d := by
  rintro p d ⟨h1, h2, f, hf, rfl, h3⟩
  have : ∀ f ∈ Ex.coat.factors, Ex.coat.isKind .decision f.forVar = true →
      ∀ p ∈ f.given, Ex.coat.isKind .decision p = false := by decide
  rw [this f hf h2 p h3] at h1
  exact absurd h1 (by simp)

theorem Ex.coat_solvable : Ex.coat.Solvable where
  utility := by decide
  used := by decide
  acyclic := by
    intro s h
    obtain ⟨_, h, _⟩ := Relation.TransGen.head'_iff.1 h
    exact Ex.coat_no _ _ h

theorem Ex.coat_matters : ∀ d ∈ Ex.coat.decisions, Ex.coat.Matters [d] d := by
  intro d hd
  have : Ex.coat.decisions = ["Coat"] := by decide
  rw [this, List.mem_singleton] at hd
  rw [hd]
  exact .utility (f := ⟨"Comfort", ["Weather", "Coat"], some [10, 5, 0, 8], [2, 2], 1⟩) (by decide) (by decide) (by decide)
    (by decide)

/-- The conditions of C151 hold: with nine summers for each winter, the coat is taken in the same seasons as before. -/
example (sch sch' : NSched ℚ) : ∃ tables n' tables' m', Ex.coat.solvePolicies sch true = (.ok tables, n') ∧
    (Ex.coat.replaceTables (fun s => if s = "Season" then some [9, 1] else none)).solvePolicies sch' true = (.ok tables', m') ∧
    ∀ season < 2, ∀ k < 2, Ex.coat.byTables tables' "Coat" (World.set (World.set (fun _ => 0) "Season" season) "Coat" k) =
      Ex.coat.byTables tables "Coat" (World.set (World.set (fun _ => 0) "Season" season) "Coat" k) := by
  obtain ⟨tables, n', tables', m', h1, h2, h3⟩ := C151_stepwise sch sch' Ex.coat_valid Ex.coat_solvable
    (fun A d B _ p hp => absurd hp (Ex.coat_no p d)) Ex.coat_matters (by decide +kernel)
    (T := fun s => if s = "Season" then some [9, 1] else none) (by
      intro r hr
      have : r = "Season" := by
        by_contra h
        simp [h] at hr
      subst this
      unfold Net.KnownToAll
      decide) (by
      intro f hf t ht
      simp only [Ex.coat, List.mem_cons, List.not_mem_nil, or_false] at hf
      rcases hf with rfl | rfl | rfl | rfl <;> simp at ht
      subst ht
      decide) (by
      intro f hf t ht
      simp only [Ex.coat, List.mem_cons, List.not_mem_nil, or_false] at hf
      rcases hf with rfl | rfl | rfl | rfl <;> simp at ht
      subst ht
      decide +kernel)
  refine ⟨tables, n', tables', m', h1, h2, fun season hseason k hk => ?_⟩
  have key : ∀ season < 2, (∀ v ∈ Ex.coat.variables, (World.set (fun _ => 0) "Season" season) v.name < v.outcomes.length) ∧
      (Ex.coat.chanceTables.map (fun f => Ex.coat.prob f (World.set (fun _ => 0) "Season" season))).prod ≠ 0 := by
    decide +kernel
  exact h3 [] "Coat" [] (by decide) _ (key season hseason).1 (key season hseason).2 (by simp) k hk

end Bbn
