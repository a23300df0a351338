import Verif.Props.NetAbsorb
import Verif.Props.NetAside

/-!
# C147 and C148 with decisions: the value of the decisions stays the same
-/

set_option autoImplicit false

namespace Bbn

open Finset

variable {α : Type}

section Move

variable [Field α] [LinearOrder α] [IsStrictOrderedRing α] {n m : Net α} {s : String}

omit [IsStrictOrderedRing α] in
/-- A way to decide that does not know `s` is also one for a network in which `s` has other outcomes, or is missing. -/
theorem strategy_move (hs : s ∉ n.decisions) (hdec : n.SameDecisions m) (hA : ∀ w, m.Allowed w → n.Allowed (w.set s 0))
    (hc : ∀ d ∈ n.decisions, m.count d = n.count d) {A : List String} {d : String} {δ : World → α}
    (hAd : ∀ e ∈ A ++ [d], e ∈ n.decisions) (h : n.Strategy A d δ) : m.Strategy A d (fun w => δ (w.set s 0)) := by
  have hd : d ∈ n.decisions := hAd d (by simp)
  have hds : d ≠ s := fun e => hs (e ▸ hd)
  refine ⟨fun w hw => h.nonneg _ (hA w hw), fun w hw => ?_, fun w w' hw hw' hk => ?_⟩
  · rw [← h.one _ (hA w hw), hc d hd]
    exact sum_congr rfl (fun k _ => by rw [World.set_comm w hds])
  · refine h.known _ _ (hA w hw) (hA w' hw') (fun t ht => ?_)
    by_cases e : t = s
    · rw [e, World.set_eq, World.set_eq]
    · rw [World.set_ne _ e, World.set_ne _ e]
      refine hk t ?_
      rcases ht with ht | ⟨f, hf, h1, h2⟩
      · exact .inl ht
      · obtain ⟨g, hg, g1, g2⟩ := (hdec.parents f.forVar (hAd _ h1) t).2 ⟨f, hf, rfl, h2⟩
        exact .inr ⟨g, hg, by rw [g1]; exact h1, g2⟩

omit [IsStrictOrderedRing α] in
/-- A way to decide that does not know `s` does not depend on it. -/
theorem strategy_still (hsee : ∀ f ∈ n.factors, f.forVar ∈ n.decisions → s ∉ f.given) (hs : s ∉ n.decisions)
    {A : List String} {d : String} {δ : World → α} (hAd : ∀ e ∈ A ++ [d], e ∈ n.decisions) (h : n.Strategy A d δ)
    {w : World} {k : Nat} (hw : n.Allowed w) (hw' : n.Allowed (w.set s k)) : δ (w.set s k) = δ w := by
  refine h.known _ _ hw' hw (fun t ht => ?_)
  refine World.set_ne _ ?_ _
  rintro rfl
  rcases ht with ht | ⟨f, hf, h1, h2⟩
  · exact hs (hAd _ ht)
  · exact hsee f hf (hAd _ h1) h2

/-- If ways to decide can be moved from one network to the other and back without changing the expected utility, the best
that can be reached is the same. -/
theorem same_value (sch sch' sch₁ sch₁' : NSched α) (hn : n.Valid) (hn' : m.Valid) (hsol : n.Solvable)
    (hsol' : m.Solvable) (hd : n.decisions ≠ []) (hil : n.InLine)
    (hnn : ∀ f ∈ n.chanceTables, ∀ x ∈ f.tab, 0 ≤ x) (hnn' : ∀ f ∈ m.chanceTables, ∀ x ∈ f.tab, 0 ≤ x)
    (hmat : ∀ order, order.Perm n.decisions → n.Ordered order → ∀ A d B, order = A ++ d :: B → n.Matters (A ++ [d]) d)
    (hmat' : ∀ order, order.Perm m.decisions → m.Ordered order → ∀ A d B, order = A ++ d :: B → m.Matters (A ++ [d]) d)
    (hdec : n.SameDecisions m)
    (there : ∀ (order : List String) (δ : String → World → α), order.Perm n.decisions →
      (∀ A d B, order = A ++ d :: B → n.Strategy A d (δ d)) →
      ∃ δ', (∀ A d B, order = A ++ d :: B → m.Strategy A d (δ' d)) ∧ m.expectedTotal δ' = n.expectedTotal δ)
    (back : ∀ (order : List String) (δ : String → World → α), order.Perm m.decisions →
      (∀ A d B, order = A ++ d :: B → m.Strategy A d (δ d)) →
      ∃ δ', (∀ A d B, order = A ++ d :: B → n.Strategy A d (δ' d)) ∧ n.expectedTotal δ' = m.expectedTotal δ)
    (ign ign' : Bool) :
    ∃ tables n1 g n2 tables' m1 g' m2 x, n.solvePolicies sch false = (.ok tables, n1) ∧
      n1.solveUtility sch₁ [] [] "" ign = (.ok g, n2) ∧ g.data = [x] ∧
      m.solvePolicies sch' false = (.ok tables', m1) ∧ m1.solveUtility sch₁' [] [] "" ign' = (.ok g', m2) ∧ g'.data = [x] := by
  obtain ⟨tables, n1, o, k1, k2, k3, k4, k7, g, n2, k5, k6⟩ := C81_optimal sch sch₁ hn hsol hd hnn hmat
    (stepwise := false) (by simp) ign
  obtain ⟨tables', m1, o', a1, a2, a3, a4, a7, g', m2, a5, a6⟩ := C81_optimal sch' sch₁' hn' hsol'
    (fun h => hd (by have := hdec.vars; rw [h] at this; simpa using this.symm)) hnn' hmat' (stepwise := false) (by simp) ign'
  obtain rfl := hil.unique hn k2 (a2.trans hdec.vars) k3 (fun A d B e p hp => a3 A d B e p (by
    obtain ⟨h1, h2, hf⟩ := hp
    refine ⟨mem_decisions.1 (hdec.vars.symm.subset (mem_decisions.2 h1)),
      mem_decisions.1 (hdec.vars.symm.subset (mem_decisions.2 h2)), (hdec.parents d (mem_decisions.2 h2) p).2 hf⟩))
  refine ⟨tables, n1, g, n2, tables', m1, g', m2, _, k1, k5, k6, a1, a5, ?_⟩
  rw [a6]
  congr 1
  obtain ⟨δ', b1, b2⟩ := there o _ k2 (fun A d B e => (k4 A d B e).1)
  obtain ⟨δ, c1, c2⟩ := back o _ a2 (fun A d B e => (a4 A d B e).1)
  exact le_antisymm (by rw [← c2]; exact k7 δ c1) (by rw [← b2]; exact a7 δ' b1)

end Move

section Main

variable [Field α] [LinearOrder α] [IsStrictOrderedRing α]

/-- **C147, decisions.** Outcomes of a chance variable are merged that no decision knows and that neither other chance
variables nor the utilities tell apart. Then `SolveUtility` reports the same after the decisions are solved. -/
theorem C147_decisions (sch sch' sch₁ sch₁' : NSched α) {n m : Net α} (hn : n.Valid) (hn' : m.Valid) (hsol : n.Solvable)
    (hsol' : m.Solvable) (hd : n.decisions ≠ []) (hil : n.InLine)
    (hnn : ∀ f ∈ n.chanceTables, ∀ x ∈ f.tab, 0 ≤ x) (hnn' : ∀ f ∈ m.chanceTables, ∀ x ∈ f.tab, 0 ≤ x)
    (hmat : ∀ order, order.Perm n.decisions → n.Ordered order → ∀ A d B, order = A ++ d :: B → n.Matters (A ++ [d]) d)
    (hmat' : ∀ order, order.Perm m.decisions → m.Ordered order → ∀ A d B, order = A ++ d :: B → m.Matters (A ++ [d]) d)
    {s : String} {ρ : Nat → Nat} (hm : n.Merges m s ρ) (hdec : n.SameDecisions m)
    (hsee : ∀ f ∈ n.factors, f.forVar ∈ n.decisions → s ∉ f.given)
    (hsame : ∀ w, n.Allowed w → n.totalIn w = m.totalIn (w.set s (ρ (w s)))) (ign ign' : Bool) :
    ∃ tables n1 g n2 tables' m1 g' m2 x, n.solvePolicies sch false = (.ok tables, n1) ∧
      n1.solveUtility sch₁ [] [] "" ign = (.ok g, n2) ∧ g.data = [x] ∧
      m.solvePolicies sch' false = (.ok tables', m1) ∧ m1.solveUtility sch₁' [] [] "" ign' = (.ok g', m2) ∧ g'.data = [x] := by
  obtain ⟨vs, hvs, es, hc⟩ := isKind_mem.1 hm.chance
  have hs : s ∉ n.decisions := by
    intro h
    obtain ⟨v, hv, e, k⟩ := isKind_mem.1 (mem_decisions.1 h)
    rw [name_unique hn hvs hv (by rw [es, e]), k] at hc
    exact absurd hc (by decide)
  have hs' : s ∉ m.decisions := fun h => hs (hdec.vars.subset h)
  have hsee' : ∀ f ∈ m.factors, f.forVar ∈ m.decisions → s ∉ f.given := by
    intro f hf h1 h2
    obtain ⟨g, hg, e, h⟩ := (hdec.parents _ (hdec.vars.subset h1) s).1 ⟨f, hf, rfl, h2⟩
    exact hsee g hg (by rw [e]; exact hdec.vars.subset h1) h
  obtain ⟨us, hus, eu, _⟩ := Merges.var hm hvs
  have h0 : 0 < n.count s := by rw [← es, count_eq hn hvs]; exact (hn.outcomes vs hvs).1
  have h0' : 0 < m.count s := by rw [← es, ← eu, count_eq hn' hus]; exact (hn'.outcomes us hus).1
  have hA : ∀ w, m.Allowed w → n.Allowed (w.set s 0) := by
    intro w hw v hv
    by_cases e : v.name = s
    · rw [e, World.set_eq]; exact (hn.outcomes v (mem_stateVars.1 hv).1).1
    · rw [World.set_ne _ e]
      obtain ⟨u, hu, k1, k2, k3⟩ := Merges.var hm (mem_stateVars.1 hv).1
      have := hw u (mem_stateVars.2 ⟨hu, by rw [k2]; exact (mem_stateVars.1 hv).2⟩)
      rwa [k1, k3 e] at this
  have hA' : ∀ w, n.Allowed w → m.Allowed (w.set s 0) := by
    intro w hw v hv
    by_cases e : v.name = s
    · rw [e, World.set_eq]; exact (hn'.outcomes v (mem_stateVars.1 hv).1).1
    · rw [World.set_ne _ e]
      obtain ⟨u, hu, k1, k2, k3⟩ := Merges.back hm (mem_stateVars.1 hv).1
      have := hw u (mem_stateVars.2 ⟨hu, by rw [← k2]; exact (mem_stateVars.1 hv).2⟩)
      rwa [← k1, ← k3 (by rw [← k1]; exact e)] at this
  have hcount : ∀ d ∈ n.decisions, m.count d = n.count d := by
    intro d h
    obtain ⟨v, hv, e, _⟩ := isKind_mem.1 (mem_decisions.1 h)
    exact Merges.count hm hn hn' ⟨v, hv, e⟩ (fun e => hs (e ▸ h))
  have hprod : ∀ (δ : String → World → α) (w : World), (m.decisions.map (fun d => δ d w)).prod =
      (n.decisions.map (fun d => δ d w)).prod := fun δ w => (hdec.vars.map _).prod_eq
  refine same_value sch sch' sch₁ sch₁' hn hn' hsol hsol' hd hil hnn hnn' hmat hmat' hdec ?_ ?_ ign ign'
  · intro o δ ho hδ
    have hin : ∀ A d B, o = A ++ d :: B → ∀ e ∈ A ++ [d], e ∈ n.decisions := fun A d B e x hx =>
      ho.subset (by rw [e]; simp only [List.mem_append, List.mem_cons, List.not_mem_nil, or_false] at hx ⊢; tauto)
    refine ⟨fun d w => δ d (w.set s 0), fun A d B e => strategy_move hs hdec hA hcount (hin A d B e) (hδ A d B e), ?_⟩
    rw [expectedTotal_joint, expectedTotal_joint]
    refine (Merges.total hm hn hn' (fun w hw => ?_)).symm
    rw [hsame w hw, hprod (fun d w => δ d (w.set s 0))]
    congr 2
    refine List.map_congr_left (fun d hdm => ?_)
    obtain ⟨A, B, e⟩ := List.append_of_mem (ho.symm.subset hdm)
    have hw0 : n.Allowed (w.set s 0) := by
      have := hA _ (Merges.allowed hm hn hn' hw)
      rwa [World.set_set] at this
    rw [World.set_set]
    exact (strategy_still hsee hs (hin A d B e) (hδ A d B e) hw hw0).symm
  · intro o δ ho hδ
    have hin : ∀ A d B, o = A ++ d :: B → ∀ e ∈ A ++ [d], e ∈ m.decisions := fun A d B e x hx =>
      ho.subset (by rw [e]; simp only [List.mem_append, List.mem_cons, List.not_mem_nil, or_false] at hx ⊢; tauto)
    refine ⟨fun d w => δ d (w.set s 0), fun A d B e => strategy_move hs' (decisions_symm hdec) hA'
      (fun d h => (hcount d (hdec.vars.subset h)).symm) (hin A d B e) (hδ A d B e), ?_⟩
    rw [expectedTotal_joint, expectedTotal_joint]
    refine Merges.total hm hn hn' (fun w hw => ?_)
    rw [hsame w hw, hprod δ]
    congr 2
    refine List.map_congr_left (fun d hdm => ?_)
    obtain ⟨A, B, e⟩ := List.append_of_mem (ho.symm.subset (hdec.vars.symm.subset hdm))
    exact (strategy_still hsee' hs' (hin A d B e) (hδ A d B e) (hA' w hw)
      (by rw [World.set_set]; exact Merges.allowed hm hn hn' hw)).symm.trans (by rw [World.set_set])

/-- **C148, decisions.** A chance variable that no decision knows, on which the utilities do not depend, and that is a
parent of one other chance variable only, is left out, and the probabilities of its child are summed over its outcomes.
Then `SolveUtility` reports the same after the decisions are solved. -/
theorem C148_decisions (sch sch' sch₁ sch₁' : NSched α) {n m : Net α} (hn : n.Valid) (hn' : m.Valid) (hsol : n.Solvable)
    (hsol' : m.Solvable) (hd : n.decisions ≠ []) (hil : n.InLine)
    (hnn : ∀ f ∈ n.chanceTables, ∀ x ∈ f.tab, 0 ≤ x) (hnn' : ∀ f ∈ m.chanceTables, ∀ x ∈ f.tab, 0 ≤ x)
    (hmat : ∀ order, order.Perm n.decisions → n.Ordered order → ∀ A d B, order = A ++ d :: B → n.Matters (A ++ [d]) d)
    (hmat' : ∀ order, order.Perm m.decisions → m.Ordered order → ∀ A d B, order = A ++ d :: B → m.Matters (A ++ [d]) d)
    {x y : String} (hm : n.Absorbs m x y) (hdec : n.SameDecisions m)
    (hsee : ∀ f ∈ n.factors, f.forVar ∈ n.decisions → x ∉ f.given)
    (hsame : ∀ w, n.Allowed w → n.totalIn w = m.totalIn w) (hfree : ∀ w k, n.totalIn (w.set x k) = n.totalIn w)
    (ign ign' : Bool) :
    ∃ tables n1 g n2 tables' m1 g' m2 z, n.solvePolicies sch false = (.ok tables, n1) ∧
      n1.solveUtility sch₁ [] [] "" ign = (.ok g, n2) ∧ g.data = [z] ∧
      m.solvePolicies sch' false = (.ok tables', m1) ∧ m1.solveUtility sch₁' [] [] "" ign' = (.ok g', m2) ∧ g'.data = [z] := by
  obtain ⟨vx, hvx, ex, hc⟩ := isKind_mem.1 hm.chance.1
  have hs : x ∉ n.decisions := by
    intro h
    obtain ⟨v, hv, e, k⟩ := isKind_mem.1 (mem_decisions.1 h)
    rw [name_unique hn hvx hv (by rw [ex, e]), k] at hc
    exact absurd hc (by decide)
  have hs' : x ∉ m.decisions := fun h => hs (hdec.vars.subset h)
  have hsee' : ∀ f ∈ m.factors, f.forVar ∈ m.decisions → x ∉ f.given := by
    intro f hf h1 h2
    obtain ⟨g, hg, e, h⟩ := (hdec.parents _ (hdec.vars.subset h1) x).1 ⟨f, hf, rfl, h2⟩
    exact hsee g hg (by rw [e]; exact hdec.vars.subset h1) h
  have hA : ∀ w, m.Allowed w → n.Allowed (w.set x 0) := by
    intro w hw v hv
    by_cases e : v.name = x
    · rw [e, World.set_eq]; exact (hn.outcomes v (mem_stateVars.1 hv).1).1
    · rw [World.set_ne _ e]
      obtain ⟨u, hu, k1, k2, k3⟩ := Absorbs.var hm (mem_stateVars.1 hv).1 e
      have := hw u (mem_stateVars.2 ⟨hu, by rw [k2]; exact (mem_stateVars.1 hv).2⟩)
      rwa [k1, k3] at this
  have hA1 : ∀ w, n.Allowed w → m.Allowed w := by
    intro w hw v hv
    obtain ⟨u, hu, _, k1, k2, k3⟩ := Absorbs.back hm (mem_stateVars.1 hv).1
    have := hw u (mem_stateVars.2 ⟨hu, by rw [← k2]; exact (mem_stateVars.1 hv).2⟩)
    rwa [← k1, ← k3] at this
  have hA2 : ∀ w k, m.Allowed w → m.Allowed (w.set x k) := by
    intro w k hw v hv
    obtain ⟨u, hu, hne, k1, k2, k3⟩ := Absorbs.back hm (mem_stateVars.1 hv).1
    rw [World.set_ne _ (by rw [k1]; exact hne)]
    exact hw v hv
  have hcount : ∀ d ∈ n.decisions, m.count d = n.count d := by
    intro d h
    obtain ⟨v, hv, e, _⟩ := isKind_mem.1 (mem_decisions.1 h)
    exact Absorbs.count hm hn hn' ⟨v, hv, e⟩ (fun e => hs (e ▸ h))
  have hprod : ∀ (δ : String → World → α) (w : World), (m.decisions.map (fun d => δ d w)).prod =
      (n.decisions.map (fun d => δ d w)).prod := fun δ w => (hdec.vars.map _).prod_eq
  refine same_value sch sch' sch₁ sch₁' hn hn' hsol hsol' hd hil hnn hnn' hmat hmat' hdec ?_ ?_ ign ign'
  · intro o δ ho hδ
    have hin : ∀ A d B, o = A ++ d :: B → ∀ e ∈ A ++ [d], e ∈ n.decisions := fun A d B e x hx =>
      ho.subset (by rw [e]; simp only [List.mem_append, List.mem_cons, List.not_mem_nil, or_false] at hx ⊢; tauto)
    refine ⟨fun d w => δ d (w.set x 0), fun A d B e => strategy_move hs hdec hA hcount (hin A d B e) (hδ A d B e), ?_⟩
    rw [expectedTotal_joint, expectedTotal_joint]
    refine Eq.trans (Absorbs.total hm hn hn' (F := fun w => n.totalIn w * (n.decisions.map (fun d => δ d (w.set x 0))).prod)
      (fun w k => ?_) (fun w hw => ?_)).symm (total_congr hn (fun w hw => ?_))
    · simp only [hfree, World.set_set]
    · rw [hsame w hw, hprod (fun d w => δ d (w.set x 0))]
    · congr 2
      refine List.map_congr_left (fun d hdm => ?_)
      obtain ⟨A, B, e⟩ := List.append_of_mem (ho.symm.subset hdm)
      exact strategy_still hsee hs (hin A d B e) (hδ A d B e) hw (hA w (hA1 w hw))
  · intro o δ ho hδ
    have hin : ∀ A d B, o = A ++ d :: B → ∀ e ∈ A ++ [d], e ∈ m.decisions := fun A d B e x hx =>
      ho.subset (by rw [e]; simp only [List.mem_append, List.mem_cons, List.not_mem_nil, or_false] at hx ⊢; tauto)
    refine ⟨fun d w => δ d (w.set x 0), fun A d B e => strategy_move hs' (decisions_symm hdec)
      (fun w hw => hA2 w 0 (hA1 w hw)) (fun d h => (hcount d (hdec.vars.subset h)).symm) (hin A d B e) (hδ A d B e), ?_⟩
    rw [expectedTotal_joint, expectedTotal_joint]
    refine Absorbs.total hm hn hn' (fun w k => ?_) (fun w hw => ?_)
    · simp only [hfree, World.set_set]
    · rw [hsame w hw, hprod δ]
      congr 2
      refine List.map_congr_left (fun d hdm => ?_)
      obtain ⟨A, B, e⟩ := List.append_of_mem (ho.symm.subset (hdec.vars.symm.subset hdm))
      exact strategy_still hsee' hs' (hin A d B e) (hδ A d B e) (hA1 w hw) (hA2 w 0 (hA1 w hw))

end Main

namespace Ex

/-- Which shoes to put on, with two kinds of rain, which nothing tells apart. Only the grass is seen. -/
def shoesFiner : Net ℚ where
  name := "shoes"
  info := ""
  «variables» := [⟨"Weather", .chance, ["dry", "drizzle", "shower"], (0, 0), "", some 0⟩,
    ⟨"Grass", .chance, ["wet", "dry"], (0, 0), "", some 1⟩,
    ⟨"Shoes", .decision, ["sandals", "boots"], (0, 0), "", some 2⟩,
    ⟨"Mood", .utility, ["mood"], (0, 0), "", some 3⟩]
  factors := [⟨"Weather", [], some [6, 3, 1], [], 3⟩,
    ⟨"Grass", ["Weather"], some [1, 9, 4, 1, 8, 2], [3], 2⟩,
    ⟨"Shoes", ["Grass"], none, [2], 2⟩,
    ⟨"Mood", ["Weather", "Shoes"], some [10, 2, -5, 4, -5, 4], [3, 2], 1⟩]
  policies := []
  vs := none
  names := []
  totalUtility := none

/-- The same with one kind of rain. -/
def shoesCoarser : Net ℚ where
  name := "shoes"
  info := ""
  «variables» := [⟨"Weather", .chance, ["dry", "rain"], (0, 0), "", some 0⟩,
    ⟨"Grass", .chance, ["wet", "dry"], (0, 0), "", some 1⟩,
    ⟨"Shoes", .decision, ["sandals", "boots"], (0, 0), "", some 2⟩,
    ⟨"Mood", .utility, ["mood"], (0, 0), "", some 3⟩]
  factors := [⟨"Weather", [], some [3, 2], [], 2⟩,
    ⟨"Grass", ["Weather"], some [1, 9, 4, 1], [2], 2⟩,
    ⟨"Shoes", ["Grass"], none, [2], 2⟩,
    ⟨"Mood", ["Weather", "Shoes"], some [10, 2, -5, 4], [2, 2], 1⟩]
  policies := []
  vs := none
  names := []
  totalUtility := none

/-- Which shoes to put on, with a sprinkler that makes the grass wet. Only the grass is seen. -/
def shoesYard : Net ℚ where
  name := "shoes"
  info := ""
  «variables» := [⟨"Rain", .chance, ["yes", "no"], (0, 0), "", some 0⟩,
    ⟨"Sprinkler", .chance, ["on", "off"], (0, 0), "", some 1⟩,
    ⟨"Grass", .chance, ["wet", "dry"], (0, 0), "", some 2⟩,
    ⟨"Shoes", .decision, ["sandals", "boots"], (0, 0), "", some 3⟩,
    ⟨"Mood", .utility, ["mood"], (0, 0), "", some 4⟩]
  factors := [⟨"Rain", [], some [20, 80], [], 2⟩,
    ⟨"Sprinkler", ["Rain"], some [1, 99, 4, 6], [2], 2⟩,
    ⟨"Grass", ["Rain", "Sprinkler"], some [99, 1, 8, 2, 9, 1, 0, 10], [2, 2], 2⟩,
    ⟨"Shoes", ["Grass"], none, [2], 2⟩,
    ⟨"Mood", ["Rain", "Shoes"], some [-5, 40, 10, 2], [2, 2], 1⟩]
  policies := []
  vs := none
  names := []
  totalUtility := none

/-- The same without the sprinkler. -/
def shoesShort : Net ℚ where
  name := "shoes"
  info := ""
  «variables» := [⟨"Rain", .chance, ["yes", "no"], (0, 0), "", some 0⟩,
    ⟨"Grass", .chance, ["wet", "dry"], (0, 0), "", some 1⟩,
    ⟨"Shoes", .decision, ["sandals", "boots"], (0, 0), "", some 2⟩,
    ⟨"Mood", .utility, ["mood"], (0, 0), "", some 3⟩]
  factors := [⟨"Rain", [], some [1, 4], [], 2⟩,
    ⟨"Grass", ["Rain"], some [8019, 1981, 36, 64], [2], 2⟩,
    ⟨"Shoes", ["Grass"], none, [2], 2⟩,
    ⟨"Mood", ["Rain", "Shoes"], some [-5, 40, 10, 2], [2, 2], 1⟩]
  policies := []
  vs := none
  names := []
  totalUtility := none

theorem shoesFiner_valid : shoesFiner.Valid where
  names := by decide
  named := by decide
  few := by decide
  outcomes := by decide
  tables := by decide
  hasTable := by decide
  known := by decide
  dims := by decide
  parents := by decide
  size := by
    intro f hf h1 h2
    simp only [shoesFiner, List.mem_cons, List.not_mem_nil, or_false] at hf
    rcases hf with rfl | rfl | rfl | rfl
    · exact ⟨_, rfl, by decide⟩
    · exact ⟨_, rfl, by decide⟩
    · exact absurd h2 (by decide)
    · exact ⟨_, rfl, by decide⟩
  single := by decide
  weights := by intro i h; simp [shoesFiner] at h

theorem shoesFiner_solvable : shoesFiner.Solvable where
  used := by decide
  acyclic := by
    have : ∀ p d, ¬ shoesFiner.DecisionParent p d := by
      rintro p d ⟨h1, h2, f, hf, rfl, hg⟩
      have : ∀ f ∈ shoesFiner.factors, shoesFiner.isKind .decision f.forVar = true → ∀ g ∈ f.given, shoesFiner.isKind .decision g = false := by
        decide
      rw [this f hf h2 p hg] at h1
      simp at h1
    intro s h
    obtain ⟨c, _, h⟩ := Relation.TransGen.tail'_iff.1 h
    exact this _ _ h
  utility := by decide

theorem shoesCoarser_valid : shoesCoarser.Valid where
  names := by decide
  named := by decide
  few := by decide
  outcomes := by decide
  tables := by decide
  hasTable := by decide
  known := by decide
  dims := by decide
  parents := by decide
  size := by
    intro f hf h1 h2
    simp only [shoesCoarser, List.mem_cons, List.not_mem_nil, or_false] at hf
    rcases hf with rfl | rfl | rfl | rfl
    · exact ⟨_, rfl, by decide⟩
    · exact ⟨_, rfl, by decide⟩
    · exact absurd h2 (by decide)
    · exact ⟨_, rfl, by decide⟩
  single := by decide
  weights := by intro i h; simp [shoesCoarser] at h

theorem shoesCoarser_solvable : shoesCoarser.Solvable where
  used := by decide
  acyclic := by
    have : ∀ p d, ¬ shoesCoarser.DecisionParent p d := by
      rintro p d ⟨h1, h2, f, hf, rfl, hg⟩
      have : ∀ f ∈ shoesCoarser.factors, shoesCoarser.isKind .decision f.forVar = true → ∀ g ∈ f.given, shoesCoarser.isKind .decision g = false := by
        decide
      rw [this f hf h2 p hg] at h1
      simp at h1
    intro s h
    obtain ⟨c, _, h⟩ := Relation.TransGen.tail'_iff.1 h
    exact this _ _ h
  utility := by decide

theorem shoesYard_valid : shoesYard.Valid where
  names := by decide
  named := by decide
  few := by decide
  outcomes := by decide
  tables := by decide
  hasTable := by decide
  known := by decide
  dims := by decide
  parents := by decide
  size := by
    intro f hf h1 h2
    simp only [shoesYard, List.mem_cons, List.not_mem_nil, or_false] at hf
    rcases hf with rfl | rfl | rfl | rfl | rfl
    · exact ⟨_, rfl, by decide⟩
    · exact ⟨_, rfl, by decide⟩
    · exact ⟨_, rfl, by decide⟩
    · exact absurd h2 (by decide)
    · exact ⟨_, rfl, by decide⟩
  single := by decide
  weights := by intro i h; simp [shoesYard] at h

theorem shoesYard_solvable : shoesYard.Solvable where
  used := by decide
  acyclic := by
    have : ∀ p d, ¬ shoesYard.DecisionParent p d := by
      rintro p d ⟨h1, h2, f, hf, rfl, hg⟩
      have : ∀ f ∈ shoesYard.factors, shoesYard.isKind .decision f.forVar = true → ∀ g ∈ f.given, shoesYard.isKind .decision g = false := by
        decide
      rw [this f hf h2 p hg] at h1
      simp at h1
    intro s h
    obtain ⟨c, _, h⟩ := Relation.TransGen.tail'_iff.1 h
    exact this _ _ h
  utility := by decide

theorem shoesShort_valid : shoesShort.Valid where
  names := by decide
  named := by decide
  few := by decide
  outcomes := by decide
  tables := by decide
  hasTable := by decide
  known := by decide
  dims := by decide
  parents := by decide
  size := by
    intro f hf h1 h2
    simp only [shoesShort, List.mem_cons, List.not_mem_nil, or_false] at hf
    rcases hf with rfl | rfl | rfl | rfl
    · exact ⟨_, rfl, by decide⟩
    · exact ⟨_, rfl, by decide⟩
    · exact absurd h2 (by decide)
    · exact ⟨_, rfl, by decide⟩
  single := by decide
  weights := by intro i h; simp [shoesShort] at h

theorem shoesShort_solvable : shoesShort.Solvable where
  used := by decide
  acyclic := by
    have : ∀ p d, ¬ shoesShort.DecisionParent p d := by
      rintro p d ⟨h1, h2, f, hf, rfl, hg⟩
      have : ∀ f ∈ shoesShort.factors, shoesShort.isKind .decision f.forVar = true → ∀ g ∈ f.given, shoesShort.isKind .decision g = false := by
        decide
      rw [this f hf h2 p hg] at h1
      simp at h1
    intro s h
    obtain ⟨c, _, h⟩ := Relation.TransGen.tail'_iff.1 h
    exact this _ _ h
  utility := by decide

theorem shoesFiner_allowed {w : World} (hw : shoesFiner.Allowed w) : w "Weather" < 3 ∧ w "Grass" < 2 ∧ w "Shoes" < 2 :=
  ⟨hw ⟨"Weather", .chance, ["dry", "drizzle", "shower"], (0, 0), "", some 0⟩ (by decide),
    hw ⟨"Grass", .chance, ["wet", "dry"], (0, 0), "", some 1⟩ (by decide),
    hw ⟨"Shoes", .decision, ["sandals", "boots"], (0, 0), "", some 2⟩ (by decide)⟩

theorem shoesFiner_merges : shoesFiner.Merges shoesCoarser "Weather" (fun k => min k 1) where
  vars := .cons (by decide) (.cons (by decide) (.cons (by decide) (.cons (by decide) .nil)))
  chance := by decide
  into := by decide
  others := by
    intro f hf hne
    have : f = ⟨"Grass", ["Weather"], some [1, 9, 4, 1, 8, 2], [3], 2⟩ := by revert f; decide
    subst this
    refine ⟨⟨"Grass", ["Weather"], some [1, 9, 4, 1], [2], 2⟩, by decide, rfl, fun w hw => ?_⟩
    obtain ⟨h1, h2, _⟩ := shoesFiner_allowed hw
    rw [prob_three _ _ (x := "Weather") (y := "Grass") (z := "Grass") (by decide) w,
      prob_three _ _ (x := "Weather") (y := "Grass") (z := "Grass") (by decide) (w.set _ _)]
    have key : ∀ a < 3, ∀ b < 2, shoesFiner.prob ⟨"Grass", ["Weather"], some [1, 9, 4, 1, 8, 2], [3], 2⟩
        (three "Weather" "Grass" "Grass" a b b) = shoesCoarser.prob ⟨"Grass", ["Weather"], some [1, 9, 4, 1], [2], 2⟩
        (three "Weather" "Grass" "Grass" (min a 1) b b) := by decide +kernel
    exact key _ h1 _ h2
  own := by
    intro f hf hne
    have : f = ⟨"Weather", [], some [6, 3, 1], [], 3⟩ := by revert f; decide
    subst this
    refine ⟨⟨"Weather", [], some [3, 2], [], 2⟩, by decide, rfl, fun w _ j hj => ?_⟩
    have h1 : ∀ k, shoesCoarser.prob ⟨"Weather", [], some [3, 2], [], 2⟩ (w.set "Weather" k) =
        shoesCoarser.prob ⟨"Weather", [], some [3, 2], [], 2⟩ (World.set (fun _ => 0) "Weather" k) := fun k =>
      prob_congr _ _ (by intro s hs; obtain rfl : s = "Weather" := by simpa [NFactor.dims] using hs
                         rw [World.set_eq, World.set_eq])
    have h2 : ∀ k, shoesFiner.prob ⟨"Weather", [], some [6, 3, 1], [], 3⟩ (w.set "Weather" k) =
        shoesFiner.prob ⟨"Weather", [], some [6, 3, 1], [], 3⟩ (World.set (fun _ => 0) "Weather" k) := fun k =>
      prob_congr _ _ (by intro s hs; obtain rfl : s = "Weather" := by simpa [NFactor.dims] using hs
                         rw [World.set_eq, World.set_eq])
    rw [h1, Finset.sum_congr rfl (fun k _ => h2 k)]
    have key : ∀ j < 2, shoesCoarser.prob ⟨"Weather", [], some [3, 2], [], 2⟩ (World.set (fun _ => 0) "Weather" j) =
        ∑ k ∈ (range 3).filter (fun k => min k 1 = j),
          shoesFiner.prob ⟨"Weather", [], some [6, 3, 1], [], 3⟩ (World.set (fun _ => 0) "Weather" k) := by decide +kernel
    exact key j hj

theorem shoesYard_allowed {w : World} (hw : shoesYard.Allowed w) : w "Rain" < 2 ∧ w "Sprinkler" < 2 ∧ w "Grass" < 2 :=
  ⟨hw ⟨"Rain", .chance, ["yes", "no"], (0, 0), "", some 0⟩ (by decide),
    hw ⟨"Sprinkler", .chance, ["on", "off"], (0, 0), "", some 1⟩ (by decide),
    hw ⟨"Grass", .chance, ["wet", "dry"], (0, 0), "", some 2⟩ (by decide)⟩

theorem shoesYard_absorbs : shoesYard.Absorbs shoesShort "Sprinkler" "Grass" where
  vars := by
    show List.Forall₂ _ [_, _, _, _] [_, _, _, _]
    exact .cons (by decide) (.cons (by decide) (.cons (by decide) (.cons (by decide) .nil)))
  ne := by decide
  chance := by decide
  child := by decide
  others := by
    intro f hf h1 h2
    have : f = ⟨"Rain", [], some [20, 80], [], 2⟩ := by revert f; decide
    subst this
    refine ⟨⟨"Rain", [], some [1, 4], [], 2⟩, by decide, rfl, fun w hw => ?_⟩
    obtain ⟨h1, h2, h3⟩ := shoesYard_allowed hw
    rw [prob_three shoesYard _ (x := "Rain") (y := "Sprinkler") (z := "Grass") (by decide) w,
      prob_three shoesShort _ (x := "Rain") (y := "Sprinkler") (z := "Grass") (by decide) w]
    have key : ∀ a < 2, ∀ b < 2, ∀ c < 2, shoesShort.prob ⟨"Rain", [], some [1, 4], [], 2⟩
        (three "Rain" "Sprinkler" "Grass" a b c) = shoesYard.prob ⟨"Rain", [], some [20, 80], [], 2⟩
        (three "Rain" "Sprinkler" "Grass" a b c) := by decide +kernel
    exact key _ h1 _ h2 _ h3
  sum := by
    intro fx hx fy hy ex ey
    have : fx = ⟨"Sprinkler", ["Rain"], some [1, 99, 4, 6], [2], 2⟩ := by clear hy ey; revert fx; decide
    subst this
    have : fy = ⟨"Grass", ["Rain", "Sprinkler"], some [99, 1, 8, 2, 9, 1, 0, 10], [2, 2], 2⟩ := by revert fy; decide
    subst this
    refine ⟨⟨"Grass", ["Rain"], some [8019, 1981, 36, 64], [2], 2⟩, by decide, rfl, fun w hw => ?_⟩
    obtain ⟨h1, h2, h3⟩ := shoesYard_allowed hw
    rw [prob_three shoesShort _ (x := "Rain") (y := "Sprinkler") (z := "Grass") (by decide) w]
    have hk : ∀ k ∈ range (shoesYard.count "Sprinkler"),
        shoesYard.prob ⟨"Sprinkler", ["Rain"], some [1, 99, 4, 6], [2], 2⟩ (w.set "Sprinkler" k) *
          shoesYard.prob ⟨"Grass", ["Rain", "Sprinkler"], some [99, 1, 8, 2, 9, 1, 0, 10], [2, 2], 2⟩ (w.set "Sprinkler" k) =
        shoesYard.prob ⟨"Sprinkler", ["Rain"], some [1, 99, 4, 6], [2], 2⟩ (three "Rain" "Sprinkler" "Grass" (w "Rain") k (w "Grass")) *
          shoesYard.prob ⟨"Grass", ["Rain", "Sprinkler"], some [99, 1, 8, 2, 9, 1, 0, 10], [2, 2], 2⟩
            (three "Rain" "Sprinkler" "Grass" (w "Rain") k (w "Grass")) := fun k _ => by
      rw [prob_three shoesYard _ (x := "Rain") (y := "Sprinkler") (z := "Grass") (by decide) (w.set _ _),
        prob_three shoesYard ⟨"Grass", _, _, _, _⟩ (x := "Rain") (y := "Sprinkler") (z := "Grass") (by decide) (w.set _ _)]
      rfl
    rw [Finset.sum_congr rfl hk]
    have key : ∀ a < 2, ∀ b < 2, ∀ c < 2, shoesShort.prob ⟨"Grass", ["Rain"], some [8019, 1981, 36, 64], [2], 2⟩
        (three "Rain" "Sprinkler" "Grass" a b c) = ∑ k ∈ range 2,
        shoesYard.prob ⟨"Sprinkler", ["Rain"], some [1, 99, 4, 6], [2], 2⟩ (three "Rain" "Sprinkler" "Grass" a k c) *
          shoesYard.prob ⟨"Grass", ["Rain", "Sprinkler"], some [99, 1, 8, 2, 9, 1, 0, 10], [2, 2], 2⟩
            (three "Rain" "Sprinkler" "Grass" a k c) := by decide +kernel
    exact key _ h1 _ h2 _ h3

/-- The only decision matters. -/
theorem shoes_matter {m : Net ℚ} (hd : m.decisions = ["Shoes"]) (hu : ∃ f ∈ m.factors, m.isKind .utility f.forVar = true ∧
    f.forVar ≠ m.totalName ∧ "Shoes" ∈ f.given) : ∀ order, order.Perm m.decisions → m.Ordered order →
    ∀ A d B, order = A ++ d :: B → m.Matters (A ++ [d]) d := by
  intro o ho _ A d B e
  obtain ⟨f, hf, h1, h2, h3⟩ := hu
  have : d ∈ m.decisions := ho.subset (by rw [e]; simp)
  rw [hd, List.mem_singleton] at this
  subst this
  exact .utility hf h1 h2 h3

/-- There is only one decision. -/
theorem shoes_line {m : Net ℚ} (hd : m.decisions = ["Shoes"]) : m.InLine := by
  intro d h e he
  rw [hd, List.mem_singleton] at h he
  exact .inl (h.trans he.symm)

/-- There is only one utility variable. -/
theorem shoes_total {m : Net ℚ} (h : m.utilityVars.map NVar.name = ["Mood"]) (w : World) :
    m.totalIn w = m.weight "Mood" * m.utilityIn "Mood" w := by
  have : m.totalIn w = ((m.utilityVars.map NVar.name).map (fun s => m.weight s * m.utilityIn s w)).sum := by
    rw [List.map_map]; rfl
  rw [this, h]
  simp

theorem shoesFiner_total (w : World) (hw : shoesFiner.Allowed w) :
    shoesFiner.totalIn w = shoesCoarser.totalIn (w.set "Weather" (min (w "Weather") 1)) := by
  obtain ⟨h1, _, h2⟩ := shoesFiner_allowed hw
  have e : shoesFiner.totalIn w = shoesFiner.totalIn (three "Weather" "Grass" "Shoes" (w "Weather") 0 (w "Shoes")) := by
    rw [shoes_total (by decide), shoes_total (by decide)]
    simp [Net.utilityIn, Net.entry, shoesFiner, NFactor.dims, World.set, three]
  have e' : shoesCoarser.totalIn (w.set "Weather" (min (w "Weather") 1)) =
      shoesCoarser.totalIn (three "Weather" "Grass" "Shoes" (min (w "Weather") 1) 0 (w "Shoes")) := by
    rw [shoes_total (by decide), shoes_total (by decide)]
    simp [Net.utilityIn, Net.entry, shoesCoarser, NFactor.dims, World.set, three]
  rw [e, e']
  have key : ∀ a < 3, ∀ b < 2, shoesFiner.totalIn (three "Weather" "Grass" "Shoes" a 0 b) =
      shoesCoarser.totalIn (three "Weather" "Grass" "Shoes" (min a 1) 0 b) := by decide +kernel
  exact key _ h1 _ h2

/-- The hypotheses of `C147_decisions` are met. -/
example (sch sch' sch₁ sch₁' : NSched ℚ) : ∃ tables n1 g n2 tables' m1 g' m2 x,
      shoesFiner.solvePolicies sch false = (.ok tables, n1) ∧
      n1.solveUtility sch₁ [] [] "" false = (.ok g, n2) ∧ g.data = [x] ∧
      shoesCoarser.solvePolicies sch' false = (.ok tables', m1) ∧ m1.solveUtility sch₁' [] [] "" false = (.ok g', m2) ∧
      g'.data = [x] :=
  C147_decisions sch sch' sch₁ sch₁' shoesFiner_valid shoesCoarser_valid shoesFiner_solvable shoesCoarser_solvable (by decide)
    (shoes_line (by decide)) (by decide) (by decide) (shoes_matter (by decide) (by decide)) (shoes_matter (by decide) (by decide))
    shoesFiner_merges ⟨by decide, fun d hd s => by
      have hdec : shoesFiner.decisions = ["Shoes"] := by decide
      rw [hdec, List.mem_singleton] at hd
      subst hd
      simp [shoesFiner, shoesCoarser]⟩ (by decide) shoesFiner_total false false

/-- The hypotheses of `C148_decisions` are met. -/
example (sch sch' sch₁ sch₁' : NSched ℚ) : ∃ tables n1 g n2 tables' m1 g' m2 x,
      shoesYard.solvePolicies sch false = (.ok tables, n1) ∧
      n1.solveUtility sch₁ [] [] "" false = (.ok g, n2) ∧ g.data = [x] ∧
      shoesShort.solvePolicies sch' false = (.ok tables', m1) ∧ m1.solveUtility sch₁' [] [] "" false = (.ok g', m2) ∧
      g'.data = [x] :=
  C148_decisions sch sch' sch₁ sch₁' shoesYard_valid shoesShort_valid shoesYard_solvable shoesShort_solvable (by decide)
    (shoes_line (by decide)) (by decide) (by decide) (shoes_matter (by decide) (by decide)) (shoes_matter (by decide) (by decide))
    shoesYard_absorbs ⟨by decide, fun d hd s => by
      have hdec : shoesYard.decisions = ["Shoes"] := by decide
      rw [hdec, List.mem_singleton] at hd
      subst hd
      simp [shoesYard, shoesShort]⟩ (by decide)
    (fun w _ => by
      rw [shoes_total (by decide), shoes_total (by decide)]
      rfl)
    (fun w k => by
      rw [shoes_total (by decide), shoes_total (by decide)]
      simp [Net.utilityIn, Net.entry, shoesYard, NFactor.dims, World.set])
    false false

/-- What is reported. -/
example : (∀ m ∈ [shoesFiner, shoesCoarser], ((m.solvePolicies back false).2.solveUtility back [] [] "" false).1.toOption.map
      Factor.data = some [32 / 5]) ∧
    ∀ m ∈ [shoesYard, shoesShort], ((m.solvePolicies back false).2.solveUtility back [] [] "" false).1.toOption.map
      Factor.data = some [119131 / 10000] := by
  decide +kernel

end Ex

end Bbn
