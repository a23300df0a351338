import Verif.Props.NetKnown
import Verif.Props.NetDominated

/-!
# Information that says nothing about the rest does not change what to do
-/

set_option autoImplicit false

namespace Bbn

open Finset

variable {α : Type}

theorem set_swap (w : World) {x d : String} (h : x ≠ d) (i k : Nat) : (w.set x i).set d k = (w.set d k).set x i := by
  funext s
  unfold World.set
  by_cases h1 : s = d
  · rw [if_pos h1, if_neg (fun e => h (e.symm.trans h1)), if_pos h1]
  · rw [if_neg h1, if_neg h1]

variable [Field α] [LinearOrder α] [IsStrictOrderedRing α]

/-- **C152.** Information that says nothing about the rest does not change what to do: if a variable that every decision knows
is not a parent of any chance or utility variable, `SolvePolicies` takes the same decisions for all its outcomes, in all
situations that can occur. -/
theorem C152_stepwise (sch : NSched α) {n : Net α} (hn : n.Valid) (hs : n.Solvable) (ho : n.Ordered n.decisions)
    (hm : ∀ d ∈ n.decisions, n.Matters [d] d) (hnn : ∀ f ∈ n.chanceTables, ∀ x ∈ f.tab, 0 ≤ x) {x : String}
    (hx : n.KnownToAll x) (huse : ∀ f ∈ n.factors, n.isKind .decision f.forVar = false → x ∉ f.given) :
    ∃ tables n', n.solvePolicies sch true = (.ok tables, n') ∧
      ∀ A d B, n.decisions = A ++ d :: B → ∀ w : World, (∀ v ∈ n.variables, w v.name < v.outcomes.length) →
        ∀ i < n.count x, (n.chanceTables.map (fun f => n.prob f w)).prod ≠ 0 →
        (n.chanceTables.map (fun f => n.prob f (w.set x i))).prod ≠ 0 → (B.map (fun e => n.byTables tables e w)).prod ≠ 0 →
        ∀ k < n.count d, n.byTables tables d ((w.set x i).set d k) = n.byTables tables d (w.set d k) := by
  obtain ⟨tables, n', order, a1, _, _, a2, a3⟩ := C150_stepwise sch hn (fun _ => hs) hnn
  obtain rfl := a2 ho
  refine ⟨tables, n', a1, ?_⟩
  set T : String → Option (List α) := fun s => if s = x then some [] else none with hT
  have hTs : ∀ s, (T s).isSome = true ↔ s = x := by
    intro s
    by_cases h : s = x <;> simp [hT, h]
  have hTn : ∀ s, (T s).isNone = true ↔ s ≠ x := by
    intro s
    by_cases h : s = x <;> simp [hT, h]
  have hxk : ∀ {s}, ∀ k, n.isKind k s = true → k ≠ .chance → x ≠ s := by
    rintro s k h hk rfl
    obtain ⟨v, hv, rfl, hv2⟩ := isKind_mem.1 h
    rw [(isKind_iff hn hv _).1 hx.1] at hv2
    exact hk hv2.symm
  have hnon : ∀ w, 0 ≤ n.probOf T w := fun w => List.prod_nonneg (fun y hy => by
    obtain ⟨f, hf, rfl⟩ := List.mem_map.1 hy
    exact prob_nonneg (hnn f (List.mem_filter.1 hf).1) w)
  have hrest : ∀ w i, n.probRest T (w.set x i) = n.probRest T w := by
    intro w i
    unfold Net.probRest
    congr 1
    refine List.map_congr_left (fun f hf => prob_on_dims (fun s hs => ?_))
    obtain ⟨h1, h2⟩ := List.mem_filter.1 hf
    obtain ⟨h3, h4⟩ := List.mem_filter.1 h1
    unfold World.set
    rw [if_neg]
    rintro rfl
    simp only [NFactor.dims, List.mem_append, List.mem_singleton] at hs
    rcases hs with hs | hs
    · refine huse f h3 ?_ hs
      rw [Bool.eq_false_iff]
      intro hd
      obtain ⟨v, hv, hv1, hv2⟩ := isKind_mem.1 h4
      rw [← hv1, isKind_iff hn hv, hv2] at hd
      exact absurd hd (by decide)
    · exact (hTn _).1 h2 hs.symm
  have htot : ∀ w i, n.totalIn (w.set x i) = n.totalIn w := by
    intro w i
    unfold Net.totalIn
    congr 1
    refine List.map_congr_left (fun u hu => ?_)
    obtain ⟨hu1, hu2⟩ := List.mem_filter.1 hu
    simp only [decide_eq_true_eq] at hu2
    have huk : n.isKind .utility u.name = true := (isKind_iff hn hu1 _).2 hu2.1
    have hxu := hxk _ huk (by decide)
    congr 1
    unfold Net.utilityIn
    congr 1
    refine List.map_congr_left (fun f hf => entry_agree (fun s hs => ?_))
    obtain ⟨h1, h2⟩ := List.mem_filter.1 hf
    simp only [decide_eq_true_eq] at h2
    rw [set_swap w hxu]
    show (if s = x then i else _) = _
    rw [if_neg]
    rintro rfl
    simp only [NFactor.dims, List.mem_append, List.mem_singleton] at hs
    rcases hs with hs | hs
    · refine huse f h1 ?_ hs
      rw [h2, Bool.eq_false_iff]
      intro hd
      rw [isKind_iff hn hu1, hu2.1] at hd
      exact absurd hd (by decide)
    · exact hxu (hs.trans h2)
  have hag : ∀ w w' : World, (∀ s, n.isKind .chance s = true → (∀ d ∈ n.decisions, ∃ g ∈ n.factors, g.forVar = d ∧ s ∈ g.given) →
      w' s = w s) → n.probOf T w' = n.probOf T w := by
    intro w w' h
    unfold Net.probOf
    congr 1
    refine List.map_congr_left (fun f hf => prob_on_dims (fun s hs => ?_))
    obtain ⟨h1, h2⟩ := List.mem_filter.1 hf
    obtain ⟨k1, k2⟩ := hx.2 f (List.mem_filter.1 h1).1 ((hTs _).1 h2) s hs
    exact h s k1 k2
  have hsetx : ∀ w : World, n.FitsAll w → ∀ i < n.count x, n.FitsAll (w.set x i) := by
    intro w hw i hi v hv
    unfold World.set
    split_ifs with e
    · rw [← count_eq hn hv, e]; exact hi
    · exact hw v hv
  have step : ∀ A d B, n.decisions = A ++ d :: B → ∀ i < n.count x,
      (∀ w, n.FitsAll w → n.probRest T w ≠ 0 → n.probOf T w ≠ 0 → n.probOf T (w.set x i) ≠ 0 →
        (B.map (fun e => n.byTables tables e (w.set x i))).prod = (B.map (fun e => n.byTables tables e w)).prod) →
      ∀ w, n.FitsAll w → n.probRest T w ≠ 0 → n.probOf T w ≠ 0 → n.probOf T (w.set x i) ≠ 0 →
      (B.map (fun e => n.byTables tables e w)).prod ≠ 0 →
      ∀ k < n.count d, n.byTables tables d ((w.set x i).set d k) = n.byTables tables d (w.set d k) := by
    intro A d B e i hi hB w hw h0 hp hp' h1 k hk
    have hd : d ∈ n.decisions := by rw [e]; simp
    have hdk := mem_decisions.1 hd
    have hxd : x ≠ d := hxk _ hdk (by decide)
    have r1 := a3 A d B e (hm d hd) w hw (by rw [probOf_rest n T]; exact mul_ne_zero hp h0) h1 k hk
    have r2 := a3 A d B e (hm d hd) (w.set x i) (hsetx w hw i hi)
      (by rw [probOf_rest n T, hrest]; exact mul_ne_zero hp' h0) (by rw [hB w hw h0 hp hp']; exact h1) k hk
    have hset : ∀ c < n.count d, n.FitsAll (w.set d c) := by
      intro c hc v hv
      unfold World.set
      split_ifs with e
      · rw [← count_eq hn hv, e]; exact hc
      · exact hw v hv
    have hwset : ∀ (w : World) c, ∀ s, n.isKind .chance s = true → (w.set d c) s = w s := by
      intro w c s hsk
      unfold World.set
      rw [if_neg]
      rintro rfl
      obtain ⟨v, hv, rfl, hv2⟩ := isKind_mem.1 hsk
      rw [isKind_iff hn hv, hv2] at hdk
      exact absurd hdk (by decide)
    set V : World → α := fun w => sumWorlds (n.hiddenFrom B d) (fun w => n.probRest T w *
      (B.map (fun e => n.byTables tables e w)).prod * n.totalIn w) w with hV
    have hnd : ((n.hiddenFrom B d).map NVar.name).Nodup := hn.names.sublist (List.filter_sublist.map _)
    have hhid : ∀ s, (∀ d ∈ n.decisions, ∃ g ∈ n.factors, g.forVar = d ∧ s ∈ g.given) →
        s ∉ (n.hiddenFrom B d).map NVar.name := by
      intro s hsd hh
      obtain ⟨u, hu, rfl⟩ := List.mem_map.1 hh
      have := (List.mem_filter.1 hu).2
      simp only [decide_eq_true_eq] at this
      obtain ⟨g, g1, g2, g3⟩ := hsd d hd
      exact this.2 (.inr ⟨g, g1, by simp [g2], g3⟩)
    have hconst : ∀ (w : World) c w', (∀ s, s ∉ (n.hiddenFrom B d).map NVar.name → w' s = (w.set d c) s) →
        n.probOf T w' = n.probOf T w := by
      intro w c w' h
      refine hag w w' (fun s hsk hsd => ?_)
      rw [h s (hhid s hsd), hwset w c s hsk]
    have hfit : ∀ c < n.count d, ∀ w', (∀ v ∈ n.hiddenFrom B d, w' v.name < v.outcomes.length) →
        (∀ s, s ∉ (n.hiddenFrom B d).map NVar.name → w' s = (w.set d c) s) → n.FitsAll w' := by
      intro c hc w' h1 h2 v hv
      by_cases hu : v.name ∈ (n.hiddenFrom B d).map NVar.name
      · obtain ⟨u, hu1, hu2⟩ := List.mem_map.1 hu
        have := name_unique hn (List.mem_filter.1 hu1).1 hv hu2
        exact this ▸ h1 u hu1
      · rw [h2 _ hu]; exact hset c hc v hv
    have w1 : ∀ w : World, ∀ c < n.count d, n.worthTo (n.byTables tables) B d (w.set d c) = n.probOf T w * V (w.set d c) := by
      intro w c hc
      unfold Net.worthTo
      rw [hV]
      dsimp only
      rw [← sumWorlds_mul]
      refine sumWorlds_congr _ _ hnd (fun w' _ h2 => ?_)
      rw [probOf_rest n T w', hconst w c w' h2]
      ring
    have hxh : x ∉ (n.hiddenFrom B d).map NVar.name := by
      refine hhid x (fun d hd => ?_)
      obtain ⟨v, hv, hv1, hv2⟩ := isKind_mem.1 hx.1
      obtain ⟨f, hf, hf1⟩ := hn.hasTable v hv (by rw [hv2]; decide)
      exact (hx.2 f hf (hf1.trans hv1) x (by simp [NFactor.dims, hf1, hv1])).2 d hd
    have hVx : ∀ c < n.count d, V ((w.set x i).set d c) = V (w.set d c) := by
      intro c hc
      rw [set_swap w hxd, hV]
      dsimp only
      rw [sumWorlds_base _ _ _ hxh]
      refine sumWorlds_congr _ _ hnd (fun w' h1 h2 => ?_)
      rw [hrest, htot]
      by_cases h0' : n.probRest T w' = 0
      · rw [h0']; ring
      · rw [hB w' (hfit c hc w' h1 h2) h0' (by rw [hconst w c w' h2]; exact hp) (by
          rw [hconst (w.set x i) c (w'.set x i)]
          · exact hp'
          · intro s hs
            rw [set_swap w hxd]
            unfold World.set at h2 ⊢
            split_ifs with e1 e2
            · rfl
            · have := h2 s hs
              rwa [if_pos e2] at this
            · have := h2 s hs
              rwa [if_neg e2] at this)]
    rw [bestOutcomes_congr (w1 w), bestOutcomes_scale (lt_of_le_of_ne (hnon w) (Ne.symm hp))] at r1
    rw [bestOutcomes_congr (w1 (w.set x i)), bestOutcomes_scale (lt_of_le_of_ne (hnon _) (Ne.symm hp')),
      bestOutcomes_congr hVx] at r2
    exact r2.trans r1.symm
  have all : ∀ i < n.count x, ∀ B A, n.decisions = A ++ B → ∀ w, n.FitsAll w → n.probRest T w ≠ 0 → n.probOf T w ≠ 0 →
      n.probOf T (w.set x i) ≠ 0 →
      (B.map (fun e => n.byTables tables e (w.set x i))).prod = (B.map (fun e => n.byTables tables e w)).prod := by
    intro i hi B
    induction B with
    | nil => intro A _ w _ _ _ _; rfl
    | cons d B ih =>
      intro A e w hw h0 hp hp'
      have ih' := ih (A ++ [d]) (by rw [e]; simp)
      rw [List.map_cons, List.map_cons, List.prod_cons, List.prod_cons, ih' w hw h0 hp hp']
      by_cases hz : (B.map (fun e => n.byTables tables e w)).prod = 0
      · rw [hz, mul_zero, mul_zero]
      · have hdk := mem_decisions.1 (show d ∈ n.decisions by rw [e]; simp)
        have hxd : x ≠ d := hxk _ hdk (by decide)
        obtain ⟨v, hv, hv1, _⟩ := isKind_mem.1 hdk
        have hwd : ∀ w : World, w.set d (w d) = w := by
          intro w
          funext s
          unfold World.set
          split_ifs with h
          · rw [h]
          · rfl
        have := step A d B e i hi ih' w hw h0 hp hp' hz (w d) (by rw [← hv1, count_eq hn hv]; exact hw v hv)
        rw [set_swap w hxd, hwd w] at this
        rw [this]
  intro A d B e w hw i hi h0 h0' h1 k hk
  rw [probOf_rest n T] at h0 h0'
  exact step A d B e i hi (all i hi B (A ++ [d]) (by rw [e]; simp)) w hw (right_ne_zero_of_mul h0) (left_ne_zero_of_mul h0)
    (left_ne_zero_of_mul h0') h1 k hk

/-- A coat for a trip: a horoscope is known, the weather is not. -/
def Ex.horoscope : Net ℚ where
  name := "horoscope"
  info := ""
  «variables» := [⟨"Horoscope", .chance, ["good", "bad"], (0, 0), "", some 0⟩,
    ⟨"Weather", .chance, ["sun", "rain"], (0, 0), "", some 1⟩, ⟨"Coat", .decision, ["no", "yes"], (0, 0), "", some 2⟩,
    ⟨"Comfort", .utility, ["comfort"], (0, 0), "", some 3⟩]
  factors := [⟨"Horoscope", [], some [3, 1], [], 2⟩, ⟨"Weather", [], some [9, 1], [], 2⟩,
    ⟨"Coat", ["Horoscope"], none, [2], 2⟩, ⟨"Comfort", ["Weather", "Coat"], some [10, 5, 0, 8], [2, 2], 1⟩]
  policies := []
  vs := none
  names := []
  totalUtility := none

theorem Ex.horoscope_new : newNet "horoscope" "" [Ex.nv "Horoscope" .chance ["good", "bad"],
    Ex.nv "Weather" .chance ["sun", "rain"], Ex.nv "Coat" .decision ["no", "yes"], Ex.nv "Comfort" .utility ["comfort"]]
    [Ex.nf "Horoscope" [] [3, 1], Ex.nf "Weather" [] [9, 1], ⟨"Coat", ["Horoscope"], none, [], 0⟩,
      Ex.nf "Comfort" ["Weather", "Coat"] [10, 5, 0, 8]] = .ok Ex.horoscope := rfl

theorem Ex.horoscope_valid : Ex.horoscope.Valid where
  names := by decide
  named := by decide
  few := by decide
  outcomes := by decide
  tables := by decide
  hasTable := by decide
  known := by decide
  dims := by decide
  parents := by decide
  size := by
    intro f hf _ hd
    simp only [Ex.horoscope, List.mem_cons, List.not_mem_nil, or_false] at hf
    rcases hf with rfl | rfl | rfl | rfl
    · exact ⟨_, rfl, by decide⟩
    · exact ⟨_, rfl, by decide⟩
    · exact absurd hd (by decide)
    · exact ⟨_, rfl, by decide⟩
  single := by decide
  weights := by intro i h; simp [Ex.horoscope] at h

theorem Ex.horoscope_no : ∀ p d, ¬ Ex.horoscope.DecisionParent p d := by
  rintro p d ⟨h1, h2, f, hf, rfl, h3⟩
  have : ∀ f ∈ Ex.horoscope.factors, Ex.horoscope.isKind .decision f.forVar = true →
      ∀ p ∈ f.given, Ex.horoscope.isKind .decision p = false := by decide
  rw [this f hf h2 p h3] at h1
  exact absurd h1 (by simp)

theorem Ex.horoscope_solvable : Ex.horoscope.Solvable where
  utility := by decide
  used := by decide
  acyclic := by
    intro s h
    obtain ⟨_, h, _⟩ := Relation.TransGen.head'_iff.1 h
    exact Ex.horoscope_no _ _ h

theorem Ex.horoscope_matters : ∀ d ∈ Ex.horoscope.decisions, Ex.horoscope.Matters [d] d := by
  intro d hd
  have : Ex.horoscope.decisions = ["Coat"] := by decide
  rw [this, List.mem_singleton] at hd
  rw [hd]
  exact .utility (f := ⟨"Comfort", ["Weather", "Coat"], some [10, 5, 0, 8], [2, 2], 1⟩) (by decide) (by decide) (by decide)
    (by decide)

/-- The conditions of C152 hold: the horoscope does not change whether the coat is taken. -/
example (sch : NSched ℚ) : ∃ tables n', Ex.horoscope.solvePolicies sch true = (.ok tables, n') ∧ ∀ k < 2,
    Ex.horoscope.byTables tables "Coat" (World.set (World.set (fun _ => 0) "Horoscope" 1) "Coat" k) =
      Ex.horoscope.byTables tables "Coat" (World.set (fun _ => 0) "Coat" k) := by
  obtain ⟨tables, n', h1, h2⟩ := C152_stepwise sch Ex.horoscope_valid Ex.horoscope_solvable
    (fun A d B _ p hp => absurd hp (Ex.horoscope_no p d)) Ex.horoscope_matters (by decide +kernel) (x := "Horoscope")
    (by unfold Net.KnownToAll; decide) (by decide)
  exact ⟨tables, n', h1, fun k hk => h2 [] "Coat" [] (by decide) (fun _ => 0) (by decide) 1 (by decide) (by decide +kernel)
    (by decide +kernel) (by simp) k hk⟩

end Bbn
