import Verif.Props.NetBayes
import Verif.Props.NetRecall
import Verif.Lemmas.TrainHits

/-!
# Expected utilities of different calls fit together
-/

set_option autoImplicit false

namespace Bbn

open Finset

variable {α : Type}

/-- The call of `SolveUtility` without query variables succeeds and returns the number `x`. -/
def Net.Worth [Zero α] [One α] [Add α] [Mul α] [Div α] [DecidableEq α] (n : Net α) (sch : NSched α)
    (evidence : List (String × String)) (u : String) (ign : Bool) (x : α) : Prop :=
  ∃ g n', n.solveUtility sch evidence [] u ign = (.ok g, n') ∧ g.data = [x]

/-- The call of `SolveQuery` without query variables succeeds, and the factor it returns is the number `p`. -/
def Net.Likely [Zero α] [One α] [Add α] [Mul α] [Div α] [DecidableEq α] (n : Net α) (sch : NSched α)
    (evidence : List (String × String)) (ign : Bool) (p : α) : Prop :=
  ∃ r g n', n.solveQuery sch evidence [] ign = (.ok (r, g), n') ∧ g.data = [p]

theorem worth_total [Field α] [DecidableEq α] (sch : NSched α) {n : Net α} (hn : n.Valid) (hp : n.PoliciesOK)
    (hs : n.AllSolved) {evidence : List (String × String)} (hev : n.EvidenceOK evidence) {u : String}
    (hu : u = "" ∧ n.utilityVars ≠ [] ∨ ∃ v ∈ n.utilityVars, v.name = u) (ign : Bool) :
    n.Worth sch evidence u ign
      (n.total (n.active evidence ign) (fun w => if n.Agrees evidence w then n.asked u w else 0)) :=
  C75_expected_utility sch hn hp hev hu ign (hs.hidden hn evidence)

theorem likely_mass [Field α] [DecidableEq α] (sch : NSched α) {n : Net α} (hn : n.Valid) (hp : n.PoliciesOK)
    (hs : n.AllSolved) {evidence : List (String × String)} (hev : n.EvidenceOK evidence) (ign : Bool) :
    n.Likely sch evidence ign (n.mass (n.active evidence ign) (n.Agrees evidence)) := by
  obtain ⟨g, vs', h1, h2⟩ := query_mass sch hn hp hs hev ign
  refine ⟨[], g, { n with vs := some vs', names := n.nameTable }, ?_, h2⟩
  unfold Net.solveQuery
  rw [h1]
  rfl

theorem active_free {n : Net α} (hn : n.Valid) (hp : n.PoliciesOK) {evidence : List (String × String)} {ign : Bool} {v : NVar}
    (hv : v ∈ n.variables) (hc : v.nodeType = .chance ∨ ign = false) (o : String) :
    n.active ((v.name, o) :: evidence) ign = n.active evidence ign := by
  rcases hc with hc | rfl
  · exact active_cons hn hp hv hc o
  · rfl

theorem evidence_more {n : Net α} {evidence : List (String × String)} (hev : n.EvidenceOK evidence) {v : NVar}
    (hv : v ∈ n.stateVars) (hfree : v.name ∉ evidence.map Prod.fst) {o : String}
    (ho : o ∈ v.outcomes) : n.EvidenceOK ((v.name, o) :: evidence) := by
  refine ⟨?_, ?_⟩
  · rw [List.map_cons, List.nodup_cons]; exact ⟨hfree, hev.keys⟩
  · intro e he
    rcases List.mem_cons.1 he with rfl | he
    · exact ⟨v, (mem_stateVars.1 hv).1, rfl, (mem_stateVars.1 hv).2, ho⟩
    · exact hev.known e he

theorem total_split [Field α] [DecidableEq α] {n : Net α} (hn : n.Valid) (pols : List (String × Factor α)) {v : NVar}
    (hv : v ∈ n.stateVars) (F : World → α) :
    ∑ k ∈ range v.outcomes.length, n.total pols (fun w => if w v.name = k then F w else 0) = n.total pols F := by
  unfold Net.total
  rw [← sumWorlds_sum]
  refine sumWorlds_congr _ _ (stateVars_names hn) (fun w h _ => ?_)
  rw [← Finset.mul_sum]
  congr 1
  simp [h v hv]

theorem total_agrees [Field α] [DecidableEq α] {n : Net α} (hn : n.Valid) (pols : List (String × Factor α))
    {evidence : List (String × String)} {v : NVar} (hv : v ∈ n.variables) (hd : v.outcomes.Nodup) {k : Nat}
    (hk : k < v.outcomes.length) (F : World → α) :
    n.total pols (fun w => if n.Agrees ((v.name, v.outcomes[k]) :: evidence) w then F w else 0) =
      n.total pols (fun w => if w v.name = k then (if n.Agrees evidence w then F w else 0) else 0) := by
  congr 1
  funext w
  have := agrees_cons hn hv v.outcomes[k] w (evidence := evidence)
  rw [hd.idxOf_getElem k hk] at this
  simp only [this]
  by_cases h1 : w v.name = k <;> by_cases h2 : n.Agrees evidence w <;> simp [h1, h2]

/-- **C107, total expectation.** What `SolveUtility` reports for some evidence is the sum of what it reports if each of
the outcomes of one more variable is observed in addition. The variable is any chance variable, or any decision if
policies are not ignored. All these numbers are answers to different calls. -/
theorem C107_total [Field α] [DecidableEq α] (s1 : NSched α) (s2 : Nat → NSched α) {n : Net α} (hn : n.Valid)
    (hp : n.PoliciesOK) (hs : n.AllSolved) {evidence : List (String × String)} (hev : n.EvidenceOK evidence) {x : NVar}
    (hx : x ∈ n.stateVars) (ign : Bool) (hxc : x.nodeType = .chance ∨ ign = false)
    (hxf : x.name ∉ evidence.map Prod.fst) (hxn : x.outcomes.Nodup) {u : String}
    (hu : u = "" ∧ n.utilityVars ≠ [] ∨ ∃ v ∈ n.utilityVars, v.name = u) :
    ∃ y : α, ∃ ys : Nat → α, n.Worth s1 evidence u ign y ∧
      (∀ (k : Nat) (hk : k < x.outcomes.length), n.Worth (s2 k) ((x.name, x.outcomes[k]) :: evidence) u ign (ys k)) ∧
      y = ∑ k ∈ range x.outcomes.length, ys k := by
  have hxv := (mem_stateVars.1 hx).1
  refine ⟨_, fun k => n.total (n.active evidence ign) (fun w => if w x.name = k then
    (if n.Agrees evidence w then n.asked u w else 0) else 0), worth_total s1 hn hp hs hev hu ign, ?_, ?_⟩
  · intro k hk
    have := worth_total (s2 k) hn hp hs (evidence_more hev hx hxf (List.getElem_mem hk)) hu ign
    rwa [active_free hn hp hxv hxc, total_agrees hn _ hxv hxn hk] at this
  · exact (total_split hn _ hx _).symm

theorem sumWorlds_null [AddCommMonoid α] [PartialOrder α] [IsOrderedAddMonoid α] {F G : World → α} (h0 : ∀ w, 0 ≤ F w)
    (h : ∀ w, F w = 0 → G w = 0) : ∀ (l : List NVar) (w : World), sumWorlds l F w = 0 → sumWorlds l G w = 0 := by
  intro l
  induction l with
  | nil => intro w hw; exact h w hw
  | cons v l ih =>
    intro w hw
    refine Finset.sum_eq_zero (fun k hk => ih _ ?_)
    exact (Finset.sum_eq_zero_iff_of_nonneg (fun k _ => sumWorlds_nonneg h0 l _)).1 hw k hk

theorem total_null [Field α] [LinearOrder α] [IsStrictOrderedRing α] {n : Net α} (h : n.Nonneg)
    {pols : List (String × Factor α)} (hsub : ∀ p ∈ pols, p ∈ n.policies) {P : World → Prop} [DecidablePred P]
    (h0 : n.mass pols P = 0) (F : World → α) : n.total pols (fun w => if P w then F w else 0) = 0 := by
  unfold Net.mass Net.total at h0
  unfold Net.total
  refine sumWorlds_null (F := fun w => n.joint pols w * if P w then 1 else 0) (fun w => ?_) (fun w hw => ?_) _ _ h0
  · refine mul_nonneg (joint_nonneg_world h hsub w) ?_
    split_ifs
    · exact zero_le_one
    · exact le_refl _
  · by_cases hP : P w
    · rw [if_pos hP, mul_one] at hw; rw [hw, zero_mul]
    · simp [hP]

/-- **C107, averages.** The expected utility given some evidence (the answer of `SolveUtility` over the probability of the
evidence) is the average of the expected utilities given one more observation, weighted with the probabilities that
`SolveQuery` returns for it. -/
theorem C107_average [Field α] [LinearOrder α] [IsStrictOrderedRing α] (s1 s2 s3 : NSched α) (s4 s5 : Nat → NSched α)
    {n : Net α} (hn : n.Valid) (hp : n.PoliciesOK) (hnn : n.Nonneg) (hs : n.AllSolved)
    {evidence : List (String × String)} (hev : n.EvidenceOK evidence) {x : NVar}
    (hx : x ∈ n.variables) (hxc : x.nodeType = .chance) (ign : Bool)
    (hxf : x.name ∉ evidence.map Prod.fst) (hxn : x.outcomes.Nodup) {u : String}
    (hu : u = "" ∧ n.utilityVars ≠ [] ∨ ∃ v ∈ n.utilityVars, v.name = u)
    (possible : n.mass (n.active evidence ign) (n.Agrees evidence) ≠ 0) :
    ∃ dX : List α, ∃ y p : α, ∃ ys ps : Nat → α, n.Answers s1 evidence x.name ign dX ∧
      n.Worth s2 evidence u ign y ∧ n.Likely s3 evidence ign p ∧ p ≠ 0 ∧
      (∀ (k : Nat) (hk : k < x.outcomes.length), n.Worth (s4 k) ((x.name, x.outcomes[k]) :: evidence) u ign (ys k) ∧
        n.Likely (s5 k) ((x.name, x.outcomes[k]) :: evidence) ign (ps k) ∧ (ps k = 0 ↔ dX[k]? = some 0)) ∧
      y / p = ∑ k ∈ range x.outcomes.length, dX.getD k 0 * (ys k / ps k) := by
  have hxs : x ∈ n.stateVars := mem_stateVars.2 ⟨hx, by rw [hxc]; decide⟩
  obtain ⟨dX, h1, _, h1'⟩ := answers_mass s1 hn hp hev hx hxc hxf ign possible
  set pols := n.active evidence ign with hpols
  have hsub : ∀ p ∈ pols, p ∈ n.policies := active_sub
  have hm : ∀ (k : Nat) (hk : k < x.outcomes.length), n.mass pols (n.Agrees ((x.name, x.outcomes[k]) :: evidence)) =
      n.mass pols (fun w => n.Agrees evidence w ∧ w x.name = k) := by
    intro k hk
    apply mass_congr
    intro w
    rw [agrees_cons hn hx, hxn.idxOf_getElem k hk]
  refine ⟨dX, _, _, fun k => n.total pols (fun w => if w x.name = k then
    (if n.Agrees evidence w then n.asked u w else 0) else 0), fun k => n.mass pols (fun w => n.Agrees evidence w ∧
      w x.name = k), h1, worth_total s2 hn hp hs hev hu ign, likely_mass s3 hn hp hs hev ign, possible, ?_, ?_⟩
  · intro k hk
    have he := evidence_more hev hxs hxf (List.getElem_mem hk)
    have a1 := worth_total (s4 k) hn hp hs he hu ign
    have a2 := likely_mass (s5 k) hn hp hs he ign
    rw [active_free hn hp hx (.inl hxc), total_agrees hn _ hx hxn hk] at a1
    rw [active_free hn hp hx (.inl hxc), hm k hk] at a2
    refine ⟨a1, a2, ?_⟩
    rw [h1' k hk, Option.some_inj, div_eq_zero_iff]
    simp [possible]
  · rw [← hpols, ← total_split hn pols hxs, Finset.sum_div]
    refine Finset.sum_congr rfl (fun k hk => ?_)
    rw [List.getD_eq_getElem?_getD, h1' k (Finset.mem_range.1 hk), Option.getD_some]
    by_cases h0 : n.mass pols (fun w => n.Agrees evidence w ∧ w x.name = k) = 0
    · have := total_null hnn hsub h0 (n.asked u)
      have e : n.total pols (fun w => if w x.name = k then (if n.Agrees evidence w then n.asked u w else 0) else 0) =
          n.total pols (fun w => if n.Agrees evidence w ∧ w x.name = k then n.asked u w else 0) := by
        congr 1
        funext w
        by_cases h1 : w x.name = k <;> by_cases h2 : n.Agrees evidence w <;> simp [h1, h2]
      rw [e, this, h0]; simp
    · field_simp

theorem utilityIn_table [AddCommMonoid α] {n : Net α} (hn : n.Valid) {f : NFactor α} (hf : f ∈ n.factors) (w : World) :
    n.utilityIn f.forVar w = n.entry f (w.set f.forVar 0) := by
  unfold Net.utilityIn
  have : n.factors.filter (fun g => g.forVar = f.forVar) = [f] := by
    have hnd := hn.tables
    revert hf hnd
    generalize n.factors = L
    intro hf hnd
    induction L with
    | nil => simp at hf
    | cons a L ih =>
      rw [List.map_cons, List.nodup_cons] at hnd
      rcases List.mem_cons.1 hf with rfl | hf
      · rw [List.filter_cons_of_pos (by simp)]
        congr 1
        rw [List.filter_eq_nil_iff]
        intro g hg h
        simp only [decide_eq_true_eq] at h
        exact hnd.1 (h ▸ List.mem_map_of_mem hg)
      · rw [List.filter_cons_of_neg, ih hf hnd.2]
        simp only [decide_eq_true_eq]
        intro h
        exact hnd.1 (h ▸ List.mem_map_of_mem hf)
  rw [this]
  simp

theorem entry_mem [Zero α] {n : Net α} {f : NFactor α} {t : List α} (ht : f.table = some t)
    (hl : t.length = (f.dims.map n.count).prod) {w : World} (hw : ∀ s ∈ f.dims, w s < n.count s) : n.entry f w ∈ f.tab := by
  have hlt := rowMajor_lt (f.dims.map (fun s => (n.count s, w s))) (by simpa using hw)
  rw [List.map_map] at hlt
  have e : f.tab = t := by simp [NFactor.tab, ht]
  unfold Net.entry
  rw [List.getD_eq_getElem?_getD, List.getElem?_eq_getElem (by rw [e, hl]; exact hlt), Option.getD_some]
  exact List.getElem_mem _

/-- In every world, a utility is one of the entries of its table. -/
theorem utility_entry [AddCommMonoid α] {n : Net α} (hn : n.Valid) {f : NFactor α} (hf : f ∈ n.factors) {u : NVar}
    (hu : u ∈ n.utilityVars) (hfu : f.forVar = u.name) {w : World} (hw : n.Allowed w) : n.utilityIn u.name w ∈ f.tab := by
  simp only [Net.utilityVars, List.mem_filter, decide_eq_true_eq] at hu
  obtain ⟨hv, hk, ht⟩ := hu
  have hd : n.isKind .decision f.forVar = false := by
    rw [← Bool.not_eq_true, hfu, isKind_iff hn hv, hk]; decide
  obtain ⟨t, h1, h2⟩ := hn.size f hf (by rw [hfu]; exact ht) hd
  rw [← hfu, utilityIn_table hn hf]
  refine entry_mem h1 h2 (fun s hs => ?_)
  rcases List.mem_append.1 hs with hs | hs
  · obtain ⟨x, hx, e, hx2⟩ := hn.parents f hf (by rw [hfu]; exact ht) s hs
    have hnd := hn.dims f hf
    unfold NFactor.dims at hnd
    have hne : s ≠ f.forVar := fun e' => (List.nodup_append.1 hnd).2.2 s hs f.forVar (by simp) e'
    simp only [World.set, if_neg hne]
    rw [← e, count_eq hn hx]
    exact hw x (mem_stateVars.2 ⟨hx, hx2⟩)
  · rw [List.mem_singleton.1 hs]
    simp only [World.set, if_true]
    rw [hfu, count_eq hn hv]
    exact (hn.outcomes u hv).1

theorem total_between [Field α] [LinearOrder α] [IsStrictOrderedRing α] {n : Net α} (hn : n.Valid) (h : n.Nonneg)
    {pols : List (String × Factor α)} (hsub : ∀ p ∈ pols, p ∈ n.policies) {P : World → Prop} [DecidablePred P]
    {F : World → α} {lo hi : α} (hF : ∀ w, n.Allowed w → lo ≤ F w ∧ F w ≤ hi) :
    lo * n.mass pols P ≤ n.total pols (fun w => if P w then F w else 0) ∧
      n.total pols (fun w => if P w then F w else 0) ≤ hi * n.mass pols P := by
  unfold Net.mass Net.total
  rw [← sumWorlds_mul, ← sumWorlds_mul]
  constructor
  · refine sumWorlds_le _ _ (stateVars_names hn) (fun w hw _ => ?_)
    have hj := joint_nonneg_world h hsub w
    by_cases hP : P w
    · simp only [if_pos hP, mul_one]
      rw [mul_comm lo]; exact mul_le_mul_of_nonneg_left (hF w hw).1 hj
    · simp [hP]
  · refine sumWorlds_le _ _ (stateVars_names hn) (fun w hw _ => ?_)
    have hj := joint_nonneg_world h hsub w
    by_cases hP : P w
    · simp only [if_pos hP, mul_one]
      rw [mul_comm hi]; exact mul_le_mul_of_nonneg_left (hF w hw).2 hj
    · simp [hP]

/-- **C107, bounds.** The expected utility of a utility variable, given any evidence that is possible, lies between the
smallest and the largest entry of its table. -/
theorem C107_between [Field α] [LinearOrder α] [IsStrictOrderedRing α] (s1 s2 : NSched α) {n : Net α} (hn : n.Valid)
    (hp : n.PoliciesOK) (hnn : n.Nonneg) (hs : n.AllSolved) {evidence : List (String × String)}
    (hev : n.EvidenceOK evidence) (ign : Bool) {u : NVar} (hu : u ∈ n.utilityVars) {f : NFactor α} (hf : f ∈ n.factors)
    (hfu : f.forVar = u.name) {lo hi : α} (hb : ∀ x ∈ f.tab, lo ≤ x ∧ x ≤ hi)
    (possible : n.mass (n.active evidence ign) (n.Agrees evidence) ≠ 0) :
    ∃ y p : α, n.Worth s1 evidence u.name ign y ∧ n.Likely s2 evidence ign p ∧ 0 < p ∧ lo ≤ y / p ∧ y / p ≤ hi := by
  have hsub : ∀ p ∈ n.active evidence ign, p ∈ n.policies := active_sub
  have hpos : 0 < n.mass (n.active evidence ign) (n.Agrees evidence) :=
    lt_of_le_of_ne (mass_nonneg hnn hsub _) (Ne.symm possible)
  have hne : u.name ≠ "" := hn.named u (List.mem_filter.1 hu).1
  obtain ⟨b1, b2⟩ := total_between hn hnn hsub (P := n.Agrees evidence) (F := n.asked u.name) (lo := lo) (hi := hi)
    (fun w hw => by
      unfold Net.asked
      rw [if_neg hne]
      exact hb _ (utility_entry hn hf hu hfu hw))
  refine ⟨_, _, worth_total s1 hn hp hs hev (.inr ⟨u, hu, rfl⟩) ign, likely_mass s2 hn hp hs hev ign, hpos, ?_, ?_⟩
  · rwa [le_div_iff₀ hpos]
  · rwa [div_le_iff₀ hpos]

theorem Ex.umbSolved_nonneg : Ex.umbSolved.Nonneg := ⟨by decide, by decide⟩

theorem Ex.umbSolved_all : Ex.umbSolved.AllSolved := by
  intro v hv h
  simp only [umbSolved, umb, List.mem_cons, List.not_mem_nil, or_false] at hv
  rcases hv with rfl | rfl | rfl | rfl | rfl | rfl <;> first | rfl | (exact absurd h (by decide))

/-- The hypotheses of **C107** are met by the umbrella network with its policy: the forecast is bad, and the weather or
the decision is observed in addition. -/
example : ∃ y : ℚ, ∃ ys : Nat → ℚ, Ex.umbSolved.Worth Ex.back [("Forecast", "bad")] "" false y ∧
    (∀ (k : Nat) (hk : k < 2), Ex.umbSolved.Worth Ex.back [("Umbrella", ["no", "yes"][k]), ("Forecast", "bad")] "" false
      (ys k)) ∧ y = ∑ k ∈ range 2, ys k :=
  C107_total Ex.back (fun _ => Ex.back) Ex.umbSolved_valid Ex.umbSolved_policies Ex.umbSolved_all
    (evidence := [("Forecast", "bad")]) ⟨by decide, by decide⟩
    (x := ⟨"Umbrella", .decision, ["no", "yes"], (0, 0), "", some 2⟩) (by decide) false (.inr rfl) (by decide) (by decide)
    (.inl ⟨rfl, by decide⟩)

example : ∃ dX : List ℚ, ∃ y p : ℚ, ∃ ys ps : Nat → ℚ,
    Ex.umbSolved.Answers Ex.back [("Forecast", "bad")] "Weather" true dX ∧
    Ex.umbSolved.Worth Ex.back [("Forecast", "bad")] "Comfort" true y ∧
    Ex.umbSolved.Likely Ex.back [("Forecast", "bad")] true p ∧ p ≠ 0 ∧
    (∀ (k : Nat) (hk : k < 2),
      Ex.umbSolved.Worth Ex.back [("Weather", ["sun", "rain"][k]), ("Forecast", "bad")] "Comfort" true (ys k) ∧
      Ex.umbSolved.Likely Ex.back [("Weather", ["sun", "rain"][k]), ("Forecast", "bad")] true (ps k) ∧
      (ps k = 0 ↔ dX[k]? = some 0)) ∧
    y / p = ∑ k ∈ range 2, dX.getD k 0 * (ys k / ps k) :=
  C107_average Ex.back Ex.back Ex.back (fun _ => Ex.back) (fun _ => Ex.back) Ex.umbSolved_valid Ex.umbSolved_policies
    Ex.umbSolved_nonneg Ex.umbSolved_all (evidence := [("Forecast", "bad")]) ⟨by decide, by decide⟩
    (x := ⟨"Weather", .chance, ["sun", "rain"], (0, 0), "", some 0⟩) (by decide) rfl true (by decide) (by decide)
    (.inr (by decide)) (by decide +kernel)

example : ∃ y p : ℚ, Ex.umbSolved.Worth Ex.back [("Weather", "rain")] "Comfort" false y ∧
    Ex.umbSolved.Likely Ex.back [("Weather", "rain")] false p ∧ 0 < p ∧ 0 ≤ y / p ∧ y / p ≤ 100 :=
  C107_between Ex.back Ex.back Ex.umbSolved_valid Ex.umbSolved_policies Ex.umbSolved_nonneg Ex.umbSolved_all
    (evidence := [("Weather", "rain")]) ⟨by decide, by decide⟩ false
    (u := ⟨"Comfort", .utility, ["comfort"], (0, 0), "", some 3⟩) (by decide)
    (f := ⟨"Comfort", ["Weather", "Umbrella"], some [100, 20, 0, 70], [2, 2], 1⟩) (by decide) rfl (by decide)
    (by decide +kernel)

end Bbn
