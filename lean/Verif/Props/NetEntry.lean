import Verif.Props.NetKnown
import Verif.Props.NetBayes
import Verif.Props.NetShift
import Mathlib.Tactic.LinearCombination

/-!
# C158: how an answer depends on one entry of a table

One entry of a table is not well known. As it varies, every answer is a quotient of two straight lines: a few answers
determine all the others.
-/

set_option autoImplicit false

namespace Bbn

open Finset

variable {α : Type}

section
variable [Field α] [LinearOrder α] [IsStrictOrderedRing α]

omit [LinearOrder α] [IsStrictOrderedRing α] in
theorem set_cell (t : List α) {i : Nat} (hi : i < t.length) (x : α) (j : Nat) :
    (t.set i x).getD j 0 = if j = i then x else t.getD j 0 := by
  rw [List.getD_eq_getElem?_getD, List.getD_eq_getElem?_getD, List.getElem?_set]
  by_cases h : i = j
  · subst h; simp [hi]
  · rw [if_neg h, if_neg (Ne.symm h)]

theorem cell_iff {r c i k : Nat} (hk : k < c) : r * c + k = i ↔ r = i / c ∧ k = i % c := by
  constructor
  · rintro rfl
    rw [Nat.mul_comm, Nat.mul_add_div (by omega), Nat.div_eq_of_lt hk, Nat.mul_add_mod, Nat.mod_eq_of_lt hk]
    exact ⟨rfl, rfl⟩
  · rintro ⟨rfl, rfl⟩
    exact Nat.div_add_mod' i c

variable {n : Net α} {s : String} {t : List α} {i : Nat}

/-- The rest of the row of an entry. -/
def restOfRow (t : List α) (c i : Nat) : α := ∑ k ∈ range c, if k = i % c then 0 else t.getD (i / c * c + k) 0

omit [LinearOrder α] [IsStrictOrderedRing α] in
theorem row_set (hi : i < t.length) {c : Nat} (hc : 0 < c) (x : α) :
    ∑ k ∈ range c, (t.set i x).getD (i / c * c + k) 0 = x + restOfRow t c i := by
  unfold restOfRow
  have : x = ∑ k ∈ range c, if k = i % c then x else 0 := by
    rw [Finset.sum_ite_eq', if_pos (Finset.mem_range.2 (Nat.mod_lt _ hc))]
  conv_rhs => rw [this]
  rw [← Finset.sum_add_distrib]
  refine Finset.sum_congr rfl (fun k hk => ?_)
  rw [set_cell t hi]
  by_cases h : k = i % c
  · rw [if_pos ((cell_iff (Finset.mem_range.1 hk)).2 ⟨rfl, h⟩), if_pos h, if_pos h, add_zero]
  · rw [if_neg (fun e => h ((cell_iff (Finset.mem_range.1 hk)).1 e).2), if_neg h, if_neg h, zero_add]

theorem total_line (hn : n.Valid) {f : NFactor α} (hf : f ∈ n.chanceTables) (ht : f.table = some t) (hi : i < t.length)
    (pol : List (String × Factor α)) (F : World → α) : ∃ a b : α, ∀ x, x + restOfRow t (n.count f.forVar) i ≠ 0 →
      (n.withEntry f.forVar t i x).total pol F * (x + restOfRow t (n.count f.forVar) i) = a + b * x := by
  set s := f.forVar with hs
  set c := n.count s with hc
  set S := restOfRow t c i with hS
  set T : α → String → Option (List α) := fun x r => if r = s then some (t.set i x) else none with hT
  set base : World → Nat := fun w => rowMajor (f.given.map (fun r => (n.count r, w r))) with hbase
  set a : World → α := fun w => if base w = i / c then (if w s = i % c then 0 else t.getD (base w * c + w s) 0)
    else n.prob f w * S with ha
  set b : World → α := fun w => if base w = i / c then (if w s = i % c then 1 else 0) else n.prob f w with hb
  obtain ⟨v, hv, hvn, _⟩ := chanceTables_forVar hf
  have hfn : s ∉ f.given := by
    have := hn.dims f (mem_chanceTables.1 hf).1
    unfold NFactor.dims at this
    rw [List.nodup_append] at this
    exact fun h => this.2.2 _ h _ (by simp [hs]) rfl
  have hidx : ∀ w : World, rowMajor (f.dims.map (fun r => (n.count r, w r))) = base w * c + w s := by
    intro w
    unfold NFactor.dims
    rw [List.map_append, List.map_cons, List.map_nil, rowMajor_snoc]
  have hbset : ∀ (w : World) k, base (w.set s k) = base w := by
    intro w k
    simp only [hbase]
    congr 1
    apply List.map_congr_left
    intro r hr
    have : r ≠ s := fun e => hfn (e ▸ hr)
    rw [World.set_ne w this]
  have hprob : ∀ x, x + S ≠ 0 → ∀ w : World, w s < c →
      (n.withEntry s t i x).prob { f with table := some (t.set i x) } w * (x + S) = a w + b w * x := by
    intro x hx w hw
    have hent : ∀ w : World, (n.withEntry s t i x).entry { f with table := some (t.set i x) } w =
        (t.set i x).getD (base w * c + w s) 0 := by
      intro w
      show (t.set i x).getD (rowMajor (f.dims.map (fun r => (n.count r, w r)))) 0 = _
      rw [hidx]
    have hent0 : ∀ w : World, n.entry f w = t.getD (base w * c + w s) 0 := by
      intro w
      unfold Net.entry NFactor.tab
      rw [hidx, ht]
      rfl
    have hsum : (n.withEntry s t i x).rowSum { f with table := some (t.set i x) } w =
        ∑ k ∈ range c, (t.set i x).getD (base w * c + k) 0 := by
      show ∑ k ∈ range c, (n.withEntry s t i x).entry { f with table := some (t.set i x) } (w.set s k) = _
      refine Finset.sum_congr rfl (fun k _ => ?_)
      rw [hent, hbset]
      simp [World.set]
    by_cases hrow : base w = i / c
    · have h1 : (n.withEntry s t i x).rowSum { f with table := some (t.set i x) } w = x + S := by
        rw [hsum, hrow, row_set hi (by omega)]
      unfold Net.prob
      rw [h1, if_neg hx, div_mul_cancel₀ _ hx, hent, set_cell t hi]
      simp only [ha, hb, if_pos hrow]
      by_cases hcol : w s = i % c
      · rw [if_pos ((cell_iff hw).2 ⟨hrow, hcol⟩), if_pos hcol, if_pos hcol]; ring
      · rw [if_neg (fun e => hcol ((cell_iff hw).1 e).2), if_neg hcol, if_neg hcol]; ring
    · have h0 : ∀ k < c, (t.set i x).getD (base w * c + k) 0 = t.getD (base w * c + k) 0 := by
        intro k hk
        rw [set_cell t hi, if_neg (fun e => hrow ((cell_iff hk).1 e).1)]
      have h1 : (n.withEntry s t i x).rowSum { f with table := some (t.set i x) } w = n.rowSum f w := by
        rw [hsum]
        unfold Net.rowSum
        refine Finset.sum_congr rfl (fun k hk => ?_)
        rw [h0 k (Finset.mem_range.1 hk), hent0, ← hs, hbset]
        simp [World.set]
      have h2 : (n.withEntry s t i x).prob { f with table := some (t.set i x) } w = n.prob f w := by
        unfold Net.prob
        rw [h1, hent, hent0, h0 _ hw]
      simp only [ha, hb, if_neg hrow, h2]
      ring
  refine ⟨sumWorlds n.stateVars (fun w => a w * (n.probRest (T 0) w * (pol.map (fun p => p.2.val (n.ids w))).prod * F w))
      (fun _ => 0), sumWorlds n.stateVars (fun w => b w * (n.probRest (T 0) w *
      (pol.map (fun p => p.2.val (n.ids w))).prod * F w)) (fun _ => 0), fun x hx => ?_⟩
  have hrest : ∀ w, n.probRest (T x) w = n.probRest (T 0) w := by
    intro w
    unfold Net.probRest
    congr 2
    apply List.filter_congr
    intro g _
    simp only [hT]
    by_cases e : g.forVar = s <;> simp [e]
  unfold Net.total
  rw [mul_comm, mul_comm _ x, ← sumWorlds_mul, ← sumWorlds_mul, ← sumWorlds_add]
  show sumWorlds n.stateVars _ _ = _
  refine sumWorlds_congr _ _ (stateVars_names hn) (fun w hw _ => ?_)
  have hw' : w s < c := by
    rw [hc, hs, ← hvn, count_eq hn (mem_stateVars.1 hv).1]
    exact hw v hv
  have hof : (n.withEntry s t i x).probOf (T x) w = (n.withEntry s t i x).prob { f with table := some (t.set i x) } w := by
    unfold Net.probOf
    have h1 : (n.withEntry s t i x).chanceTables = n.chanceTables.map (fun f => { f with table := (T x f.forVar).or f.table }) :=
      replace_chance
    rw [h1, List.filter_map, List.map_map]
    have h2 : n.chanceTables.filter ((fun f : NFactor α => (T x f.forVar).isSome) ∘
        fun f => { f with table := (T x f.forVar).or f.table }) = [f] := by
      rw [← filter_single NFactor.forVar _ (chanceTables_nodup hn) f hf]
      apply List.filter_congr
      intro g _
      simp only [hT, Function.comp_apply]
      by_cases e : g.forVar = s <;> simp [e, ← hs]
    rw [h2]
    simp only [List.map_cons, List.map_nil, List.prod_cons, List.prod_nil, mul_one, Function.comp_apply]
    have : T x f.forVar = some (t.set i x) := by simp [hT, hs]
    rw [this]
    rfl
  unfold Net.joint
  rw [probOf_rest _ (T x), hof, show (n.withEntry s t i x).probRest (T x) w = n.probRest (T x) w from replace_rest w, hrest]
  show (x + S) * (_ * _ * (pol.map (fun p => p.2.val (n.ids w))).prod * F w) = _
  linear_combination (n.probRest (T 0) w * (pol.map (fun p => p.2.val (n.ids w))).prod * F w) * hprob x hx w hw'

theorem withEntry_valid (hn : n.Valid) {f : NFactor α} (hf : f ∈ n.chanceTables) (ht : f.table = some t) (i : Nat) (x : α) :
    (n.withEntry f.forVar t i x).Valid := by
  obtain ⟨hf1, hf2⟩ := mem_chanceTables.1 hf
  obtain ⟨v, hv, h1, h2⟩ := isKind_mem.1 hf2
  refine replace_valid hn (fun r hr => ?_) (fun g hg t' h => ?_)
  · by_cases e : r = f.forVar
    · rw [e]; exact hf2
    · simp [e] at hr
  · by_cases e : g.forVar = f.forVar
    · have : g = f := List.inj_on_of_nodup_map hn.tables hg hf1 e
      subst this
      rw [if_pos rfl, Option.some_inj] at h
      obtain ⟨t0, h3, h4⟩ := hn.size g hf1 (fun e => by
        have := total_utility hn hv (h1.trans e)
        rw [h2] at this; exact absurd this (by decide)) (by
        rw [Bool.eq_false_iff]
        intro hd
        rw [← h1, isKind_iff hn hv, h2] at hd
        exact absurd hd (by decide))
      rw [ht, Option.some_inj] at h3
      subst h3
      rw [← h, List.length_set, h4]
    · simp [e] at h

theorem withEntry_asked (hn : n.Valid) {f : NFactor α} (hf : f ∈ n.chanceTables) (i : Nat) (x : α) {u : String}
    (hu : u = "" ∨ ∃ v ∈ n.utilityVars, v.name = u) (w : World) :
    (n.withEntry f.forVar t i x).asked u w = n.asked u w := by
  have hT : ∀ r, ((fun r => if r = f.forVar then some (t.set i x) else none) r).isSome → n.isKind .chance r = true := by
    intro r hr
    by_cases e : r = f.forVar
    · rw [e]; exact (mem_chanceTables.1 hf).2
    · simp [e] at hr
  unfold Net.asked
  by_cases e : u = ""
  · rw [if_pos e, if_pos e]
    exact replace_total hn hT w
  · rw [if_neg e, if_neg e]
    obtain ⟨v, hv, rfl⟩ := hu.resolve_left e
    obtain ⟨hv1, hv2⟩ := List.mem_filter.1 hv
    simp only [decide_eq_true_eq] at hv2
    have hTu := replace_none hn hT ⟨v, hv1, rfl, by rw [hv2.1]; decide⟩
    unfold Net.utilityIn
    show (((n.factors.map _).filter _).map _).sum = _
    rw [List.filter_map, List.map_map]
    congr 1
    apply List.map_congr_left
    intro g hg
    have hg' : g.forVar = v.name := by simpa using (List.mem_filter.1 hg).2
    simp only [Function.comp_apply]
    rw [replace_keeps (T := fun r => if r = f.forVar then some (t.set i x) else none) (by rw [hg']; exact hTu)]
    rfl

/-- A straight line that is positive at two places is positive in between. -/
theorem line_between {A B x y z : α} (hxy : x ≤ y) (hyz : y ≤ z) : min (A * x + B) (A * z + B) ≤ A * y + B := by
  rcases le_total 0 A with h | h
  · exact (min_le_left _ _).trans (by nlinarith)
  · exact (min_le_right _ _).trans (by nlinarith)

end

section Main
variable [Field α] [LinearOrder α] [IsStrictOrderedRing α]

/-- **C158.** As the number `x` at one place of a table varies, while everything else stays the same, the probability of every
outcome is a quotient of two straight lines: there are numbers `a k`, `b k`, `c` and `d` that do not depend on `x`, such that the
probability of outcome `k` is `(a k * x + b k) / (c * x + d)`. This holds whenever the numbers in the row do not add up to zero
and the evidence is possible. The denominator is the same for all outcomes. -/
theorem C158_answer {n : Net α} (hn : n.Valid) (hp : n.PoliciesOK) {f : NFactor α} (hf : f ∈ n.chanceTables) {t : List α}
    (ht : f.table = some t) {i : Nat} (hi : i < t.length) {evidence : List (String × String)} (hev : n.EvidenceOK evidence)
    {v : NVar} (hv : v ∈ n.variables) (hc : v.nodeType = .chance) (hfree : v.name ∉ evidence.map Prod.fst) (ign : Bool) :
    ∃ (a b : Nat → α) (c d : α), ∀ x : α,
      ∑ k ∈ range (n.count f.forVar), (t.set i x).getD (i / n.count f.forVar * n.count f.forVar + k) 0 ≠ 0 →
      (n.withEntry f.forVar t i x).mass (n.active evidence ign) (n.Agrees evidence) ≠ 0 → ∀ sch : NSched α,
      ∃ p, (n.withEntry f.forVar t i x).Answers sch evidence v.name ign p ∧ p.length = v.outcomes.length ∧ c * x + d ≠ 0 ∧
        ∀ k < v.outcomes.length, p[k]? = some ((a k * x + b k) / (c * x + d)) := by
  have hpos : 0 < n.count f.forVar := by
    obtain ⟨u, hu, e, _⟩ := chanceTables_forVar hf
    rw [← e, count_eq hn (mem_stateVars.1 hu).1]
    exact (hn.outcomes u (mem_stateVars.1 hu).1).1
  choose b a hab using fun k => total_line hn hf ht hi (n.active evidence ign)
    (fun w => if n.Agrees evidence w ∧ w v.name = k then 1 else 0)
  obtain ⟨d, c, hcd⟩ := total_line hn hf ht hi (n.active evidence ign) (fun w => if n.Agrees evidence w then 1 else 0)
  refine ⟨a, b, c, d, fun x hx possible sch => ?_⟩
  rw [row_set hi hpos] at hx
  obtain ⟨p, h1, h2, h3⟩ := answers_mass sch (withEntry_valid hn hf ht i x) ⟨hp.keys, hp.wf, hp.decision, hp.vars⟩
    (evidence := evidence) ⟨hev.keys, hev.known⟩ (v := v) hv hc hfree ign possible
  have hD := hcd x hx
  refine ⟨p, h1, h2, ?_, fun k hk => ?_⟩
  · rw [add_comm, ← hD]
    exact mul_ne_zero possible hx
  · rw [h3 k hk, add_comm (a k * x), add_comm (c * x), ← hD, ← hab k x hx, mul_div_mul_right _ _ hx]
    rfl

/-- **C158, in between.** If a row has a positive sum and the evidence is possible, then an answer that is within limits for a smaller and a larger number at one
place of a table is within these limits for all numbers in between. -/
theorem C158_between {n : Net α} (hn : n.Valid) (hp : n.PoliciesOK) {f : NFactor α} (hf : f ∈ n.chanceTables) {t : List α}
    (ht : f.table = some t) {i : Nat} (hi : i < t.length) {evidence : List (String × String)} (hev : n.EvidenceOK evidence)
    {v : NVar} (hv : v ∈ n.variables) (hc : v.nodeType = .chance) (hfree : v.name ∉ evidence.map Prod.fst) (ign : Bool)
    {x y z : α} (hxy : x ≤ y) (hyz : y ≤ z)
    (hrow : ∀ r ∈ [x, z], 0 < ∑ k ∈ range (n.count f.forVar),
      (t.set i r).getD (i / n.count f.forVar * n.count f.forVar + k) 0)
    (possible : ∀ r ∈ [x, z], 0 < (n.withEntry f.forVar t i r).mass (n.active evidence ign) (n.Agrees evidence))
    (s1 s2 s3 : NSched α) :
    ∃ p q r, (n.withEntry f.forVar t i x).Answers s1 evidence v.name ign p ∧
      (n.withEntry f.forVar t i y).Answers s2 evidence v.name ign q ∧
      (n.withEntry f.forVar t i z).Answers s3 evidence v.name ign r ∧
      ∀ k < v.outcomes.length, ∃ px qx rx, p[k]? = some px ∧ q[k]? = some qx ∧ r[k]? = some rx ∧
        min px rx ≤ qx ∧ qx ≤ max px rx := by
  have hpos : 0 < n.count f.forVar := by
    obtain ⟨u, hu, e, _⟩ := chanceTables_forVar hf
    rw [← e, count_eq hn (mem_stateVars.1 hu).1]
    exact (hn.outcomes u (mem_stateVars.1 hu).1).1
  choose b a hab using fun k => total_line hn hf ht hi (n.active evidence ign)
    (fun w => if n.Agrees evidence w ∧ w v.name = k then 1 else 0)
  obtain ⟨d, c, hcd⟩ := total_line hn hf ht hi (n.active evidence ign) (fun w => if n.Agrees evidence w then 1 else 0)
  simp only [row_set hi hpos] at hrow
  have hx := hrow x (by simp)
  have hz := hrow z (by simp)
  have hy : 0 < y + restOfRow t (n.count f.forVar) i := by linarith
  have hD : ∀ r ∈ [x, z], 0 < c * r + d := by
    intro r hr
    rw [add_comm, ← hcd r (hrow r hr).ne']
    exact mul_pos (possible r hr) (hrow r hr)
  have hDx := hD x (by simp)
  have hDz := hD z (by simp)
  have hDy : 0 < c * y + d := lt_of_lt_of_le (lt_min hDx hDz) (line_between hxy hyz)
  have hposs : ∀ r, 0 < r + restOfRow t (n.count f.forVar) i → 0 < c * r + d →
      (n.withEntry f.forVar t i r).mass (n.active evidence ign) (n.Agrees evidence) ≠ 0 := by
    intro r h1 h2 h0
    have := hcd r h1.ne'
    unfold Net.mass at h0
    rw [h0, zero_mul, add_comm] at this
    exact h2.ne this
  have hans : ∀ (sch : NSched α) r, 0 < r + restOfRow t (n.count f.forVar) i → 0 < c * r + d →
      ∃ p, (n.withEntry f.forVar t i r).Answers sch evidence v.name ign p ∧
        ∀ k < v.outcomes.length, p[k]? = some ((a k * r + b k) / (c * r + d)) := by
    intro sch r h1 h2
    obtain ⟨p, k1, k2, k3⟩ := answers_mass sch (withEntry_valid hn hf ht i r) ⟨hp.keys, hp.wf, hp.decision, hp.vars⟩
      (evidence := evidence) ⟨hev.keys, hev.known⟩ (v := v) hv hc hfree ign (hposs r h1 h2)
    refine ⟨p, k1, fun k hk => ?_⟩
    rw [k3 k hk, add_comm (a k * r), add_comm (c * r), ← hcd r h1.ne', ← hab k r h1.ne', mul_div_mul_right _ _ h1.ne']
    rfl
  obtain ⟨p, p1, p2⟩ := hans s1 x hx hDx
  obtain ⟨q, q1, q2⟩ := hans s2 y hy hDy
  obtain ⟨r, r1, r2⟩ := hans s3 z hz hDz
  refine ⟨p, q, r, p1, q1, r1, fun k hk => ⟨_, _, _, p2 k hk, q2 k hk, r2 k hk, ?_, ?_⟩⟩
  · set m := min ((a k * x + b k) / (c * x + d)) ((a k * z + b k) / (c * z + d)) with hm
    rw [le_div_iff₀ hDy]
    have h1 : m * (c * x + d) ≤ a k * x + b k := (le_div_iff₀ hDx).1 (min_le_left _ _)
    have h2 : m * (c * z + d) ≤ a k * z + b k := (le_div_iff₀ hDz).1 (min_le_right _ _)
    have := line_between (A := a k - m * c) (B := b k - m * d) hxy hyz
    have h3 : 0 ≤ min ((a k - m * c) * x + (b k - m * d)) ((a k - m * c) * z + (b k - m * d)) :=
      le_min (by linarith) (by linarith)
    linarith
  · set m := max ((a k * x + b k) / (c * x + d)) ((a k * z + b k) / (c * z + d)) with hm
    rw [div_le_iff₀ hDy]
    have h1 : a k * x + b k ≤ m * (c * x + d) := (div_le_iff₀ hDx).1 (le_max_left _ _)
    have h2 : a k * z + b k ≤ m * (c * z + d) := (div_le_iff₀ hDz).1 (le_max_right _ _)
    have := line_between (A := m * c - a k) (B := m * d - b k) hxy hyz
    have h3 : 0 ≤ min ((m * c - a k) * x + (m * d - b k)) ((m * c - a k) * z + (m * d - b k)) :=
      le_min (by linarith) (by linarith)
    linarith

/-- **C158, for utilities.** The expected utility depends on a number in a table of probabilities in the same way. -/
theorem C158_utility {n : Net α} (hn : n.Valid) (hp : n.PoliciesOK) (hs : n.AllSolved) {f : NFactor α}
    (hf : f ∈ n.chanceTables) {t : List α} (ht : f.table = some t) {i : Nat} (hi : i < t.length)
    {evidence : List (String × String)} (hev : n.EvidenceOK evidence) (ign : Bool) {u : String}
    (hu : u = "" ∧ n.utilityVars ≠ [] ∨ ∃ v ∈ n.utilityVars, v.name = u) :
    ∃ a b c d : α, ∀ x : α,
      ∑ k ∈ range (n.count f.forVar), (t.set i x).getD (i / n.count f.forVar * n.count f.forVar + k) 0 ≠ 0 →
      (n.withEntry f.forVar t i x).mass (n.active evidence ign) (n.Agrees evidence) ≠ 0 → ∀ s1 s2 : NSched α,
      ∃ y p, (n.withEntry f.forVar t i x).Worth s1 evidence u ign y ∧ (n.withEntry f.forVar t i x).Likely s2 evidence ign p ∧
        p ≠ 0 ∧ c * x + d ≠ 0 ∧ y / p = (a * x + b) / (c * x + d) := by
  have hpos : 0 < n.count f.forVar := by
    obtain ⟨u, hu, e, _⟩ := chanceTables_forVar hf
    rw [← e, count_eq hn (mem_stateVars.1 hu).1]
    exact (hn.outcomes u (mem_stateVars.1 hu).1).1
  obtain ⟨b, a, hab⟩ := total_line hn hf ht hi (n.active evidence ign) (fun w => if n.Agrees evidence w then n.asked u w else 0)
  obtain ⟨d, c, hcd⟩ := total_line hn hf ht hi (n.active evidence ign) (fun w => if n.Agrees evidence w then 1 else 0)
  refine ⟨a, b, c, d, fun x hx possible s1 s2 => ?_⟩
  rw [row_set hi hpos] at hx
  have hm := withEntry_valid hn hf ht i x
  have hp' : (n.withEntry f.forVar t i x).PoliciesOK := ⟨hp.keys, hp.wf, hp.decision, hp.vars⟩
  have hev' : (n.withEntry f.forVar t i x).EvidenceOK evidence := ⟨hev.keys, hev.known⟩
  refine ⟨_, _, worth_total s1 hm hp' hs hev' hu ign, likely_mass s2 hm hp' hs hev' ign, possible, ?_, ?_⟩
  · rw [add_comm, ← hcd x hx]
    exact mul_ne_zero possible hx
  · rw [add_comm (a * x), add_comm (c * x), ← hcd x hx, ← hab x hx, mul_div_mul_right _ _ hx]
    simp only [withEntry_asked hn hf i x (hu.imp And.left id)]
    rfl

end Main

open Ex in
/-- The hypotheses of `C158_answer` are met: how often the forecast is bad in sunny weather (2 of 10 in the table) may be
varied, here to 8 of 16 and to 0, and given a bad forecast the answers for the weather are on one curve. -/
example : ∃ (a b : Nat → ℚ) (c d : ℚ), ∀ x ∈ [(2 : ℚ), 8, 0], ∃ p, (umbSolved.withEntry "Forecast" [8, 2, 1, 9] 1 x).Answers
    Ex.back [("Forecast", "bad")] "Weather" false p ∧ p.length = 2 ∧ c * x + d ≠ 0 ∧
      ∀ k < 2, p[k]? = some ((a k * x + b k) / (c * x + d)) := by
  obtain ⟨a, b, c, d, h⟩ := C158_answer umbSolved_valid umbSolved_policies
    (f := ⟨"Forecast", ["Weather"], some [8, 2, 1, 9], [2], 2⟩) (by decide) (t := [8, 2, 1, 9]) rfl (i := 1) (by decide)
    (evidence := [("Forecast", "bad")]) ⟨by decide, by decide⟩
    (v := ⟨"Weather", .chance, ["sun", "rain"], (0, 0), "", some 0⟩) (by decide) rfl (by decide) false
  have h1 : ∀ x ∈ [(2 : ℚ), 8, 0], ∑ k ∈ range 2, ([8, 2, 1, 9].set 1 x).getD (1 / 2 * 2 + k) 0 ≠ 0 := by decide +kernel
  have h2 : ∀ x ∈ [(2 : ℚ), 8, 0], (umbSolved.withEntry "Forecast" [8, 2, 1, 9] 1 x).mass
    (umbSolved.active [("Forecast", "bad")] false) (umbSolved.Agrees [("Forecast", "bad")]) ≠ 0 := by decide +kernel
  exact ⟨a, b, c, d, fun x hx => h x (h1 x hx) (h2 x hx) Ex.back⟩

open Ex in
/-- The hypotheses of `C158_between` are met. -/
example : ∃ p q r, (umbSolved.withEntry "Forecast" [8, 2, 1, 9] 1 0).Answers Ex.back [("Forecast", "bad")] "Weather" false p ∧
    (umbSolved.withEntry "Forecast" [8, 2, 1, 9] 1 2).Answers Ex.back [("Forecast", "bad")] "Weather" false q ∧
    (umbSolved.withEntry "Forecast" [8, 2, 1, 9] 1 8).Answers Ex.back [("Forecast", "bad")] "Weather" false r ∧
    ∀ k < 2, ∃ px qx rx, p[k]? = some px ∧ q[k]? = some qx ∧ r[k]? = some rx ∧ min px rx ≤ qx ∧ qx ≤ max px rx :=
  C158_between umbSolved_valid umbSolved_policies
    (f := ⟨"Forecast", ["Weather"], some [8, 2, 1, 9], [2], 2⟩) (by decide) (t := [8, 2, 1, 9]) rfl (i := 1) (by decide)
    (evidence := [("Forecast", "bad")]) ⟨by decide, by decide⟩
    (v := ⟨"Weather", .chance, ["sun", "rain"], (0, 0), "", some 0⟩) (by decide) rfl (by decide) false (by norm_num)
    (by norm_num) (by decide +kernel) (by decide +kernel) Ex.back Ex.back Ex.back

open Ex in
/-- The hypotheses of `C158_utility` are met. -/
example : ∃ a b c d : ℚ, ∀ x ∈ [(2 : ℚ), 8, 0], ∃ y p,
    (umbSolved.withEntry "Forecast" [8, 2, 1, 9] 1 x).Worth Ex.back [("Forecast", "bad")] "" false y ∧
    (umbSolved.withEntry "Forecast" [8, 2, 1, 9] 1 x).Likely Ex.back [("Forecast", "bad")] false p ∧
      p ≠ 0 ∧ c * x + d ≠ 0 ∧ y / p = (a * x + b) / (c * x + d) := by
  obtain ⟨a, b, c, d, h⟩ := C158_utility umbSolved_valid umbSolved_policies umbSolved_all
    (f := ⟨"Forecast", ["Weather"], some [8, 2, 1, 9], [2], 2⟩) (by decide) (t := [8, 2, 1, 9]) rfl (i := 1) (by decide)
    (evidence := [("Forecast", "bad")]) ⟨by decide, by decide⟩ false (u := "") (.inl ⟨rfl, by decide⟩)
  have h1 : ∀ x ∈ [(2 : ℚ), 8, 0], ∑ k ∈ range 2, ([8, 2, 1, 9].set 1 x).getD (1 / 2 * 2 + k) 0 ≠ 0 := by decide +kernel
  have h2 : ∀ x ∈ [(2 : ℚ), 8, 0], (umbSolved.withEntry "Forecast" [8, 2, 1, 9] 1 x).mass
    (umbSolved.active [("Forecast", "bad")] false) (umbSolved.Agrees [("Forecast", "bad")]) ≠ 0 := by decide +kernel
  exact ⟨a, b, c, d, fun x hx => h x (h1 x hx) (h2 x hx) Ex.back Ex.back⟩

end Bbn
