import Verif.Spec.Mix
import Verif.Props.NetSensitive
import Mathlib.Tactic.LinearCombination

/-!
# C137: between two tables, answers are in between

Two experts disagree about the table of a variable. A table between theirs gives answers between theirs: mixtures of
the two answers, in which each expert's weight is multiplied by the probability that they gave to the evidence. When
two tables are mixed at once, the answers may be anywhere.
-/

set_option autoImplicit false

namespace Bbn

open Finset

variable {α : Type}

section Mix

variable [Field α] [DecidableEq α]

omit [DecidableEq α] in
/-- If one factor of a product is a mixture, then the product is one. -/
theorem prod_mix (K K₀ K₁ : NVar → α) (s : String) (t : α) : ∀ l : List NVar, (l.map NVar.name).Nodup →
    (∀ v ∈ l, (v.name = s → K v = (1 - t) * K₀ v + t * K₁ v) ∧ (v.name ≠ s → K v = K₀ v ∧ K v = K₁ v)) →
    (l.map K).prod = (1 - t) * (l.map K₀).prod + t * (l.map K₁).prod ∧
      (s ∉ l.map NVar.name → (l.map K).prod = (l.map K₀).prod ∧ (l.map K).prod = (l.map K₁).prod) := by
  intro l
  induction l with
  | nil => intro _ _; simp
  | cons v l ih =>
    intro hnd h
    rw [List.map_cons, List.nodup_cons] at hnd
    obtain ⟨ih1, ih2⟩ := ih hnd.2 (fun u hu => h u (List.mem_cons_of_mem _ hu))
    obtain ⟨h1, h2⟩ := h v List.mem_cons_self
    simp only [List.map_cons, List.prod_cons]
    by_cases e : v.name = s
    · obtain ⟨g0, g1⟩ := ih2 (e ▸ hnd.1)
      refine ⟨?_, fun hs => absurd (by simp [e]) hs⟩
      rw [h1 e, ← g0, ← g1]
      ring
    · obtain ⟨g0, g1⟩ := h2 e
      refine ⟨?_, fun hs => ?_⟩
      · rw [ih1, ← g0, ← g1]; ring
      · obtain ⟨k0, k1⟩ := ih2 (fun h => hs (List.mem_cons_of_mem _ h))
        exact ⟨by rw [k0, ← g0], by rw [k1, ← g1]⟩

variable {n n₀ n₁ : Net α} {s : String} {t : α}

theorem mix_joint (hn : n.Valid) (hn₀ : n₀.Valid) (hn₁ : n₁.Valid) (hm : n.Mixes n₀ n₁ [s] t) {w : World}
    (hw : n.Allowed w) : n.joint [] w = (1 - t) * n₀.joint [] w + t * n₁.joint [] w := by
  have hs₀ : n₀.stateVars = n.stateVars := by unfold Net.stateVars; rw [hm.vars₀]
  have hs₁ : n₁.stateVars = n.stateVars := by unfold Net.stateVars; rw [hm.vars₁]
  have hk₀ : ∀ t s, n₀.isKind t s = n.isKind t s := fun t s => by unfold Net.isKind; rw [hm.vars₀]
  have hk₁ : ∀ t s, n₁.isKind t s = n.isKind t s := fun t s => by unfold Net.isKind; rw [hm.vars₁]
  rw [joint_kernel hn, joint_kernel hn₀, joint_kernel hn₁, hs₀, hs₁]
  refine (prod_mix _ _ _ s t n.stateVars (stateVars_names hn) ?_).1
  intro v hv
  have hv0 := (mem_stateVars.1 hv).1
  by_cases hc : v.nodeType = .chance
  · obtain ⟨f, hf, ef⟩ := hn.hasTable v hv0 (by rw [hc]; decide)
    have hf0 : f ∈ n.chanceTables := mem_chanceTables.2 ⟨hf, by rw [ef, isKind_iff hn hv0, hc]⟩
    obtain ⟨f₀, h0, f₁, h1, e0, e1, _, _, h⟩ := hm.tables f hf0
    rw [kernel_table hn hf0 ef.symm, kernel_table hn₀ h0 (by rw [e0, ef]), kernel_table hn₁ h1 (by rw [e1, ef])]
    have := h w hw
    simpa [ef] using this
  · rw [kernel_none (n := n) (by rw [Bool.eq_false_iff, ne_eq, isKind_iff hn hv0]; exact hc),
      kernel_none (n := n₀) (by rw [hk₀, Bool.eq_false_iff, ne_eq, isKind_iff hn hv0]; exact hc),
      kernel_none (n := n₁) (by rw [hk₁, Bool.eq_false_iff, ne_eq, isKind_iff hn hv0]; exact hc)]
    exact ⟨fun _ => by ring, fun _ => ⟨rfl, rfl⟩⟩

theorem mix_total (hn : n.Valid) (hn₀ : n₀.Valid) (hn₁ : n₁.Valid) (hm : n.Mixes n₀ n₁ [s] t) (F : World → α) :
    n.total [] F = (1 - t) * n₀.total [] F + t * n₁.total [] F := by
  have hs₀ : n₀.stateVars = n.stateVars := by unfold Net.stateVars; rw [hm.vars₀]
  have hs₁ : n₁.stateVars = n.stateVars := by unfold Net.stateVars; rw [hm.vars₁]
  unfold Net.total
  rw [hs₀, hs₁, ← sumWorlds_mul, ← sumWorlds_mul, ← sumWorlds_add]
  refine sumWorlds_congr _ _ (stateVars_names hn) (fun w hw _ => ?_)
  rw [mix_joint hn hn₀ hn₁ hm hw]
  ring

end Mix

section Main

variable [Field α] [LinearOrder α] [IsStrictOrderedRing α]

/-- **C137, the part that holds.** If the probabilities of one variable are a mixture, then every answer is a mixture of
the answers of the two networks, with the weights multiplied by the probabilities of the evidence. (Missing: mixtures of
several tables at once; there it is false.) -/
theorem C137_one_table_partial (sch sch₀ sch₁ : NSched α) {n n₀ n₁ : Net α} {s : String} {t : α} (hn : n.Valid)
    (hn₀ : n₀.Valid) (hn₁ : n₁.Valid) (hpol : n.policies = []) (hpol₀ : n₀.policies = []) (hpol₁ : n₁.policies = [])
    (hnn₀ : n₀.Nonneg) (hnn₁ : n₁.Nonneg) (hm : n.Mixes n₀ n₁ [s] t) (ht : 0 ≤ t) (ht' : t ≤ 1)
    {evidence : List (String × String)} (hev : n.EvidenceOK evidence) {query : List String}
    (hq : ∀ q ∈ query, n.isKind .chance q = true ∧ q ∉ evidence.map Prod.fst) (ign ign₀ ign₁ : Bool)
    (possible₀ : n₀.mass [] (n₀.Agrees evidence) ≠ 0) (possible₁ : n₁.mass [] (n₁.Agrees evidence) ≠ 0) :
    ∃ r f m r₀ f₀ m₀ r₁ f₁ m₁, n.solveQuery sch evidence query ign = (.ok (r, f), m) ∧
      n₀.solveQuery sch₀ evidence query ign₀ = (.ok (r₀, f₀), m₀) ∧
      n₁.solveQuery sch₁ evidence query ign₁ = (.ok (r₁, f₁), m₁) ∧
      ∃ a b : α, 0 ≤ a ∧ 0 ≤ b ∧ a + b = 1 ∧
        a * (t * n₁.mass [] (n₁.Agrees evidence)) = b * ((1 - t) * n₀.mass [] (n₀.Agrees evidence)) ∧
        ∀ q ∈ query, ∃ d d₀ d₁ : List α, (q, d) ∈ r ∧ (q, d₀) ∈ r₀ ∧ (q, d₁) ∈ r₁ ∧ d.length = n.count q ∧
          ∀ k < n.count q, ∃ x x₀ x₁, d[k]? = some x ∧ d₀[k]? = some x₀ ∧ d₁[k]? = some x₁ ∧
            x = a * x₀ + b * x₁ ∧ min x₀ x₁ ≤ x ∧ x ≤ max x₀ x₁ := by
  have hag₀ : ∀ w, n₀.Agrees evidence w ↔ n.Agrees evidence w := fun w => by unfold Net.Agrees; rw [hm.vars₀]
  have hag₁ : ∀ w, n₁.Agrees evidence w ↔ n.Agrees evidence w := fun w => by unfold Net.Agrees; rw [hm.vars₁]
  have hev₀ : n₀.EvidenceOK evidence := ⟨hev.keys, by rw [hm.vars₀]; exact hev.known⟩
  have hev₁ : n₁.EvidenceOK evidence := ⟨hev.keys, by rw [hm.vars₁]; exact hev.known⟩
  have hok : ∀ {m : Net α}, m.Valid → ∀ i, (∀ q ∈ query, ∃ v ∈ m.variables, v.name = q ∧ v.nodeType = .chance) →
      m.QueryOK evidence i query := by
    intro m hm i h
    refine ⟨fun q hq' => ?_, fun q hq' e he e' => (hq q hq').2 (e' ▸ List.mem_map_of_mem he), fun q hq' => ?_⟩
    · obtain ⟨v, hv, e1, e2⟩ := h q hq'
      exact ⟨v, mem_stateVars.2 ⟨hv, by rw [e2]; decide⟩, e1⟩
    · obtain ⟨v, hv, e1, e2⟩ := h q hq'
      rw [← e1]; exact chance_occurs hm _ hv e2
  have hact : n.active evidence ign = [] := by simp [Net.active, hpol]
  have hact₀ : n₀.active evidence ign₀ = [] := by simp [Net.active, hpol₀]
  have hact₁ : n₁.active evidence ign₁ = [] := by simp [Net.active, hpol₁]
  have hk : ∀ q ∈ query, ∃ v ∈ n.variables, v.name = q ∧ v.nodeType = .chance := fun q h => isKind_mem.1 (hq q h).1
  have hpos₀ : 0 < n₀.mass [] (n₀.Agrees evidence) :=
    lt_of_le_of_ne (mass_nonneg hnn₀ (by simp) _) (Ne.symm possible₀)
  have hpos₁ : 0 < n₁.mass [] (n₁.Agrees evidence) :=
    lt_of_le_of_ne (mass_nonneg hnn₁ (by simp) _) (Ne.symm possible₁)
  have hD : n.mass [] (n.Agrees evidence) =
      (1 - t) * n₀.mass [] (n₀.Agrees evidence) + t * n₁.mass [] (n₁.Agrees evidence) := by
    rw [mass_congr n₀ [] hag₀, mass_congr n₁ [] hag₁]
    exact mix_total hn hn₀ hn₁ hm _
  have hDpos : 0 < n.mass [] (n.Agrees evidence) := by
    rw [hD]
    rcases ht.lt_or_eq with h | h
    · have h1 := mul_pos h hpos₁
      have h2 := mul_nonneg (sub_nonneg.2 ht') hpos₀.le
      linarith
    · rw [← h]; simpa using hpos₀
  obtain ⟨r, f, m, a1, _, _, a4⟩ := C31_solveQuery_posterior sch hn (by constructor <;> simp [hpol]) hev ign
    (hok hn _ hk) (by rw [hact]; exact hDpos.ne')
  obtain ⟨r₀, f₀, m₀, b1, _, _, b4⟩ := C31_solveQuery_posterior sch₀ hn₀ (by constructor <;> simp [hpol₀]) hev₀ ign₀
    (hok hn₀ _ (by rw [hm.vars₀]; exact hk)) (by rw [hact₀]; exact possible₀)
  obtain ⟨r₁, f₁, m₁, c1, _, _, c4⟩ := C31_solveQuery_posterior sch₁ hn₁ (by constructor <;> simp [hpol₁]) hev₁ ign₁
    (hok hn₁ _ (by rw [hm.vars₁]; exact hk)) (by rw [hact₁]; exact possible₁)
  have hc₀ : ∀ q, n₀.count q = n.count q := fun q => by unfold Net.count; rw [hm.vars₀]
  have hc₁ : ∀ q, n₁.count q = n.count q := fun q => by unfold Net.count; rw [hm.vars₁]
  set D := n.mass [] (n.Agrees evidence) with hDdef
  set D₀ := n₀.mass [] (n₀.Agrees evidence) with hD₀
  set D₁ := n₁.mass [] (n₁.Agrees evidence) with hD₁
  have ha0 : 0 ≤ (1 - t) * D₀ / D := div_nonneg (mul_nonneg (sub_nonneg.2 ht') hpos₀.le) hDpos.le
  have hb0 : 0 ≤ t * D₁ / D := div_nonneg (mul_nonneg ht hpos₁.le) hDpos.le
  have hab : (1 - t) * D₀ / D + t * D₁ / D = 1 := by rw [← add_div, ← hD, div_self hDpos.ne']
  refine ⟨r, f, m, r₀, f₀, m₀, r₁, f₁, m₁, a1, b1, c1, (1 - t) * D₀ / D, t * D₁ / D, ha0, hb0, hab, by ring, ?_⟩
  intro q hqm
  obtain ⟨d, u1, u2, u3⟩ := a4 q hqm
  obtain ⟨d₀, v1, _, v3⟩ := b4 q hqm
  obtain ⟨d₁, w1, _, w3⟩ := c4 q hqm
  rw [hc₀] at v3
  rw [hc₁] at w3
  refine ⟨d, d₀, d₁, u1, v1, w1, u2, fun k hkc => ⟨_, _, _, u3 k hkc, v3 k hkc, w3 k hkc, ?_⟩⟩
  rw [hact, hact₀, hact₁, ← hDdef, ← hD₀, ← hD₁]
  have hN : n.mass [] (fun w => n.Agrees evidence w ∧ w q = k) =
      (1 - t) * n₀.mass [] (fun w => n₀.Agrees evidence w ∧ w q = k) +
        t * n₁.mass [] (fun w => n₁.Agrees evidence w ∧ w q = k) := by
    rw [mass_congr n₀ [] (fun w => and_congr_left (fun _ => hag₀ w)),
      mass_congr n₁ [] (fun w => and_congr_left (fun _ => hag₁ w))]
    exact mix_total hn hn₀ hn₁ hm _
  rw [hN]
  set N₀ := n₀.mass [] (fun w => n₀.Agrees evidence w ∧ w q = k)
  set N₁ := n₁.mass [] (fun w => n₁.Agrees evidence w ∧ w q = k)
  have hx : ((1 - t) * N₀ + t * N₁) / D = (1 - t) * D₀ / D * (N₀ / D₀) + t * D₁ / D * (N₁ / D₁) := by
    field_simp
  refine ⟨hx, ?_, ?_⟩
  · rw [hx]
    have h0 := mul_le_mul_of_nonneg_left (min_le_left (N₀ / D₀) (N₁ / D₁)) ha0
    have h1 := mul_le_mul_of_nonneg_left (min_le_right (N₀ / D₀) (N₁ / D₁)) hb0
    calc min (N₀ / D₀) (N₁ / D₁) = ((1 - t) * D₀ / D + t * D₁ / D) * min (N₀ / D₀) (N₁ / D₁) := by rw [hab, one_mul]
      _ ≤ _ := by rw [add_mul]; exact add_le_add h0 h1
  · rw [hx]
    have h0 := mul_le_mul_of_nonneg_left (le_max_left (N₀ / D₀) (N₁ / D₁)) ha0
    have h1 := mul_le_mul_of_nonneg_left (le_max_right (N₀ / D₀) (N₁ / D₁)) hb0
    calc _ ≤ ((1 - t) * D₀ / D + t * D₁ / D) * max (N₀ / D₀) (N₁ / D₁) := by rw [add_mul]; exact add_le_add h0 h1
      _ = _ := by rw [hab, one_mul]

/-- **C137, without evidence.** The weights are then those of the mixture: answers move along a straight line from
those of the one network to those of the other. -/
theorem C137_no_evidence_partial (sch sch₀ sch₁ : NSched α) {n n₀ n₁ : Net α} {s : String} {t : α} (hn : n.Valid)
    (hn₀ : n₀.Valid) (hn₁ : n₁.Valid) (hpol : n.policies = []) (hpol₀ : n₀.policies = []) (hpol₁ : n₁.policies = [])
    (hnn₀ : n₀.Nonneg) (hnn₁ : n₁.Nonneg) (ha₀ : n₀.Acyclic) (ha₁ : n₁.Acyclic) (hr₀ : n₀.Regular) (hr₁ : n₁.Regular)
    (hm : n.Mixes n₀ n₁ [s] t) (ht : 0 ≤ t) (ht' : t ≤ 1) {query : List String}
    (hq : ∀ q ∈ query, n.isKind .chance q = true) (ign ign₀ ign₁ : Bool) :
    ∃ r f m r₀ f₀ m₀ r₁ f₁ m₁, n.solveQuery sch [] query ign = (.ok (r, f), m) ∧
      n₀.solveQuery sch₀ [] query ign₀ = (.ok (r₀, f₀), m₀) ∧
      n₁.solveQuery sch₁ [] query ign₁ = (.ok (r₁, f₁), m₁) ∧
      ∀ q ∈ query, ∃ d d₀ d₁ : List α, (q, d) ∈ r ∧ (q, d₀) ∈ r₀ ∧ (q, d₁) ∈ r₁ ∧ d.length = n.count q ∧
        ∀ k < n.count q, ∃ x x₀ x₁, d[k]? = some x ∧ d₀[k]? = some x₀ ∧ d₁[k]? = some x₁ ∧
          x = (1 - t) * x₀ + t * x₁ := by
  have hs₀ : n₀.stateVars = n.stateVars := by unfold Net.stateVars; rw [hm.vars₀]
  have hs₁ : n₁.stateVars = n.stateVars := by unfold Net.stateVars; rw [hm.vars₁]
  have htot : ∀ m : Net α, m.mass [] (m.Agrees []) = m.total [] (fun _ => 1) := by
    intro m
    have hag : ∀ w, m.Agrees [] w := fun w e he => by simp at he
    unfold Net.mass
    simp [hag]
  have e₀ : n₀.mass [] (n₀.Agrees []) = (n.stateVars.map openCount).prod := by
    rw [htot, total_const ha₀ hn₀ hr₀, hs₀, mul_one]
  have e₁ : n₁.mass [] (n₁.Agrees []) = (n.stateVars.map openCount).prod := by
    rw [htot, total_const ha₁ hn₁ hr₁, hs₁, mul_one]
  have hne : (n.stateVars.map (openCount (α := α))).prod ≠ 0 := by
    refine List.prod_ne_zero (fun h => ?_)
    obtain ⟨v, hv, e⟩ := List.mem_map.1 h
    unfold openCount at e
    split at e
    · exact one_ne_zero e
    · have h1 := hn.outcomes v (mem_stateVars.1 hv).1
      have : v.outcomes.length = 0 := by exact_mod_cast e
      omega
  obtain ⟨r, f, m, r₀, f₀, m₀, r₁, f₁, m₁, a1, a2, a3, a, b, ha, hb, hab, hw, h⟩ :=
    C137_one_table_partial sch sch₀ sch₁ hn hn₀ hn₁ hpol hpol₀ hpol₁ hnn₀ hnn₁ hm ht ht' (evidence := [])
      ⟨by simp, by simp⟩ (fun q h => ⟨hq q h, by simp⟩) ign ign₀ ign₁ (by rw [e₀]; exact hne) (by rw [e₁]; exact hne)
  rw [e₀, e₁] at hw
  have hw' : a * t = b * (1 - t) := by
    apply mul_right_cancel₀ hne
    linear_combination hw
  have ea : a = 1 - t := by linear_combination hw' + (1 - t) * hab
  have eb : b = t := by linear_combination hab - ea
  refine ⟨r, f, m, r₀, f₀, m₀, r₁, f₁, m₁, a1, a2, a3, fun q hq => ?_⟩
  obtain ⟨d, d₀, d₁, u1, u2, u3, u4, u5⟩ := h q hq
  refine ⟨d, d₀, d₁, u1, u2, u3, u4, fun k hk => ?_⟩
  obtain ⟨x, x₀, x₁, v1, v2, v3, v4, _⟩ := u5 k hk
  exact ⟨x, x₀, x₁, v1, v2, v3, by rw [v4, ea, eb]⟩

end Main

namespace Ex

/-- The network with rain and a sprinkler, with rain more often. -/
def dryWet : Net ℚ :=
  { Ex.dry with factors := [⟨"Sprinkler", ["Rain"], some [1, 99, 4, 6], [2], 2⟩, ⟨"Rain", [], some [3, 2], [], 2⟩] }

/-- In between: a quarter of the second opinion. -/
def dryMix : Net ℚ :=
  { Ex.dry with factors := [⟨"Sprinkler", ["Rain"], some [1, 99, 4, 6], [2], 2⟩, ⟨"Rain", [], some [3, 7], [], 2⟩] }

theorem dryWet_valid : dryWet.Valid where
  names := by decide
  named := by decide
  few := by decide
  outcomes := by decide
  tables := by decide
  hasTable := by decide
  known := by decide
  dims := by decide
  parents := by decide
  size := by
    intro f hf _ _
    simp only [dryWet, List.mem_cons, List.not_mem_nil, or_false] at hf
    rcases hf with rfl | rfl <;> exact ⟨_, rfl, by decide⟩
  single := by decide
  weights := by intro i h; simp [dryWet, dry] at h

theorem dryMix_valid : dryMix.Valid where
  names := by decide
  named := by decide
  few := by decide
  outcomes := by decide
  tables := by decide
  hasTable := by decide
  known := by decide
  dims := by decide
  parents := by decide
  size := by
    intro f hf _ _
    simp only [dryMix, List.mem_cons, List.not_mem_nil, or_false] at hf
    rcases hf with rfl | rfl <;> exact ⟨_, rfl, by decide⟩
  single := by decide
  weights := by intro i h; simp [dryMix, dry] at h

/-- A world made of three numbers. -/
def three (x y z : String) (a b c : Nat) : World := fun s => if s = x then a else if s = y then b else if s = z then c else 0

theorem prob_three (n : Net ℚ) (f : NFactor ℚ) {x y z : String} (h : ∀ s ∈ f.dims, s = x ∨ s = y ∨ s = z) (w : World) :
    n.prob f w = n.prob f (three x y z (w x) (w y) (w z)) := by
  refine prob_congr n f (fun s hs => ?_)
  unfold three
  split
  · next e => rw [e]
  · split
    · next e => rw [e]
    · split
      · next e => rw [e]
      · rcases h s hs with e | e | e <;> contradiction

/-- Whether three networks are mixtures can be seen from the worlds made of three numbers. -/
theorem mixes_three {n n₀ n₁ : Net ℚ} {S : List String} {t : ℚ} (x y z : String) (h₀ : n₀.variables = n.variables)
    (h₁ : n₁.variables = n.variables) (hb : ∀ w, n.Allowed w → w x < 2 ∧ w y < 2 ∧ w z < 2)
    (hd : ∀ m ∈ [n, n₀, n₁], ∀ f ∈ m.chanceTables, ∀ s ∈ f.dims, s = x ∨ s = y ∨ s = z)
    (h : ∀ f ∈ n.chanceTables, ∃ f₀ ∈ n₀.chanceTables, ∃ f₁ ∈ n₁.chanceTables,
      f₀.forVar = f.forVar ∧ f₁.forVar = f.forVar ∧ f₀.given = f.given ∧ f₁.given = f.given ∧
        ∀ a < 2, ∀ b < 2, ∀ c < 2, (f.forVar ∈ S → n.prob f (three x y z a b c) =
            (1 - t) * n₀.prob f₀ (three x y z a b c) + t * n₁.prob f₁ (three x y z a b c)) ∧
          (f.forVar ∉ S → n.prob f (three x y z a b c) = n₀.prob f₀ (three x y z a b c) ∧
            n.prob f (three x y z a b c) = n₁.prob f₁ (three x y z a b c))) : n.Mixes n₀ n₁ S t := by
  refine ⟨h₀, h₁, fun f hf => ?_⟩
  obtain ⟨f₀, g0, f₁, g1, e1, e2, e3, e4, k⟩ := h f hf
  refine ⟨f₀, g0, f₁, g1, e1, e2, e3, e4, fun w hw => ?_⟩
  obtain ⟨ha, hb', hc⟩ := hb w hw
  rw [prob_three n f (hd n (by simp) f hf) w, prob_three n₀ f₀ (hd n₀ (by simp) f₀ g0) w,
    prob_three n₁ f₁ (hd n₁ (by simp) f₁ g1) w]
  exact k _ ha _ hb' _ hc

theorem dry_mixes : dryMix.Mixes dry dryWet ["Rain"] (1 / 4) := by
  refine mixes_three "Rain" "Sprinkler" "Sprinkler" rfl rfl (fun w hw => ?_) ?_ ?_
  · have h1 : w "Rain" < 2 := hw ⟨"Rain", .chance, ["yes", "no"], (0, 0), "", some 1⟩ (by decide)
    have h2 : w "Sprinkler" < 2 := hw ⟨"Sprinkler", .chance, ["on", "off"], (0, 0), "", some 0⟩ (by decide)
    exact ⟨h1, h2, h2⟩
  · intro m hm
    simp only [List.mem_cons, List.not_mem_nil, or_false] at hm
    rcases hm with rfl | rfl | rfl <;> decide
  · set_option synthInstance.maxHeartbeats 200000 in set_option synthInstance.maxSize 4096 in decide +kernel

/-- Two causes, and whether exactly one of them is there. Tables of the causes: `p` and `q`. -/
def parity (p q : List ℚ) : Net ℚ where
  name := "parity"
  info := ""
  «variables» := [⟨"A", .chance, ["yes", "no"], (0, 0), "", some 0⟩, ⟨"B", .chance, ["yes", "no"], (0, 0), "", some 1⟩,
    ⟨"X", .chance, ["same", "different"], (0, 0), "", some 2⟩]
  factors := [⟨"A", [], some p, [], 2⟩, ⟨"B", [], some q, [], 2⟩,
    ⟨"X", ["A", "B"], some [1, 0, 0, 1, 0, 1, 1, 0], [4, 2], 2⟩]
  policies := []
  vs := none
  names := []
  totalUtility := none

/-- The tables used below. -/
def parities : List (List ℚ) := [[1, 1], [1, 0], [0, 1]]

theorem parity_valid : ∀ p ∈ parities, (parity p p).Valid := by
  intro p hp
  simp only [parities, List.mem_cons, List.not_mem_nil, or_false] at hp
  rcases hp with rfl | rfl | rfl <;> exact
    { names := by decide
      named := by decide
      few := by decide
      outcomes := by decide
      tables := by decide
      hasTable := by decide
      known := by decide
      dims := by decide
      parents := by decide
      size := by
        intro f hf _ _
        simp only [parity, List.mem_cons, List.not_mem_nil, or_false] at hf
        rcases hf with rfl | rfl | rfl <;> exact ⟨_, rfl, by decide⟩
      single := by decide
      weights := by intro i h; simp [parity] at h }

theorem parity_mixes : (parity [1, 1] [1, 1]).Mixes (parity [1, 0] [1, 0]) (parity [0, 1] [0, 1]) ["A", "B"] (1 / 2) := by
  refine mixes_three "A" "B" "X" rfl rfl (fun w hw => ?_) ?_ ?_
  · exact ⟨hw ⟨"A", .chance, ["yes", "no"], (0, 0), "", some 0⟩ (by decide),
      hw ⟨"B", .chance, ["yes", "no"], (0, 0), "", some 1⟩ (by decide),
      hw ⟨"X", .chance, ["same", "different"], (0, 0), "", some 2⟩ (by decide)⟩
  · intro m hm
    simp only [List.mem_cons, List.not_mem_nil, or_false] at hm
    rcases hm with rfl | rfl | rfl <;> decide
  · set_option synthInstance.maxHeartbeats 200000 in set_option synthInstance.maxSize 4096 in decide +kernel

theorem parity_answer (sch : NSched ℚ) {p : List ℚ} (hp : p ∈ parities) {x y : ℚ}
    (h1 : (parity p p).mass [] ((parity p p).Agrees []) = 1)
    (hx : (parity p p).mass [] (fun w => (parity p p).Agrees [] w ∧ w "X" = 0) = x)
    (hy : (parity p p).mass [] (fun w => (parity p p).Agrees [] w ∧ w "X" = 1) = y) :
    ∃ r f m, (parity p p).solveQuery sch [] ["X"] false = (.ok (r, f), m) ∧ ("X", [x, y]) ∈ r := by
  obtain ⟨r, f, m, e, _, _, h⟩ := C31_bayesian sch (parity_valid p hp)
    (by simp [parity]) rfl (evidence := []) ⟨by simp, by simp⟩ (query := ["X"]) (by simp [parity]) (by simp)
    (by rw [h1]; exact one_ne_zero)
  refine ⟨r, f, m, e, ?_⟩
  obtain ⟨l, hl, hlen, hk⟩ := h "X" (by simp)
  have hc : (parity p p).count "X" = 2 := rfl
  rw [hc] at hlen hk
  have k0 := hk 0 (by omega)
  have k1 := hk 1 (by omega)
  rw [h1, hx, div_one] at k0
  rw [h1, hy, div_one] at k1
  have : l = [x, y] := by
    match l, hlen, k0, k1 with
    | [u, v], _, k0, k1 => simp at k0 k1; rw [k0, k1]
  rwa [← this]

end Ex

open Ex in
/-- **C137 is false for two tables at once.** Two opinions on two causes: in both, the causes agree for sure. Half way
between the two, in every schedule, the causes differ with probability one half. -/
theorem C137_two_tables_refuted : ∃ n n₀ n₁ : Net ℚ, n.Valid ∧ n₀.Valid ∧ n₁.Valid ∧ n.policies = [] ∧ n₀.policies = [] ∧
    n₁.policies = [] ∧ n₀.Nonneg ∧ n₁.Nonneg ∧ n.Mixes n₀ n₁ ["A", "B"] (1 / 2) ∧ ∀ sch : NSched ℚ,
      (∃ r f m, n₀.solveQuery sch [] ["X"] false = (.ok (r, f), m) ∧ ("X", [1, 0]) ∈ r) ∧
      (∃ r f m, n₁.solveQuery sch [] ["X"] false = (.ok (r, f), m) ∧ ("X", [1, 0]) ∈ r) ∧
      (∃ r f m, n.solveQuery sch [] ["X"] false = (.ok (r, f), m) ∧ ("X", [1 / 2, 1 / 2]) ∈ r) := by
  refine ⟨_, _, _, parity_valid [1, 1] (by decide), parity_valid [1, 0] (by decide), parity_valid [0, 1] (by decide), rfl, rfl, rfl, ⟨by decide, by decide⟩,
    ⟨by decide, by decide⟩, parity_mixes, fun sch => ⟨?_, ?_, ?_⟩⟩
  · exact parity_answer sch (by decide) (by decide +kernel) (by decide +kernel) (by decide +kernel)
  · exact parity_answer sch (by decide) (by decide +kernel) (by decide +kernel) (by decide +kernel)
  · exact parity_answer sch (by decide) (by decide +kernel) (by decide +kernel) (by decide +kernel)

open Ex in
/-- The hypotheses of `C137_one_table_partial` are met: rain when the sprinkler is on, from two opinions about rain. -/
example : ∃ r f m r₀ f₀ m₀ r₁ f₁ m₁, dryMix.solveQuery back [("Sprinkler", "on")] ["Rain"] false = (.ok (r, f), m) ∧
      dry.solveQuery back [("Sprinkler", "on")] ["Rain"] false = (.ok (r₀, f₀), m₀) ∧
      dryWet.solveQuery back [("Sprinkler", "on")] ["Rain"] false = (.ok (r₁, f₁), m₁) := by
  obtain ⟨r, f, m, r₀, f₀, m₀, r₁, f₁, m₁, h0, h1, h2, _⟩ := C137_one_table_partial back back back dryMix_valid dry_valid
    dryWet_valid rfl rfl rfl ⟨by decide, by decide⟩ ⟨by decide, by decide⟩ dry_mixes (by norm_num) (by norm_num)
    (evidence := [("Sprinkler", "on")]) ⟨by decide, by decide⟩ (query := ["Rain"]) (by decide) false false false
    (by decide +kernel) (by decide +kernel)
  exact ⟨r, f, m, r₀, f₀, m₀, r₁, f₁, m₁, h0, h1, h2⟩

open Ex in
/-- The hypotheses of `C137_no_evidence_partial` are met. -/
example : ∃ r f m r₀ f₀ m₀ r₁ f₁ m₁, dryMix.solveQuery back [] ["Sprinkler"] false = (.ok (r, f), m) ∧
      dry.solveQuery back [] ["Sprinkler"] false = (.ok (r₀, f₀), m₀) ∧
      dryWet.solveQuery back [] ["Sprinkler"] false = (.ok (r₁, f₁), m₁) := by
  have hr : dryWet.Regular := by
    intro f hf w hw
    have h1 : w "Rain" < 2 := hw ⟨"Rain", .chance, ["yes", "no"], (0, 0), "", some 1⟩ (by decide)
    have key : ∀ a < 2, ∀ f ∈ dryWet.chanceTables, dryWet.rowSum f (World.set (fun _ => 0) "Rain" a) ≠ 0 := by
      decide +kernel
    intro h0
    apply key _ h1 f hf
    rw [← h0]
    unfold Net.rowSum
    refine Finset.sum_congr rfl (fun k _ => entry_congr _ f (fun s hs => ?_))
    have : ∀ f ∈ dryWet.chanceTables, ∀ s ∈ f.dims, s = "Rain" ∨ s = f.forVar := by decide
    unfold World.set
    by_cases e0 : s = f.forVar
    · simp [e0]
    · rcases this f hf s hs with rfl | e
      · simp [e0]
      · exact absurd e e0
  obtain ⟨r, f, m, r₀, f₀, m₀, r₁, f₁, m₁, h0, h1, h2, _⟩ := C137_no_evidence_partial back back back dryMix_valid
    dry_valid dryWet_valid rfl rfl rfl ⟨by decide, by decide⟩ ⟨by decide, by decide⟩ dry_acyclic
    ⟨fun s => if s = "Rain" then 0 else 1, by decide⟩ dry_regular hr dry_mixes (by norm_num) (by norm_num)
    (query := ["Sprinkler"]) (by decide) false false false
  exact ⟨r, f, m, r₀, f₀, m₀, r₁, f₁, m₁, h0, h1, h2⟩

end Bbn
