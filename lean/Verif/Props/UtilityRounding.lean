import Verif.Lemmas.SignedNet
import Verif.Props.NetUtility
import Verif.Props.NetRounding

/-!
# C114: expected utilities with rounded arithmetic
-/

set_option autoImplicit false
set_option linter.unusedSectionVars false

namespace Bbn

open Finset

variable {β K : Type} [Zero β] [One β] [Add β] [Mul β] [Div β] [DecidableEq β] [Field K] [LinearOrder K]
  [IsStrictOrderedRing K] {val : β → K} {u : K}

/-- **C114.** `Network.SolveUtility` with rounded numbers, probabilities `≥ 0` and utilities and weights of any sign: every
entry of the returned table is the exact one (by enumeration, over the exact values of the numbers in the tables) after at
most `2 · (all outcomes) + 6 · (variables) + 1` roundings, relative to the sum of the absolute values of all that is
added up. For every iteration order of every map. -/
theorem C114_rounding (h : SignedRounding val u) (sch : NSched β) {n : Net β} (hn : (n.mapNum val).Valid)
    (hp : (n.mapNum val).PoliciesOK) (h0 : (n.mapNum val).Nonneg) {evidence : List (String × String)}
    (hev : (n.mapNum val).EvidenceOK evidence) {query : List String}
    (hq : ∀ q ∈ query, ∃ v ∈ (n.mapNum val).stateVars, v.name = q) {s : String}
    (hs : s = "" ∧ n.utilityVars ≠ [] ∨ ∃ v ∈ n.utilityVars, v.name = s) (ign : Bool) :
    ∃ g n', n.solveUtility sch evidence query s ign = (.ok g, n') ∧
      (∀ x ∈ g.vars, ∃ v, n.variables[x.id]? = some v ∧ x.outcomes = v.outcomes.length ∧
        v ∉ n.hiddenVars evidence query ∧ (∀ e ∈ evidence, e.1 ≠ v.name) ∧ (v.nodeType = .utility → v.name = s)) ∧
      ∀ w, (∀ v ∈ n.variables, w v.name < v.outcomes.length) → ∃ y, g.get (ints (tupleOf g.vars (n.ids w))) = .ok y ∧
        Off u (2 * n.outcomeTotal + 6 * n.variables.length + 1) (val y)
          (sumWorlds ((n.mapNum val).hiddenVars evidence query) (fun w' =>
            (n.mapNum val).joint ((n.mapNum val).active evidence ign) ((n.mapNum val).observe evidence w') *
              (n.mapNum val).asked s ((n.mapNum val).observe evidence w')) w)
          (sumWorlds ((n.mapNum val).hiddenVars evidence query) (fun w' =>
            (n.mapNum val).joint ((n.mapNum val).active evidence ign) ((n.mapNum val).observe evidence w') *
              (n.mapNum val).askedSize s ((n.mapNum val).observe evidence w')) w) := by
  obtain ⟨g, n', h1, h2, _, h3, h4⟩ := solveUtility_rounded h sch hn hp h0 hev hq hs ign
  refine ⟨g, n', h1, h3, fun w hw => ⟨g.val (n.ids w), ?_, h4 w hw⟩⟩
  refine get_eq_val h2 (fun x hx => ?_)
  obtain ⟨v, k1, k2, _⟩ := h3 x hx
  rw [k2]
  simp only [Net.ids, k1]
  exact hw v (List.mem_of_getElem? k1)

/-- Roundings as an error relative to the magnitude. -/
theorem Off.relative {k : Nat} {x y b : K} (hu0 : 0 ≤ u) (hu1 : u < 1) (hb : 0 ≤ b) (ho : Off u k x y b)
    (hk : k * u < 1) : |x - y| ≤ k * u / (1 - k * u) * b := by
  refine le_trans ho (mul_le_mul_of_nonneg_right ?_ hb)
  have h1 : 1 - k * u ≤ (1 - u) ^ k := by
    have := one_add_mul_le_pow (a := -u) (by linarith) k
    rw [sub_eq_add_neg 1 u]
    linarith
  have hpos : 0 < 1 - k * u := by linarith
  have h2 : (1 - u)⁻¹ ^ k ≤ (1 - k * u)⁻¹ := by
    rw [inv_pow]
    exact inv_anti₀ hpos h1
  have h3 : k * u / (1 - k * u) = (1 - k * u)⁻¹ - 1 := by
    field_simp
    ring
  rw [h3]
  linarith

theorem total_askedSize {N : Net K} (sch : NSched K) (hn : N.Valid) (hp : N.PoliciesOK) (h0 : N.Nonneg)
    {evidence : List (String × String)} (hev : N.EvidenceOK evidence) {s : String}
    (hs : s = "" ∨ ∃ v ∈ N.utilityVars, v.name = s) (ign : Bool) :
    N.total (N.active evidence ign) (fun w => if N.Agrees evidence w then N.askedSize s w else 0) =
      sumWorlds (N.stateVars.filter (fun v => ∀ e ∈ evidence, e.1 ≠ v.name)) (fun w' =>
          N.joint (N.active evidence ign) (N.observe evidence w') * N.askedSize s (N.observe evidence w')) (fun _ => 0) := by
  have e := total_asked sch (Valid.mapNum hn (fun x => |x|)) (PoliciesOK.mapNum hp (fun x => |x|))
    (evidence := evidence) ⟨hev.keys, hev.known⟩ (u := s) hs ign
  unfold Net.total at e ⊢
  simp only [joint_abs h0, active_abs h0, asked_abs hn] at e
  exact e

theorem askedSize_nonneg (N : Net K) (s : String) (w : World) : 0 ≤ N.askedSize s w := by
  unfold Net.askedSize
  split_ifs
  · refine List.sum_nonneg (fun x hx => ?_)
    obtain ⟨v, _, rfl⟩ := List.mem_map.1 hx
    exact mul_nonneg (abs_nonneg _) (abs_nonneg _)
  · exact abs_nonneg _

/-- **C114, a single number.** If nothing but evidence is left, `SolveUtility` without query variables returns one number.
It differs from the exact expected utility by at most `E u / (1 - E u)` times the expected magnitude of the utilities,
where `E` depends only on the numbers of variables and outcomes. -/
theorem C114_expected_utility (h : SignedRounding val u) (sch : NSched β) {n : Net β} (hn : (n.mapNum val).Valid)
    (hp : (n.mapNum val).PoliciesOK) (h0 : (n.mapNum val).Nonneg) {evidence : List (String × String)}
    (hev : (n.mapNum val).EvidenceOK evidence) {s : String}
    (hs : s = "" ∧ n.utilityVars ≠ [] ∨ ∃ v ∈ n.utilityVars, v.name = s) (ign : Bool)
    (hall : ∀ v ∈ n.stateVars, (∀ e ∈ evidence, e.1 ≠ v.name) → v ∈ n.hiddenVars evidence [])
    (E : Nat) (hE : E = 2 * n.outcomeTotal + 6 * n.variables.length + 1) (hEu : E * u < 1) :
    ∃ g n' x, n.solveUtility sch evidence [] s ign = (.ok g, n') ∧ g.data = [x] ∧
      |val x - (n.mapNum val).total ((n.mapNum val).active evidence ign)
          (fun w => if (n.mapNum val).Agrees evidence w then (n.mapNum val).asked s w else 0)| ≤
        E * u / (1 - E * u) * (n.mapNum val).total ((n.mapNum val).active evidence ign)
          (fun w => if (n.mapNum val).Agrees evidence w then (n.mapNum val).askedSize s w else 0) := by
  obtain ⟨g, n', h1, h2, ⟨ge, ne, e1, e2⟩, h3, h4⟩ := solveUtility_rounded h sch hn hp h0 hev (query := []) (by simp) hs ign
  have hall' : ∀ v ∈ (n.mapNum val).stateVars, (∀ e ∈ evidence, e.1 ≠ v.name) →
      v ∈ (n.mapNum val).hiddenVars evidence [] := by
    rw [hiddenVars_mapNum]
    exact hall
  have hone : ∀ x ∈ g.vars, x.outcomes = 1 := by
    intro x hx
    obtain ⟨v, k1, k2, k3, k4, k5⟩ := h3 x hx
    have hv := List.mem_of_getElem? k1
    by_cases hvu : v.nodeType = .utility
    · rcases hs with ⟨rfl, _⟩ | ⟨y, hy, rfl⟩
      · exact absurd (k5 hvu) (hn.named v hv)
      · simp only [Net.utilityVars, List.mem_filter, decide_eq_true_eq] at hy
        rw [k2, hn.single v hv hvu (by rw [k5 hvu]; exact hy.2.2)]
    · exact absurd (hall v (mem_stateVars.2 ⟨hv, hvu⟩) k4) k3
  have hsize : ∀ l : List Var, (∀ x ∈ l, x.outcomes = 1) → size l = 1 := by
    intro l
    induction l with
    | nil => intro _; rfl
    | cons x l ih =>
      intro h
      simp only [size, h x List.mem_cons_self, ih (fun y hy => h y (List.mem_cons_of_mem _ hy))]
  have hlen : g.data.length = 1 := by rw [h2.len, hsize _ hone]
  have hval := h4 (fun _ => 0) (fun v hv => (hn.outcomes v hv).1)
  have hF : Fits (n.ids (fun _ => 0)) g.vars := by
    intro x hx
    rw [hone x hx]
    simp only [Net.ids]; split <;> decide
  have hidx : flatIndex g.vars (tupleOf g.vars (n.ids (fun _ => 0))) = 0 := by
    have := flatIndex_lt (tupleOf_inRange hF)
    rw [hsize _ hone] at this
    omega
  obtain ⟨x, hx⟩ := List.length_eq_one_iff.1 hlen
  have hx2 : g.val (n.ids (fun _ => 0)) = x := by
    unfold Factor.val
    rw [hidx, hx]; rfl
  have hfilter : (n.mapNum val).hiddenVars evidence [] =
      (n.mapNum val).stateVars.filter (fun v => ∀ e ∈ evidence, e.1 ≠ v.name) := by
    unfold Net.hiddenVars
    apply List.filter_congr
    intro v hv
    rw [Bool.eq_iff_iff]
    simp only [decide_eq_true_eq]
    constructor
    · rintro ⟨_, h, _⟩; exact h
    · intro h
      have := hall' v hv h
      simp only [Net.hiddenVars, List.mem_filter, decide_eq_true_eq] at this
      exact this.2
  rw [hx2, hfilter, ← total_asked (sch.cast K) hn hp hev (hs.imp And.left id) ign,
    ← total_askedSize (sch.cast K) hn hp h0 hev (hs.imp And.left id) ign, ← hE] at hval
  refine ⟨g, n', x, h1, hx, hval.relative h.nonneg h.lt_one ?_ hEu⟩
  unfold Net.total
  refine sumWorlds_nonneg (fun w => mul_nonneg (joint_nonneg_world h0 (fun p => active_sub p) w) ?_) _ _
  split_ifs
  · exact askedSize_nonneg _ _ _
  · exact le_rfl

theorem Ex.dbl_signed : SignedRounding Ex.Dbl.val (1 / 2 ^ 53 : ℚ) where
  nonneg := by norm_num
  lt_one := by norm_num
  zero := rfl
  one := rfl
  eq_zero x h := by
    cases x
    cases h
    rfl
  add _ _ := Ex.nearest_error _
  mul _ _ := Ex.nearest_error _
  div _ _ _ := Ex.nearest_error _

/-- The expected total utility of the umbrella network (where effort is negative, and counts twice) in 53 bit arithmetic,
for all iteration orders: 73.6, to 12 decimals. -/
example (sch : NSched Ex.Dbl) : ∃ g n' x, (Ex.umbSolved.mapNum Ex.Dbl.mk).solveUtility sch [] [] "" false = (.ok g, n') ∧
    g.data = [x] ∧ |x.val - 736 / 10| ≤ 1 / 10 ^ 12 := by
  have e : (Ex.umbSolved.mapNum Ex.Dbl.mk).mapNum Ex.Dbl.val = Ex.umbSolved :=
    (Net.mapNum_mapNum _ _ _).trans Ex.umbSolved.mapNum_id
  have e2 : (Ex.umbSolved.mapNum Ex.Dbl.mk).hiddenVars [] [] = Ex.umbSolved.hiddenVars [] [] := hiddenVars_mapNum _ _ _ _
  obtain ⟨g, n', x, h1, h2, h3⟩ := C114_expected_utility Ex.dbl_signed sch (n := Ex.umbSolved.mapNum Ex.Dbl.mk)
    (by rw [e]; exact Ex.umbSolved_valid) (by rw [e]; exact Ex.umbSolved_policies)
    (by rw [e]; exact ⟨by decide, by decide⟩) (evidence := []) (by rw [e]; exact ⟨by decide, by decide⟩) (s := "")
    (.inl ⟨rfl, by decide⟩) false (by rw [e2]; decide) 57 (by decide) (by norm_num)
  refine ⟨g, n', x, h1, h2, ?_⟩
  rw [e] at h3
  have h4 : Ex.umbSolved.total (Ex.umbSolved.active [] false)
      (fun w => if Ex.umbSolved.Agrees [] w then Ex.umbSolved.asked "" w else 0) = 736 / 10 := by decide +kernel
  have h5 : Ex.umbSolved.total (Ex.umbSolved.active [] false)
      (fun w => if Ex.umbSolved.Agrees [] w then Ex.umbSolved.askedSize "" w else 0) = 818 / 10 := by decide +kernel
  rw [h4, h5] at h3
  refine h3.trans ?_
  norm_num

end Bbn
