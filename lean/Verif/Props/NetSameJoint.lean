import Verif.Spec.SameJoint
import Verif.Props.NetMix

/-!
# C138: only the joint distribution matters, not the arrows

Parents that make no difference can be left out, arrows can be turned around by Bayes' rule, tables can be rescaled:
networks with the same joint distribution give the same answers.
-/

set_option autoImplicit false

namespace Bbn

open Finset

variable {α : Type}

section Same

variable {n n' : Net α} (hv : n.SameVars n')

include hv

theorem SameVars.bare : n'.stateVars.map NVar.bare = n.stateVars.map NVar.bare := by
  unfold Net.SameVars at hv
  unfold Net.stateVars
  revert hv
  generalize n.variables = l
  generalize n'.variables = l'
  induction l generalizing l' with
  | nil => intro h; cases l' with
    | nil => rfl
    | cons a l' => simp at h
  | cons v l ih =>
    intro h
    cases l' with
    | nil => simp at h
    | cons v' l' =>
      simp only [List.map_cons, List.cons.injEq, Prod.mk.injEq] at h
      obtain ⟨⟨e1, e2, e3⟩, h⟩ := h
      rw [List.filter_cons, List.filter_cons, e2]
      split
      · rw [List.map_cons, List.map_cons, ih _ h]
        unfold NVar.bare
        rw [e1, e3]
      · exact ih _ h

theorem SameVars.var {v' : NVar} (h : v' ∈ n'.variables) : ∃ v ∈ n.variables, v.name = v'.name ∧ v.nodeType = v'.nodeType ∧
    v.outcomes = v'.outcomes := by
  have : (v'.name, v'.nodeType, v'.outcomes) ∈ n'.variables.map (fun v => (v.name, v.nodeType, v.outcomes)) :=
    List.mem_map.2 ⟨v', h, rfl⟩
  rw [hv] at this
  obtain ⟨v, hm, e⟩ := List.mem_map.1 this
  simp only [Prod.mk.injEq] at e
  exact ⟨v, hm, e.1, e.2.1, e.2.2⟩

theorem SameVars.symm : n'.SameVars n := Eq.symm hv

theorem SameVars.agrees (evidence : List (String × String)) (w : World) : n'.Agrees evidence w ↔ n.Agrees evidence w := by
  constructor
  · intro h e he v hm hn
    obtain ⟨u, hu, e1, _, e3⟩ := SameVars.var (SameVars.symm hv) hm
    rw [h e he u hu (by rw [e1, hn]), e3]
  · intro h e he v hm hn
    obtain ⟨u, hu, e1, _, e3⟩ := SameVars.var hv hm
    rw [h e he u hu (by rw [e1, hn]), e3]

theorem SameVars.evidence {evidence : List (String × String)} (h : n.EvidenceOK evidence) : n'.EvidenceOK evidence := by
  refine ⟨h.keys, fun e he => ?_⟩
  obtain ⟨v, hm, e1, e2, e3⟩ := h.known e he
  obtain ⟨u, hu, k1, k2, k3⟩ := SameVars.var (SameVars.symm hv) hm
  exact ⟨u, hu, by rw [k1, e1], by rw [k2]; exact e2, by rw [k3]; exact e3⟩

theorem SameVars.isKind (t : NodeType) (s : String) : n'.isKind t s = n.isKind t s := by
  rw [Bool.eq_iff_iff, isKind_mem, isKind_mem]
  constructor
  · rintro ⟨v, hm, e, k⟩
    obtain ⟨u, hu, k1, k2, _⟩ := SameVars.var hv hm
    exact ⟨u, hu, by rw [k1, e], by rw [k2, k]⟩
  · rintro ⟨v, hm, e, k⟩
    obtain ⟨u, hu, k1, k2, _⟩ := SameVars.var (SameVars.symm hv) hm
    exact ⟨u, hu, by rw [k1, e], by rw [k2, k]⟩

theorem SameVars.count (hn : n.Valid) (hn' : n'.Valid) {s : String} (h : ∃ v ∈ n.variables, v.name = s) :
    n'.count s = n.count s := by
  obtain ⟨v, hm, rfl⟩ := h
  obtain ⟨u, hu, k1, _, k3⟩ := SameVars.var (SameVars.symm hv) hm
  rw [count_eq hn hm, ← k1, count_eq hn' hu, k3]

section Num

variable [Field α] [DecidableEq α]

theorem SameVars.total (hn : n.Valid) {c : α} {F : World → α}
    (hj : ∀ w, n.Allowed w → F w ≠ 0 → n'.joint [] w = c * n.joint [] w) : n'.total [] F = c * n.total [] F := by
  unfold Net.total
  rw [← sumWorlds_bare, SameVars.bare hv, sumWorlds_bare, ← sumWorlds_mul]
  refine sumWorlds_congr _ _ (stateVars_names hn) (fun w hw _ => ?_)
  by_cases h0 : F w = 0
  · simp [h0]
  · rw [hj w hw h0, mul_assoc]

/-- With the same probabilities for all variables but one or two, only the probabilities of these matter. -/
theorem SameVars.joint (hn : n.Valid) (hn' : n'.Valid) {S : List String} (hp : n.SameChances n' S) {c : α} {w : World}
    (hw : n.Allowed w) (hx : ((n.stateVars.filter (fun v => v.name ∈ S)).map (fun v => n'.kernel v w)).prod =
      c * ((n.stateVars.filter (fun v => v.name ∈ S)).map (fun v => n.kernel v w)).prod) :
    n'.joint [] w = c * n.joint [] w := by
  have hb : ∀ m : Net α, (fun v => m.kernel v w) = (fun v => m.kernel v w) ∘ NVar.bare := by intro m; rfl
  have hsplit : ∀ (K : NVar → α) (l : List NVar), (l.map K).prod =
      ((l.filter (fun v => v.name ∈ S)).map K).prod * ((l.filter (fun v => v.name ∉ S)).map K).prod := by
    intro K l
    induction l with
    | nil => simp
    | cons v l ih =>
      by_cases e : v.name ∈ S
      · simp only [List.map_cons, List.prod_cons, ih, e, decide_true, List.filter_cons_of_pos, not_true_eq_false,
          decide_false, Bool.false_eq_true, not_false_eq_true, List.filter_cons_of_neg]
        ring
      · simp only [List.map_cons, List.prod_cons, ih, e, decide_true, List.filter_cons_of_pos, not_true_eq_false,
          decide_false, Bool.false_eq_true, not_false_eq_true, List.filter_cons_of_neg]
        ring
  rw [joint_kernel hn, joint_kernel hn']
  have h1 : (n'.stateVars.map (fun v => n'.kernel v w)) = n.stateVars.map (fun v => n'.kernel v w) := by
    rw [hb n', ← List.map_map, SameVars.bare hv, List.map_map]
  rw [h1, hsplit, hsplit (fun v => n.kernel v w), hx, mul_assoc]
  congr 3
  refine List.map_congr_left (fun v h => ?_)
  rw [List.mem_filter] at h
  obtain ⟨hm, hS⟩ := h
  simp only [decide_eq_true_eq] at hS
  have hv0 := (mem_stateVars.1 hm).1
  obtain ⟨u, hu, k1, k2, _⟩ := SameVars.var (SameVars.symm hv) hv0
  by_cases hc : v.nodeType = .chance
  · obtain ⟨f, hf, ef⟩ := hn.hasTable v hv0 (by rw [hc]; decide)
    have hf0 : f ∈ n.chanceTables := mem_chanceTables.2 ⟨hf, by rw [ef, isKind_iff hn hv0, hc]⟩
    obtain ⟨f', hf', ef'⟩ := hn'.hasTable u hu (by rw [k2, hc]; decide)
    have hf0' : f' ∈ n'.chanceTables := mem_chanceTables.2 ⟨hf', by rw [ef', isKind_iff hn' hu, k2, hc]⟩
    rw [kernel_table hn hf0 ef.symm, kernel_table hn' hf0' (by rw [ef', k1])]
    exact hp f hf0 f' hf0' (by rw [ef', k1, ef]) (by rw [ef]; exact hS) w hw
  · rw [kernel_none (n := n) (by rw [Bool.eq_false_iff, ne_eq, isKind_iff hn hv0]; exact hc),
      kernel_none (n := n') (by rw [SameVars.isKind hv, Bool.eq_false_iff, ne_eq, isKind_iff hn hv0]; exact hc)]

end Num

end Same

/-- **C138.** Two networks have the same variables, and the joint probabilities of the one are those of the other, up to a
constant factor, in all situations that agree with the evidence. Then they give the same answers to all queries with this
evidence, whatever parents and tables they have. -/
theorem C138_same_joint [Field α] [CharZero α] [DecidableEq α] (sch sch' : NSched α) {n n' : Net α} (hn : n.Valid)
    (hn' : n'.Valid) (hpol : n.policies = []) (hpol' : n'.policies = []) (hv : n.SameVars n')
    {evidence : List (String × String)} {c : α} (hc : c ≠ 0)
    (hj : ∀ w, n.Allowed w → n.Agrees evidence w → n'.joint [] w = c * n.joint [] w)
    (hev : n.EvidenceOK evidence) {query : List String}
    (hq : ∀ q ∈ query, n.isKind .chance q = true ∧ q ∉ evidence.map Prod.fst) (ign ign' : Bool)
    (possible : n.mass [] (n.Agrees evidence) ≠ 0) :
    ∃ r f m r' f' m', n.solveQuery sch evidence query ign = (.ok (r, f), m) ∧
      n'.solveQuery sch' evidence query ign' = (.ok (r', f'), m') ∧
      (∀ s, s ∈ r.map Prod.fst ↔ s ∈ query) ∧ ∀ q d, (q, d) ∈ r' ↔ (q, d) ∈ r := by
  have hm : ∀ (P : World → Prop) [DecidablePred P],
      n'.mass [] (fun w => n'.Agrees evidence w ∧ P w) = c * n.mass [] (fun w => n.Agrees evidence w ∧ P w) := by
    intro P _
    rw [mass_congr n' [] (fun w => and_congr_left (fun _ => SameVars.agrees hv evidence w))]
    exact SameVars.total hv hn (fun w hw h0 => hj w hw (by by_contra h; simp [h] at h0))
  have hm0 : n'.mass [] (n'.Agrees evidence) = c * n.mass [] (n.Agrees evidence) := by
    have := hm (fun _ => True)
    simpa only [and_true] using this
  have hok : ∀ {m : Net α}, m.Valid → ∀ i, (∀ q ∈ query, m.isKind .chance q = true) → m.QueryOK evidence i query := by
    intro m hm i h
    refine ⟨fun q hq' => ?_, fun q hq' e he e' => (hq q hq').2 (e' ▸ List.mem_map_of_mem he), fun q hq' => ?_⟩
    · obtain ⟨v, hv, e1, e2⟩ := isKind_mem.1 (h q hq')
      exact ⟨v, mem_stateVars.2 ⟨hv, by rw [e2]; decide⟩, e1⟩
    · obtain ⟨v, hv, e1, e2⟩ := isKind_mem.1 (h q hq')
      rw [← e1]; exact chance_occurs hm _ hv e2
  have hact : n.active evidence ign = [] := by simp [Net.active, hpol]
  have hact' : n'.active evidence ign' = [] := by simp [Net.active, hpol']
  obtain ⟨r, f, m, a1, a2, a3, a4⟩ := C31_solveQuery_posterior sch hn (by constructor <;> simp [hpol]) hev ign
    (hok hn _ (fun q h => (hq q h).1)) (by rw [hact]; exact possible)
  obtain ⟨r', f', m', b1, b2, b3, b4⟩ := C31_solveQuery_posterior sch' hn' (by constructor <;> simp [hpol'])
    (SameVars.evidence hv hev) ign' (hok hn' _ (fun q h => by rw [SameVars.isKind hv]; exact (hq q h).1))
    (by rw [hact', hm0]; exact mul_ne_zero hc possible)
  refine ⟨r, f, m, r', f', m', a1, b1, a3, ?_⟩
  have hsame : ∀ q ∈ query, ∃ d, (q, d) ∈ r ∧ (q, d) ∈ r' := by
    intro q h
    obtain ⟨d, u1, u2, u3⟩ := a4 q h
    obtain ⟨d', v1, v2, v3⟩ := b4 q h
    have hcount : n'.count q = n.count q := by
      obtain ⟨v, h1, h2, _⟩ := isKind_mem.1 (hq q h).1
      exact SameVars.count hv hn hn' ⟨v, h1, h2⟩
    have : d' = d := by
      apply List.ext_getElem?
      intro k
      by_cases hk : k < n.count q
      · rw [u3 k hk, v3 k (by rw [hcount]; exact hk), hact, hact', hm, hm0, mul_div_mul_left _ _ hc]
      · rw [List.getElem?_eq_none (l := d) (by omega), List.getElem?_eq_none (l := d') (by rw [v2, hcount]; omega)]
    exact ⟨d, u1, this ▸ v1⟩
  have huni : ∀ {L : List (String × List α)}, (L.map Prod.fst).Nodup → ∀ {q d d'}, (q, d) ∈ L → (q, d') ∈ L → d = d' := by
    intro L hL q d d' h1 h2
    have := List.inj_on_of_nodup_map hL h1 h2 rfl
    simpa using this
  intro q d
  constructor
  · intro h
    obtain ⟨e, h1, h2⟩ := hsame q ((b3 q).1 (List.mem_map_of_mem h))
    rw [huni b2 h h2]; exact h1
  · intro h
    obtain ⟨e, h1, h2⟩ := hsame q ((a3 q).1 (List.mem_map_of_mem h))
    rw [huni a2 h h1]; exact h2

/-- **C138, parents that make no difference.** Two networks give the same probabilities in every situation, but the
parents they declare may differ. Then they give the same answers. -/
theorem C138_same_tables [Field α] [CharZero α] [DecidableEq α] (sch sch' : NSched α) {n n' : Net α} (hn : n.Valid)
    (hn' : n'.Valid) (hpol : n.policies = []) (hpol' : n'.policies = []) (hv : n.SameVars n') (hp : n.SameChances n' [])
    {evidence : List (String × String)} (hev : n.EvidenceOK evidence) {query : List String}
    (hq : ∀ q ∈ query, n.isKind .chance q = true ∧ q ∉ evidence.map Prod.fst) (ign ign' : Bool)
    (possible : n.mass [] (n.Agrees evidence) ≠ 0) :
    ∃ r f m r' f' m', n.solveQuery sch evidence query ign = (.ok (r, f), m) ∧
      n'.solveQuery sch' evidence query ign' = (.ok (r', f'), m') ∧
      (∀ s, s ∈ r.map Prod.fst ↔ s ∈ query) ∧ ∀ q d, (q, d) ∈ r' ↔ (q, d) ∈ r :=
  C138_same_joint sch sch' hn hn' hpol hpol' hv one_ne_zero
    (fun w hw _ => SameVars.joint hv hn hn' hp hw (by simp)) hev hq ign ign' possible

/-- **C138, an arrow turned around.** In the one network there is an arrow from `x` to `y`, in the other from `y` to
`x`, with tables by Bayes' rule: the product of the two probabilities is the same. All other probabilities are the same.
Then the networks give the same answers. -/
theorem C138_turned_arrow [Field α] [CharZero α] [DecidableEq α] (sch sch' : NSched α) {n n' : Net α} (hn : n.Valid)
    (hn' : n'.Valid) (hpol : n.policies = []) (hpol' : n'.policies = []) (hv : n.SameVars n') {x y : String} (hxy : x ≠ y)
    (hp : n.SameChances n' [x, y]) {fx fy fx' fy' : NFactor α} (hx : fx ∈ n.chanceTables) (hy : fy ∈ n.chanceTables)
    (hx' : fx' ∈ n'.chanceTables) (hy' : fy' ∈ n'.chanceTables) (ex : fx.forVar = x) (ey : fy.forVar = y)
    (ex' : fx'.forVar = x) (ey' : fy'.forVar = y)
    (bayes : ∀ w, n.Allowed w → n'.prob fy' w * n'.prob fx' w = n.prob fx w * n.prob fy w)
    {evidence : List (String × String)} (hev : n.EvidenceOK evidence) {query : List String}
    (hq : ∀ q ∈ query, n.isKind .chance q = true ∧ q ∉ evidence.map Prod.fst) (ign ign' : Bool)
    (possible : n.mass [] (n.Agrees evidence) ≠ 0) :
    ∃ r f m r' f' m', n.solveQuery sch evidence query ign = (.ok (r, f), m) ∧
      n'.solveQuery sch' evidence query ign' = (.ok (r', f'), m') ∧
      (∀ s, s ∈ r.map Prod.fst ↔ s ∈ query) ∧ ∀ q d, (q, d) ∈ r' ↔ (q, d) ∈ r := by
  refine C138_same_joint sch sch' hn hn' hpol hpol' hv one_ne_zero (fun w hw _ => ?_) hev hq ign ign' possible
  refine SameVars.joint hv hn hn' hp hw ?_
  rw [one_mul]
  obtain ⟨vx, hvx, nx, _⟩ := chanceTables_forVar hx
  obtain ⟨vy, hvy, ny, _⟩ := chanceTables_forVar hy
  have hperm : (n.stateVars.filter (fun v => v.name ∈ [x, y])).Perm [vx, vy] := by
    have hnd := stateVars_names hn
    refine (List.perm_ext_iff_of_nodup ((List.Nodup.of_map _ hnd).filter _) ?_).2 (fun v => ?_)
    · simp only [List.nodup_cons, List.mem_cons, List.not_mem_nil, or_false, not_false_eq_true, List.nodup_nil, and_true]
      intro e
      apply hxy
      rw [← ex, ← ey, ← nx, ← ny, e]
    · simp only [List.mem_filter, List.mem_cons, List.not_mem_nil, or_false, decide_eq_true_eq]
      constructor
      · rintro ⟨h, e | e⟩
        · exact .inl (List.inj_on_of_nodup_map hnd h hvx (by rw [e, nx, ex]))
        · exact .inr (List.inj_on_of_nodup_map hnd h hvy (by rw [e, ny, ey]))
      · rintro (rfl | rfl)
        · exact ⟨hvx, .inl (by rw [nx, ex])⟩
        · exact ⟨hvy, .inr (by rw [ny, ey])⟩
  rw [(hperm.map _).prod_eq, (hperm.map _).prod_eq]
  simp only [List.map_cons, List.map_nil, List.prod_cons, List.prod_nil, mul_one]
  rw [kernel_table hn hx nx, kernel_table hn hy ny, kernel_table hn' hx' (by rw [nx, ex, ex']),
    kernel_table hn' hy' (by rw [ny, ey, ey']), ← bayes w hw]
  ring

/-- **C138, expected utilities.** If two networks without decisions have the same joint probabilities and the same
utilities in every world, then `SolveUtility` gives the same for all evidence. -/
theorem C138_utility [Field α] [DecidableEq α] (sch sch' : NSched α) {n n' : Net α} (hn : n.Valid) (hn' : n'.Valid)
    (hdec : ∀ v ∈ n.variables, v.nodeType ≠ .decision) (hpol : n.policies = []) (hpol' : n'.policies = [])
    (hv : n.SameVars n') (hj : ∀ w, n.Allowed w → n'.joint [] w = n.joint [] w) {u : String}
    (hu : u = "" ∧ n.utilityVars ≠ [] ∨ ∃ v ∈ n.utilityVars, v.name = u)
    (hu' : u = "" ∧ n'.utilityVars ≠ [] ∨ ∃ v ∈ n'.utilityVars, v.name = u)
    (hsame : ∀ w, n.Allowed w → n'.asked u w = n.asked u w) {evidence : List (String × String)}
    (hev : n.EvidenceOK evidence) (ign ign' : Bool) :
    ∃ y : α, n.Worth sch evidence u ign y ∧ n'.Worth sch' evidence u ign' y := by
  have hs : n.AllSolved := fun v hm h => absurd h (hdec v hm)
  have hs' : n'.AllSolved := fun v hm h => by
    obtain ⟨w, hw, _, e, _⟩ := SameVars.var hv hm
    exact absurd (e.trans h) (hdec w hw)
  have hact : n.active evidence ign = [] := by simp [Net.active, hpol]
  have hact' : n'.active evidence ign' = [] := by simp [Net.active, hpol']
  have h1 := worth_total sch hn (by constructor <;> simp [hpol]) hs hev hu ign
  have h2 := worth_total sch' hn' (by constructor <;> simp [hpol']) hs' (SameVars.evidence hv hev) hu' ign'
  rw [hact] at h1
  rw [hact'] at h2
  refine ⟨_, h1, ?_⟩
  have : n'.total [] (fun w => if n'.Agrees evidence w then n'.asked u w else 0) =
      n.total [] (fun w => if n.Agrees evidence w then n.asked u w else 0) := by
    unfold Net.total
    rw [← sumWorlds_bare, SameVars.bare hv, sumWorlds_bare]
    refine sumWorlds_congr _ _ (stateVars_names hn) (fun w hw _ => ?_)
    simp only [hj w hw, hsame w hw, SameVars.agrees hv]
  rw [← this]
  exact h2

namespace Ex

/-- The network with rain and a sprinkler, with the arrow turned around: rain given the sprinkler. -/
def dryBack : Net ℚ :=
  { Ex.dry with factors := [⟨"Rain", ["Sprinkler"], some [1, 160, 33, 80], [2], 2⟩, ⟨"Sprinkler", [], some [322, 678], [], 2⟩] }

/-- A sprinkler that does not care about rain, with the arrow nevertheless. -/
def idle : Net ℚ :=
  { Ex.dry with factors := [⟨"Sprinkler", ["Rain"], some [1, 3, 2, 6], [2], 2⟩, ⟨"Rain", [], some [20, 80], [], 2⟩] }

/-- A sprinkler that does not care about rain, without the arrow. -/
def idleFree : Net ℚ :=
  { Ex.dry with factors := [⟨"Rain", [], some [1, 4], [], 2⟩, ⟨"Sprinkler", [], some [25, 75], [], 2⟩] }

/-- Rain, a sprinkler, and a mood that depends on rain. -/
def mood : Net ℚ :=
  { Ex.dry with
    «variables» := Ex.dry.variables ++ [⟨"Mood", .utility, ["mood"], (0, 0), "", some 2⟩]
    factors := Ex.dry.factors ++ [⟨"Mood", ["Rain"], some [-5, 10], [2], 1⟩] }

/-- The same with the arrow turned around, and with a mood that could depend on the sprinkler, but does not. -/
def moodBack : Net ℚ :=
  { Ex.dry with
    «variables» := Ex.dry.variables ++ [⟨"Mood", .utility, ["mood"], (0, 0), "", some 2⟩]
    factors := dryBack.factors ++ [⟨"Mood", ["Rain", "Sprinkler"], some [-5, -5, 10, 10], [2, 2], 1⟩] }

theorem dryBack_valid : dryBack.Valid where
  names := by decide
  named := by decide
  few := by decide
  outcomes := by decide
  tables := by decide
  hasTable := by decide
  known := by decide
  dims := by decide
  parents := by decide
  size := by
    intro f hf _ _
    simp only [dryBack, List.mem_cons, List.not_mem_nil, or_false] at hf
    rcases hf with rfl | rfl <;> exact ⟨_, rfl, by decide⟩
  single := by decide
  weights := by intro i h; simp [dryBack, dry] at h

theorem idle_valid : idle.Valid where
  names := by decide
  named := by decide
  few := by decide
  outcomes := by decide
  tables := by decide
  hasTable := by decide
  known := by decide
  dims := by decide
  parents := by decide
  size := by
    intro f hf _ _
    simp only [idle, List.mem_cons, List.not_mem_nil, or_false] at hf
    rcases hf with rfl | rfl <;> exact ⟨_, rfl, by decide⟩
  single := by decide
  weights := by intro i h; simp [idle, dry] at h

theorem idleFree_valid : idleFree.Valid where
  names := by decide
  named := by decide
  few := by decide
  outcomes := by decide
  tables := by decide
  hasTable := by decide
  known := by decide
  dims := by decide
  parents := by decide
  size := by
    intro f hf _ _
    simp only [idleFree, List.mem_cons, List.not_mem_nil, or_false] at hf
    rcases hf with rfl | rfl <;> exact ⟨_, rfl, by decide⟩
  single := by decide
  weights := by intro i h; simp [idleFree, dry] at h

theorem mood_valid : mood.Valid where
  names := by decide
  named := by decide
  few := by decide
  outcomes := by decide
  tables := by decide
  hasTable := by decide
  known := by decide
  dims := by decide
  parents := by decide
  size := by
    intro f hf _ _
    simp only [mood, dry, List.cons_append, List.nil_append, List.mem_cons, List.not_mem_nil, or_false] at hf
    rcases hf with rfl | rfl | rfl <;> exact ⟨_, rfl, by decide⟩
  single := by decide
  weights := by intro i h; simp [mood, dry] at h

theorem moodBack_valid : moodBack.Valid where
  names := by decide
  named := by decide
  few := by decide
  outcomes := by decide
  tables := by decide
  hasTable := by decide
  known := by decide
  dims := by decide
  parents := by decide
  size := by
    intro f hf _ _
    simp only [moodBack, dryBack, List.cons_append, List.nil_append, List.mem_cons, List.not_mem_nil, or_false] at hf
    rcases hf with rfl | rfl | rfl <;> exact ⟨_, rfl, by decide⟩
  single := by decide
  weights := by intro i h; simp [moodBack, dry] at h

theorem dry_allowed {w : World} (hw : dry.Allowed w) : w "Rain" < 2 ∧ w "Sprinkler" < 2 :=
  ⟨hw ⟨"Rain", .chance, ["yes", "no"], (0, 0), "", some 1⟩ (by decide),
    hw ⟨"Sprinkler", .chance, ["on", "off"], (0, 0), "", some 0⟩ (by decide)⟩

theorem dryBack_bayes (w : World) (hw : dry.Allowed w) :
    dryBack.prob ⟨"Sprinkler", [], some [322, 678], [], 2⟩ w *
        dryBack.prob ⟨"Rain", ["Sprinkler"], some [1, 160, 33, 80], [2], 2⟩ w =
      dry.prob ⟨"Rain", [], some [20, 80], [], 2⟩ w * dry.prob ⟨"Sprinkler", ["Rain"], some [1, 99, 4, 6], [2], 2⟩ w := by
  obtain ⟨h1, h2⟩ := dry_allowed hw
  rw [prob_three _ _ (x := "Rain") (y := "Sprinkler") (z := "Sprinkler") (by decide) w,
    prob_three _ _ (x := "Rain") (y := "Sprinkler") (z := "Sprinkler") (by decide) w,
    prob_three _ _ (x := "Rain") (y := "Sprinkler") (z := "Sprinkler") (by decide) w,
    prob_three _ _ (x := "Rain") (y := "Sprinkler") (z := "Sprinkler") (by decide) w]
  have : ∀ a < 2, ∀ b < 2, dryBack.prob ⟨"Sprinkler", [], some [322, 678], [], 2⟩ (three "Rain" "Sprinkler" "Sprinkler" a b b) *
        dryBack.prob ⟨"Rain", ["Sprinkler"], some [1, 160, 33, 80], [2], 2⟩ (three "Rain" "Sprinkler" "Sprinkler" a b b) =
      dry.prob ⟨"Rain", [], some [20, 80], [], 2⟩ (three "Rain" "Sprinkler" "Sprinkler" a b b) *
        dry.prob ⟨"Sprinkler", ["Rain"], some [1, 99, 4, 6], [2], 2⟩ (three "Rain" "Sprinkler" "Sprinkler" a b b) := by
    decide +kernel
  exact this _ h1 _ h2

theorem idle_same : idle.SameChances idleFree [] := by
  intro f hf f' hf' e _ w hw
  obtain ⟨h1, h2⟩ := dry_allowed hw
  have hd : ∀ f ∈ idle.chanceTables, ∀ s ∈ f.dims, s = "Rain" ∨ s = "Sprinkler" ∨ s = "Sprinkler" := by decide
  have hd' : ∀ f ∈ idleFree.chanceTables, ∀ s ∈ f.dims, s = "Rain" ∨ s = "Sprinkler" ∨ s = "Sprinkler" := by decide
  rw [prob_three _ _ (hd f hf) w, prob_three _ _ (hd' f' hf') w]
  have : ∀ f ∈ idle.chanceTables, ∀ f' ∈ idleFree.chanceTables, f'.forVar = f.forVar → ∀ a < 2, ∀ b < 2,
      idleFree.prob f' (three "Rain" "Sprinkler" "Sprinkler" a b b) =
        idle.prob f (three "Rain" "Sprinkler" "Sprinkler" a b b) := by
    set_option synthInstance.maxHeartbeats 200000 in set_option synthInstance.maxSize 4096 in decide +kernel
  exact this f hf f' hf' e _ h1 _ h2

/-- Three numbers decide about the joint probability. -/
theorem joint_three (n : Net ℚ) {x y z : String} (h : ∀ f ∈ n.chanceTables, ∀ s ∈ f.dims, s = x ∨ s = y ∨ s = z) (w : World) :
    n.joint [] w = n.joint [] (three x y z (w x) (w y) (w z)) := by
  unfold Net.joint
  congr 2
  exact List.map_congr_left (fun f hf => prob_three n f (h f hf) w)

theorem mood_joint (w : World) (h1 : w "Rain" < 2) (h2 : w "Sprinkler" < 2) : moodBack.joint [] w = mood.joint [] w := by
  rw [joint_three moodBack (x := "Rain") (y := "Sprinkler") (z := "Sprinkler") (by decide) w,
    joint_three mood (x := "Rain") (y := "Sprinkler") (z := "Sprinkler") (by decide) w]
  have : ∀ a < 2, ∀ b < 2, moodBack.joint [] (three "Rain" "Sprinkler" "Sprinkler" a b b) =
      mood.joint [] (three "Rain" "Sprinkler" "Sprinkler" a b b) := by decide +kernel
  exact this _ h1 _ h2

theorem mood_asked (w : World) (h1 : w "Rain" < 2) (h2 : w "Sprinkler" < 2) : moodBack.asked "Mood" w = mood.asked "Mood" w := by
  have hu : ∀ n : Net ℚ, (∀ f ∈ n.factors, f.forVar = "Mood" → ∀ s ∈ f.dims, s = "Mood" ∨ s = "Rain" ∨ s = "Sprinkler") →
      n.asked "Mood" w = n.asked "Mood" (three "Rain" "Sprinkler" "Sprinkler" (w "Rain") (w "Sprinkler") (w "Sprinkler")) := by
    intro n h
    have hm : ("Mood" : String) ≠ "" := by decide
    unfold Net.asked
    rw [if_neg hm, if_neg hm]
    unfold Net.utilityIn
    congr 1
    refine List.map_congr_left (fun f hf => ?_)
    rw [List.mem_filter] at hf
    unfold Net.entry
    congr 2
    refine List.map_congr_left (fun s hs => ?_)
    rcases h f hf.1 (by simpa using hf.2) s hs with rfl | rfl | rfl <;> simp [World.set, three]
  rw [hu mood (by decide), hu moodBack (by decide)]
  have : ∀ a < 2, ∀ b < 2, moodBack.asked "Mood" (three "Rain" "Sprinkler" "Sprinkler" a b b) =
      mood.asked "Mood" (three "Rain" "Sprinkler" "Sprinkler" a b b) := by decide +kernel
  exact this _ h1 _ h2

end Ex

open Ex in
/-- The hypotheses of `C138_turned_arrow` are met: rain and a sprinkler, with the arrow one way and the other. -/
example (sch sch' : NSched ℚ) : ∃ r f m r' f' m', dry.solveQuery sch [("Sprinkler", "on")] ["Rain"] false = (.ok (r, f), m) ∧
      dryBack.solveQuery sch' [("Sprinkler", "on")] ["Rain"] false = (.ok (r', f'), m') ∧
      (∀ s, s ∈ r.map Prod.fst ↔ s ∈ ["Rain"]) ∧ ∀ q d, (q, d) ∈ r' ↔ (q, d) ∈ r :=
  C138_turned_arrow sch sch' dry_valid dryBack_valid rfl rfl rfl (x := "Rain") (y := "Sprinkler") (by decide)
    (fun f hf _ _ _ h => absurd ((by decide : ∀ f ∈ dry.chanceTables, f.forVar ∈ ["Rain", "Sprinkler"]) f hf) h)
    (fx := ⟨"Rain", [], some [20, 80], [], 2⟩) (fy := ⟨"Sprinkler", ["Rain"], some [1, 99, 4, 6], [2], 2⟩)
    (fx' := ⟨"Rain", ["Sprinkler"], some [1, 160, 33, 80], [2], 2⟩) (fy' := ⟨"Sprinkler", [], some [322, 678], [], 2⟩)
    (by decide) (by decide) (by decide) (by decide) rfl rfl rfl rfl dryBack_bayes ⟨by decide, by decide⟩ (by decide)
    false false (by decide +kernel)

open Ex in
/-- What the two networks answer. -/
example : (dry.solveQuery back [("Sprinkler", "on")] ["Rain"] false).1.toOption.map Prod.fst = some [("Rain", [1 / 161, 160 / 161])] ∧
    (dryBack.solveQuery back [("Sprinkler", "on")] ["Rain"] false).1.toOption.map Prod.fst =
      some [("Rain", [1 / 161, 160 / 161])] := by
  decide +kernel

open Ex in
/-- The hypotheses of `C138_same_tables` are met: an arrow that makes no difference is left out. -/
example (sch sch' : NSched ℚ) : ∃ r f m r' f' m', idle.solveQuery sch [("Sprinkler", "on")] ["Rain"] false = (.ok (r, f), m) ∧
      idleFree.solveQuery sch' [("Sprinkler", "on")] ["Rain"] false = (.ok (r', f'), m') ∧
      (∀ s, s ∈ r.map Prod.fst ↔ s ∈ ["Rain"]) ∧ ∀ q d, (q, d) ∈ r' ↔ (q, d) ∈ r :=
  C138_same_tables sch sch' idle_valid idleFree_valid rfl rfl rfl idle_same ⟨by decide, by decide⟩ (by decide)
    false false (by decide +kernel)

open Ex in
/-- The hypotheses of `C138_utility` are met. -/
example (sch sch' : NSched ℚ) : ∃ y : ℚ, mood.Worth sch [("Sprinkler", "on")] "Mood" false y ∧
    moodBack.Worth sch' [("Sprinkler", "on")] "Mood" false y := by
  have hall : ∀ {w : World}, mood.Allowed w → w "Rain" < 2 ∧ w "Sprinkler" < 2 := fun hw =>
    ⟨hw ⟨"Rain", .chance, ["yes", "no"], (0, 0), "", some 1⟩ (by decide),
      hw ⟨"Sprinkler", .chance, ["on", "off"], (0, 0), "", some 0⟩ (by decide)⟩
  refine C138_utility sch sch' mood_valid moodBack_valid (by decide) rfl rfl rfl (fun w hw => ?_) (.inr (by decide))
    (.inr (by decide)) (fun w hw => ?_) ⟨by decide, by decide⟩ false false
  · exact mood_joint w (hall hw).1 (hall hw).2
  · exact mood_asked w (hall hw).1 (hall hw).2

end Bbn
