import Verif.Spec.Absorb
import Verif.Props.NetMerge

/-!
# C148: a variable in between can be left out
-/

set_option autoImplicit false

namespace Bbn

open Finset

variable {α : Type}

section Absorb

variable [Field α] [DecidableEq α] {n m : Net α} {x y : String} (hm : n.Absorbs m x y)

include hm

theorem Absorbs.var {v : NVar} (h : v ∈ n.variables) (hx : v.name ≠ x) : ∃ v' ∈ m.variables, v'.name = v.name ∧
    v'.nodeType = v.nodeType ∧ v'.outcomes = v.outcomes :=
  forall₂_mem_left hm.vars (List.mem_filter.2 ⟨h, by simp [hx]⟩)

theorem Absorbs.back {v' : NVar} (h : v' ∈ m.variables) : ∃ v ∈ n.variables, v.name ≠ x ∧ v'.name = v.name ∧
    v'.nodeType = v.nodeType ∧ v'.outcomes = v.outcomes := by
  obtain ⟨v, hv, e⟩ := forall₂_mem_right hm.vars h
  obtain ⟨h1, h2⟩ := List.mem_filter.1 hv
  exact ⟨v, h1, by simpa using h2, e⟩

theorem Absorbs.isKind (t : NodeType) {s : String} (hs : s ≠ x) : m.isKind t s = n.isKind t s := by
  rw [Bool.eq_iff_iff, isKind_mem, isKind_mem]
  constructor
  · rintro ⟨v, hv, e, k⟩
    obtain ⟨u, hu, _, k1, k2, _⟩ := Absorbs.back hm hv
    exact ⟨u, hu, by rw [← k1, e], by rw [← k2, k]⟩
  · rintro ⟨v, hv, e, k⟩
    obtain ⟨u, hu, k1, k2, _⟩ := Absorbs.var hm hv (by rw [e]; exact hs)
    exact ⟨u, hu, by rw [k1, e], by rw [k2, k]⟩

theorem Absorbs.count (hn : n.Valid) (hn' : m.Valid) {s : String} (h : ∃ v ∈ n.variables, v.name = s) (hs : s ≠ x) :
    m.count s = n.count s := by
  obtain ⟨v, hv, rfl⟩ := h
  obtain ⟨u, hu, k1, _, k3⟩ := Absorbs.var hm hv hs
  rw [count_eq hn hv, ← k1, count_eq hn' hu, k3]

theorem Absorbs.agrees {evidence : List (String × String)} (hx : x ∉ evidence.map Prod.fst) (w : World) :
    m.Agrees evidence w ↔ n.Agrees evidence w := by
  constructor
  · intro h e he v hv k
    obtain ⟨v', hv', k1, _, k3⟩ := Absorbs.var hm hv (fun h' => hx (by rw [← h', k]; exact List.mem_map_of_mem he))
    rw [h e he v' hv' (by rw [k1, k]), k3]
  · intro h e he v' hv' k
    obtain ⟨v, hv, _, k1, _, k3⟩ := Absorbs.back hm hv'
    rw [h e he v hv (by rw [← k1, k]), k3]

theorem Absorbs.evidence {evidence : List (String × String)} (hx : x ∉ evidence.map Prod.fst)
    (h : n.EvidenceOK evidence) : m.EvidenceOK evidence := by
  refine ⟨h.keys, fun e he => ?_⟩
  obtain ⟨v, hv, e1, e2, e3⟩ := h.known e he
  obtain ⟨u, hu', k1, k2, k3⟩ := Absorbs.var hm hv (fun h' => hx (by rw [← h', e1]; exact List.mem_map_of_mem he))
  exact ⟨u, hu', by rw [k1, e1], by rw [k2]; exact e2, by rw [k3]; exact e3⟩

theorem Absorbs.bare : m.stateVars.map NVar.bare = (n.stateVars.filter (fun v => v.name ≠ x)).map NVar.bare := by
  have h := hm.vars
  have e : n.stateVars.filter (fun v => v.name ≠ x) =
      (n.variables.filter (fun v => v.name ≠ x)).filter (fun v => v.nodeType ≠ .utility) := by
    unfold Net.stateVars
    rw [List.filter_filter, List.filter_filter]
    exact List.filter_congr (fun v _ => Bool.and_comm _ _)
  rw [e]
  unfold Net.stateVars
  revert h
  generalize n.variables.filter (fun v => v.name ≠ x) = l
  generalize m.variables = l'
  intro h
  induction h with
  | nil => rfl
  | cons hd _ ih =>
    rw [List.filter_cons, List.filter_cons, hd.2.1]
    split
    · rw [List.map_cons, List.map_cons, ih]
      unfold NVar.bare
      rw [hd.1, hd.2.2]
    · exact ih

/-- Every sum over the situations of the small network is a sum over those of the big one. -/
theorem Absorbs.total (hn : n.Valid) (hn' : m.Valid) {F G : World → α} (hb : Blind F x)
    (hF : ∀ w, n.Allowed w → F w = G w) : n.total [] F = m.total [] G := by
  obtain ⟨vx, hvx, ex, hcx⟩ := isKind_mem.1 hm.chance.1
  obtain ⟨vy, hvy, ey, hcy⟩ := isKind_mem.1 hm.chance.2
  have hvx' : vx ∈ n.stateVars := mem_stateVars.2 ⟨hvx, by rw [hcx]; decide⟩
  have hvy' : vy ∈ n.stateVars := mem_stateVars.2 ⟨hvy, by rw [hcy]; decide⟩
  have hpn := perm_last x n.stateVars (stateVars_names hn) vx hvx' ex
  set R := n.stateVars.filter (fun v => v.name ≠ x) with hR
  have hnd : (R.map NVar.name).Nodup := (stateVars_names hn).sublist (List.filter_sublist.map _)
  have hvyR : vy ∈ R := List.mem_filter.2 ⟨hvy', by simp [ey, Ne.symm hm.ne]⟩
  have hpy := perm_last y R hnd vy hvyR ey
  unfold Net.total
  rw [sumWorlds_perm _ hpn _ (stateVars_names hn), sumWorlds_append, ← sumWorlds_bare _ m.stateVars, Absorbs.bare hm,
    sumWorlds_bare]
  refine sumWorlds_congr _ _ hnd (fun w hw hbase => ?_)
  have cn : vx.outcomes.length = n.count x := by rw [← ex, count_eq hn hvx]
  have hall : ∀ k < n.count x, n.Allowed (w.set x k) := by
    intro k hk v hv
    by_cases e : v.name = x
    · rw [e, World.set_eq, ← count_eq hn (mem_stateVars.1 hv).1, e]; exact hk
    · rw [World.set_ne _ e]
      exact hw v (List.mem_filter.2 ⟨hv, by simp [e]⟩)
  have h0 : 0 < n.count x := by rw [← cn]; exact (hn.outcomes vx hvx).1
  simp only [sumWorlds]
  rw [cn, ex]
  obtain ⟨fx, hfx, efx⟩ := hn.hasTable vx hvx (by rw [hcx]; decide)
  have hfx0 : fx ∈ n.chanceTables := mem_chanceTables.2 ⟨hfx, by rw [efx, isKind_iff hn hvx, hcx]⟩
  obtain ⟨fy, hfy, efy⟩ := hn.hasTable vy hvy (by rw [hcy]; decide)
  have hfy0 : fy ∈ n.chanceTables := mem_chanceTables.2 ⟨hfy, by rw [efy, isKind_iff hn hvy, hcy]⟩
  obtain ⟨g, hg, eg, hsum⟩ := hm.sum fx hfx0 fy hfy0 (by rw [efx, ex]) (by rw [efy, ey])
  set Q := R.filter (fun v => v.name ≠ y) with hQ
  have hjn : ∀ w', n.joint [] w' = n.prob fx w' * n.prob fy w' * (Q.map (fun v => n.kernel v w')).prod := by
    intro w'
    rw [joint_kernel hn, (hpn.map _).prod_eq, List.map_append, List.prod_append, (hpy.map _).prod_eq, List.map_append,
      List.prod_append]
    simp only [List.map_cons, List.map_nil, List.prod_cons, List.prod_nil, mul_one,
      kernel_table hn hfx0 (v := vx) efx.symm, kernel_table hn hfy0 (v := vy) efy.symm]
    ring
  have hjm : m.joint [] w = m.prob g w * (Q.map (fun v => m.kernel v w)).prod := by
    have hb : (fun v => m.kernel v w) = (fun v => m.kernel v w) ∘ NVar.bare := rfl
    have h1 : m.stateVars.map (fun v => m.kernel v w) = R.map (fun v => m.kernel v w) := by
      rw [hb, ← List.map_map, Absorbs.bare hm, List.map_map]
    rw [joint_kernel hn', h1, (hpy.map _).prod_eq, List.map_append, List.prod_append, mul_comm]
    simp [kernel_table hn' hg (v := vy) (by rw [ey, eg])]
  -- nothing of the small network depends on `x`
  have hallm : ∀ k < n.count x, ∀ v ∈ Q, n.kernel v (w.set x k) = m.kernel v w := by
    intro k hk v hv
    obtain ⟨hv1, hv2⟩ := List.mem_filter.1 hv
    obtain ⟨hv3, hv4⟩ := List.mem_filter.1 hv1
    simp only [ne_eq, decide_eq_true_eq] at hv2 hv4
    have hv0 := (mem_stateVars.1 hv3).1
    by_cases hc : v.nodeType = .chance
    · obtain ⟨f, hf, ef⟩ := hn.hasTable v hv0 (by rw [hc]; decide)
      have hf0 : f ∈ n.chanceTables := mem_chanceTables.2 ⟨hf, by rw [ef, isKind_iff hn hv0, hc]⟩
      obtain ⟨h, hh, eh, hp⟩ := hm.others f hf0 (by rw [ef]; exact hv4) (by rw [ef]; exact hv2)
      rw [kernel_table hn hf0 ef.symm, kernel_table hn' hh (by rw [eh, ef])]
      have hbl : Blind (n.prob f) x := prob_blind n f (by
        simp only [NFactor.dims, List.mem_append, List.mem_singleton, not_or]
        exact ⟨fun h' => hv2 (by rw [← ef]; exact hm.child f hf0 h'), fun h' => hv4 (by rw [← ef, ← h'])⟩)
      -- both sides at the present value of `x` in some allowed world
      have := hp (w.set x k) (hall k hk)
      rw [← this]
      have hdm : x ∉ h.dims := by
        intro hx
        obtain ⟨hh1, _⟩ := mem_chanceTables.1 hh
        have hkn : ∃ u ∈ m.variables, u.name = x := by
          rcases List.mem_append.1 hx with hx | hx
          · by_cases htn : h.forVar = m.totalName
            · exact absurd htn (chanceTables_notTotal hn' hh)
            · obtain ⟨u, hu, eu, _⟩ := hn'.parents h hh1 htn x hx
              exact ⟨u, hu, eu⟩
          · obtain ⟨u, hu, eu⟩ := hn'.known h hh1
            exact ⟨u, hu, by rw [eu, List.mem_singleton.1 hx]⟩
        obtain ⟨u, hu, eu⟩ := hkn
        obtain ⟨_, _, hne, e1, _⟩ := Absorbs.back hm hu
        exact hne (by rw [← e1, eu])
      exact prob_blind m h hdm w k
    · have h1 : n.isKind .chance v.name = false := by rw [Bool.eq_false_iff, ne_eq, isKind_iff hn hv0]; exact hc
      rw [kernel_none h1, kernel_none (n := m) (by rw [Absorbs.isKind hm _ hv4]; exact h1)]
  have hw0 : w.set x 0 = w := by
    have : w x = 0 := hbase x (by
      intro hx
      obtain ⟨v, hv, e⟩ := List.mem_map.1 hx
      have := (List.mem_filter.1 hv).2
      simp [e] at this)
    rw [← this, World.set_self]
  have hwa : n.Allowed w := by rw [← hw0]; exact hall 0 h0
  have hterm : ∀ k ∈ range (n.count x), n.joint [] (w.set x k) * F (w.set x k) =
      n.prob fx (w.set x k) * n.prob fy (w.set x k) * ((Q.map (fun v => m.kernel v w)).prod * G w) := by
    intro k hk
    have hk := mem_range.1 hk
    rw [hjn, hb w k, hF w hwa, List.map_congr_left (hallm k hk), mul_assoc]
  rw [sum_congr rfl hterm, ← sum_mul, ← hsum w hwa, hjm, mul_assoc]

end Absorb

/-- **C148, queries.** A chance variable that is a parent of one other chance variable only is left out, and the
probabilities of its child are summed over its outcomes. Then the answers for all other variables stay the same, with
any evidence about the others. -/
theorem C148_query [Field α] [CharZero α] [DecidableEq α] (sch sch' : NSched α) {n m : Net α} (hn : n.Valid) (hn' : m.Valid)
    (hpol : n.policies = []) (hpol' : m.policies = []) {x y : String} (hm : n.Absorbs m x y)
    {evidence : List (String × String)} (hev : n.EvidenceOK evidence) (hx : x ∉ evidence.map Prod.fst) {query : List String}
    (hq : ∀ q ∈ query, n.isKind .chance q = true ∧ q ∉ evidence.map Prod.fst ∧ q ≠ x) (ign ign' : Bool)
    (possible : n.mass [] (n.Agrees evidence) ≠ 0) :
    ∃ r f n1 r' f' m1, n.solveQuery sch evidence query ign = (.ok (r, f), n1) ∧
      m.solveQuery sch' evidence query ign' = (.ok (r', f'), m1) ∧
      (r.map Prod.fst).Nodup ∧ (r'.map Prod.fst).Nodup ∧
      (∀ s, s ∈ r.map Prod.fst ↔ s ∈ query) ∧ (∀ s, s ∈ r'.map Prod.fst ↔ s ∈ query) ∧
      ∀ q ∈ query, ∃ d : List α, (q, d) ∈ r ∧ (q, d) ∈ r' := by
  have hbl : Blind (n.Agrees evidence) x := by
    intro w k
    refine propext (forall₂_congr (fun e he => ?_))
    have : e.1 ≠ x := fun h' => hx (by rw [← h']; exact List.mem_map_of_mem he)
    rw [World.set_ne _ this]
  have hmass : n.mass [] (n.Agrees evidence) = m.mass [] (m.Agrees evidence) :=
    Absorbs.total hm hn hn' (fun w k => by simp only [hbl w k]) (fun w hw => by simp only [Absorbs.agrees hm hx])
  have hok : ∀ {m : Net α}, m.Valid → ∀ i, (∀ q ∈ query, m.isKind .chance q = true) → m.QueryOK evidence i query := by
    intro m hm i h
    refine ⟨fun q hq' => ?_, fun q hq' e he e' => (hq q hq').2.1 (e' ▸ List.mem_map_of_mem he), fun q hq' => ?_⟩
    · obtain ⟨v, hv, e1, e2⟩ := isKind_mem.1 (h q hq')
      exact ⟨v, mem_stateVars.2 ⟨hv, by rw [e2]; decide⟩, e1⟩
    · obtain ⟨v, hv, e1, e2⟩ := isKind_mem.1 (h q hq')
      rw [← e1]; exact chance_occurs hm _ hv e2
  have hact : n.active evidence ign = [] := by simp [Net.active, hpol]
  have hact' : m.active evidence ign' = [] := by simp [Net.active, hpol']
  obtain ⟨r, f, n1, a1, a2, a3, a4⟩ := C31_solveQuery_posterior sch hn (by constructor <;> simp [hpol]) hev ign
    (hok hn _ (fun q h => (hq q h).1)) (by rw [hact]; exact possible)
  obtain ⟨r', f', m1, b1, b2, b3, b4⟩ := C31_solveQuery_posterior sch' hn' (by constructor <;> simp [hpol'])
    (Absorbs.evidence hm hx hev) ign' (hok hn' _ (fun q h => by rw [Absorbs.isKind hm _ (hq q h).2.2]; exact (hq q h).1))
    (by rw [hact', ← hmass]; exact possible)
  rw [hact] at a4
  rw [hact'] at b4
  refine ⟨r, f, n1, r', f', m1, a1, b1, a2, b2, a3, b3, fun q hqm => ?_⟩
  obtain ⟨d, c1, c2, c3⟩ := a4 q hqm
  obtain ⟨d', e1, e2, e3⟩ := b4 q hqm
  have hqx := (hq q hqm).2.2
  refine ⟨d, c1, ?_⟩
  have hc : m.count q = n.count q := by
    obtain ⟨v, hv, ev, _⟩ := isKind_mem.1 (hq q hqm).1
    exact Absorbs.count hm hn hn' ⟨v, hv, ev⟩ hqx
  have : d = d' := by
    apply List.ext_getElem?
    intro k
    by_cases hk : k < n.count q
    · rw [c3 k hk, e3 k (by rw [hc]; exact hk), hmass]
      congr 2
      refine Absorbs.total hm hn hn' (fun w j => ?_) (fun w hw => ?_)
      · simp only [hbl w j, World.set_ne _ hqx]
      · simp only [Absorbs.agrees hm hx]
    · rw [List.getElem?_eq_none (by omega), List.getElem?_eq_none (by omega)]
  rw [this]; exact e1

/-- **C148, utilities.** If the utilities do not depend on the variable that is left out, expected utilities stay the
same. -/
theorem C148_utility [Field α] [DecidableEq α] (sch sch' : NSched α) {n m : Net α} (hn : n.Valid) (hn' : m.Valid)
    (hdec : ∀ v ∈ n.variables, v.nodeType ≠ .decision) (hpol : n.policies = []) (hpol' : m.policies = [])
    {x y : String} (hm : n.Absorbs m x y) {u : String}
    (hu : u = "" ∧ n.utilityVars ≠ [] ∨ ∃ v ∈ n.utilityVars, v.name = u)
    (hu' : u = "" ∧ m.utilityVars ≠ [] ∨ ∃ v ∈ m.utilityVars, v.name = u)
    (hsame : ∀ w, n.Allowed w → n.asked u w = m.asked u w) (hfree : ∀ w k, n.asked u (w.set x k) = n.asked u w)
    {evidence : List (String × String)} (hev : n.EvidenceOK evidence) (hx : x ∉ evidence.map Prod.fst) (ign ign' : Bool) :
    ∃ z : α, n.Worth sch evidence u ign z ∧ m.Worth sch' evidence u ign' z := by
  have hs : n.AllSolved := fun v hm h => absurd h (hdec v hm)
  have hs' : m.AllSolved := fun v hv h => by
    obtain ⟨w, hw, _, _, e, _⟩ := Absorbs.back hm hv
    exact absurd (e.symm.trans h) (hdec w hw)
  have hact : n.active evidence ign = [] := by simp [Net.active, hpol]
  have hact' : m.active evidence ign' = [] := by simp [Net.active, hpol']
  have h1 := worth_total sch hn (by constructor <;> simp [hpol]) hs hev hu ign
  have h2 := worth_total sch' hn' (by constructor <;> simp [hpol']) hs' (Absorbs.evidence hm hx hev) hu' ign'
  rw [hact] at h1
  rw [hact'] at h2
  refine ⟨_, h1, ?_⟩
  have hbl : Blind (n.Agrees evidence) x := by
    intro w k
    refine propext (forall₂_congr (fun e he => ?_))
    have : e.1 ≠ x := fun h' => hx (by rw [← h']; exact List.mem_map_of_mem he)
    rw [World.set_ne _ this]
  have : n.total [] (fun w => if n.Agrees evidence w then n.asked u w else 0) =
      m.total [] (fun w => if m.Agrees evidence w then m.asked u w else 0) :=
    Absorbs.total hm hn hn' (fun w k => by simp only [hbl w k, hfree w k])
      (fun w hw => by simp only [Absorbs.agrees hm hx, hsame w hw])
  rw [this]
  exact h2

namespace Ex

/-- Rain, a sprinkler, the grass, and a mood that depends on rain and grass. -/
def yard : Net ℚ where
  name := "yard"
  info := ""
  «variables» := [⟨"Rain", .chance, ["yes", "no"], (0, 0), "", some 0⟩,
    ⟨"Sprinkler", .chance, ["on", "off"], (0, 0), "", some 1⟩, ⟨"Grass", .chance, ["wet", "dry"], (0, 0), "", some 2⟩,
    ⟨"Mood", .utility, ["mood"], (0, 0), "", some 3⟩]
  factors := [⟨"Rain", [], some [20, 80], [], 2⟩, ⟨"Sprinkler", ["Rain"], some [1, 99, 4, 6], [2], 2⟩,
    ⟨"Grass", ["Rain", "Sprinkler"], some [99, 1, 8, 2, 9, 1, 0, 10], [2, 2], 2⟩,
    ⟨"Mood", ["Rain", "Grass"], some [-5, -3, 10, 12], [2, 2], 1⟩]
  policies := []
  vs := none
  names := []
  totalUtility := none

/-- The same without the sprinkler. -/
def yardShort : Net ℚ where
  name := "yard"
  info := ""
  «variables» := [⟨"Rain", .chance, ["yes", "no"], (0, 0), "", some 0⟩,
    ⟨"Grass", .chance, ["wet", "dry"], (0, 0), "", some 1⟩, ⟨"Mood", .utility, ["mood"], (0, 0), "", some 2⟩]
  factors := [⟨"Rain", [], some [1, 4], [], 2⟩, ⟨"Grass", ["Rain"], some [8019, 1981, 36, 64], [2], 2⟩,
    ⟨"Mood", ["Rain", "Grass"], some [-5, -3, 10, 12], [2, 2], 1⟩]
  policies := []
  vs := none
  names := []
  totalUtility := none

theorem yard_valid : yard.Valid where
  names := by decide
  named := by decide
  few := by decide
  outcomes := by decide
  tables := by decide
  hasTable := by decide
  known := by decide
  dims := by decide
  parents := by decide
  size := by
    intro f hf _ _
    simp only [yard, List.mem_cons, List.not_mem_nil, or_false] at hf
    rcases hf with rfl | rfl | rfl | rfl <;> exact ⟨_, rfl, by decide⟩
  single := by decide
  weights := by intro i h; simp [yard] at h

theorem yardShort_valid : yardShort.Valid where
  names := by decide
  named := by decide
  few := by decide
  outcomes := by decide
  tables := by decide
  hasTable := by decide
  known := by decide
  dims := by decide
  parents := by decide
  size := by
    intro f hf _ _
    simp only [yardShort, List.mem_cons, List.not_mem_nil, or_false] at hf
    rcases hf with rfl | rfl | rfl <;> exact ⟨_, rfl, by decide⟩
  single := by decide
  weights := by intro i h; simp [yardShort] at h

theorem yard_allowed {w : World} (hw : yard.Allowed w) : w "Rain" < 2 ∧ w "Sprinkler" < 2 ∧ w "Grass" < 2 :=
  ⟨hw ⟨"Rain", .chance, ["yes", "no"], (0, 0), "", some 0⟩ (by decide),
    hw ⟨"Sprinkler", .chance, ["on", "off"], (0, 0), "", some 1⟩ (by decide),
    hw ⟨"Grass", .chance, ["wet", "dry"], (0, 0), "", some 2⟩ (by decide)⟩

theorem yard_absorbs : yard.Absorbs yardShort "Sprinkler" "Grass" where
  vars := by
    show List.Forall₂ _ [_, _, _] [_, _, _]
    exact .cons (by decide) (.cons (by decide) (.cons (by decide) .nil))
  ne := by decide
  chance := by decide
  child := by decide
  others := by
    intro f hf h1 h2
    have : f = ⟨"Rain", [], some [20, 80], [], 2⟩ := by revert f; decide
    subst this
    refine ⟨⟨"Rain", [], some [1, 4], [], 2⟩, by decide, rfl, fun w hw => ?_⟩
    obtain ⟨h1, h2, h3⟩ := yard_allowed hw
    rw [prob_three yard _ (x := "Rain") (y := "Sprinkler") (z := "Grass") (by decide) w,
      prob_three yardShort _ (x := "Rain") (y := "Sprinkler") (z := "Grass") (by decide) w]
    have key : ∀ a < 2, ∀ b < 2, ∀ c < 2, yardShort.prob ⟨"Rain", [], some [1, 4], [], 2⟩
        (three "Rain" "Sprinkler" "Grass" a b c) = yard.prob ⟨"Rain", [], some [20, 80], [], 2⟩
        (three "Rain" "Sprinkler" "Grass" a b c) := by decide +kernel
    exact key _ h1 _ h2 _ h3
  sum := by
    intro fx hx fy hy ex ey
    have : fx = ⟨"Sprinkler", ["Rain"], some [1, 99, 4, 6], [2], 2⟩ := by clear hy ey; revert fx; decide
    subst this
    have : fy = ⟨"Grass", ["Rain", "Sprinkler"], some [99, 1, 8, 2, 9, 1, 0, 10], [2, 2], 2⟩ := by revert fy; decide
    subst this
    refine ⟨⟨"Grass", ["Rain"], some [8019, 1981, 36, 64], [2], 2⟩, by decide, rfl, fun w hw => ?_⟩
    obtain ⟨h1, h2, h3⟩ := yard_allowed hw
    rw [prob_three yardShort _ (x := "Rain") (y := "Sprinkler") (z := "Grass") (by decide) w]
    have hk : ∀ k ∈ range (yard.count "Sprinkler"),
        yard.prob ⟨"Sprinkler", ["Rain"], some [1, 99, 4, 6], [2], 2⟩ (w.set "Sprinkler" k) *
          yard.prob ⟨"Grass", ["Rain", "Sprinkler"], some [99, 1, 8, 2, 9, 1, 0, 10], [2, 2], 2⟩ (w.set "Sprinkler" k) =
        yard.prob ⟨"Sprinkler", ["Rain"], some [1, 99, 4, 6], [2], 2⟩ (three "Rain" "Sprinkler" "Grass" (w "Rain") k (w "Grass")) *
          yard.prob ⟨"Grass", ["Rain", "Sprinkler"], some [99, 1, 8, 2, 9, 1, 0, 10], [2, 2], 2⟩
            (three "Rain" "Sprinkler" "Grass" (w "Rain") k (w "Grass")) := fun k _ => by
      rw [prob_three yard _ (x := "Rain") (y := "Sprinkler") (z := "Grass") (by decide) (w.set _ _),
        prob_three yard ⟨"Grass", _, _, _, _⟩ (x := "Rain") (y := "Sprinkler") (z := "Grass") (by decide) (w.set _ _)]
      rfl
    rw [Finset.sum_congr rfl hk]
    have key : ∀ a < 2, ∀ b < 2, ∀ c < 2, yardShort.prob ⟨"Grass", ["Rain"], some [8019, 1981, 36, 64], [2], 2⟩
        (three "Rain" "Sprinkler" "Grass" a b c) = ∑ k ∈ range 2,
        yard.prob ⟨"Sprinkler", ["Rain"], some [1, 99, 4, 6], [2], 2⟩ (three "Rain" "Sprinkler" "Grass" a k c) *
          yard.prob ⟨"Grass", ["Rain", "Sprinkler"], some [99, 1, 8, 2, 9, 1, 0, 10], [2, 2], 2⟩
            (three "Rain" "Sprinkler" "Grass" a k c) := by decide +kernel
    exact key _ h1 _ h2 _ h3

end Ex

open Ex in
/-- The hypotheses of `C148_query` are met: rain, given wet grass, with the sprinkler left out. -/
example (sch sch' : NSched ℚ) : ∃ r f n1 r' f' m1, yard.solveQuery sch [("Grass", "wet")] ["Rain"] false = (.ok (r, f), n1) ∧
      yardShort.solveQuery sch' [("Grass", "wet")] ["Rain"] false = (.ok (r', f'), m1) ∧
      ∃ d : List ℚ, ("Rain", d) ∈ r ∧ ("Rain", d) ∈ r' := by
  obtain ⟨r, f, n1, r', f', m1, h1, h2, _, _, _, _, h3⟩ := C148_query sch sch' yard_valid yardShort_valid rfl rfl
    yard_absorbs (evidence := [("Grass", "wet")]) ⟨by decide, by decide⟩ (by decide) (query := ["Rain"]) (by decide)
    false false (by decide +kernel)
  exact ⟨r, f, n1, r', f', m1, h1, h2, h3 "Rain" (by simp)⟩

open Ex in
/-- What the two networks answer. -/
example : (yard.solveQuery back [("Grass", "wet")] ["Rain"] false).1.toOption.map Prod.fst =
      some [("Rain", [891 / 2491, 1600 / 2491])] ∧
    (yardShort.solveQuery back [("Grass", "wet")] ["Rain"] false).1.toOption.map Prod.fst =
      some [("Rain", [891 / 2491, 1600 / 2491])] := by
  decide +kernel

open Ex in
/-- The hypotheses of `C148_utility` are met. -/
example (sch sch' : NSched ℚ) : ∃ z : ℚ, yard.Worth sch [("Grass", "wet")] "Mood" false z ∧
    yardShort.Worth sch' [("Grass", "wet")] "Mood" false z :=
  C148_utility sch sch' yard_valid yardShort_valid (by decide) rfl rfl yard_absorbs (.inr (by decide)) (.inr (by decide))
    (fun _ _ => rfl) (fun w k => by simp [Net.asked, Net.utilityIn, Net.entry, yard, NFactor.dims, World.set])
    ⟨by decide, by decide⟩ (by decide) false false

end Bbn
