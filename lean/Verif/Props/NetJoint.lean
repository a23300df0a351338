import Verif.Lemmas.NetJoint
import Verif.Props.NetRearrange
import Verif.Props.NetQuery
import Verif.Lemmas.TrainHits
import Verif.Lemmas.NetPolicies

/-!
# C122: the factor of `SolveQuery` is the joint posterior distribution
-/

set_option autoImplicit false

namespace Bbn

open Finset

variable {α : Type}

theorem ids_scope {n : Net α} {g : Factor α} (h : ∀ w ∈ g.vars, ∃ v, n.variables[w.id]? = some v) (x y : World) :
    (∀ v ∈ g.vars, n.ids x v.id = n.ids y v.id) ↔ ∀ s ∈ n.scopeNames g, x s = y s := by
  unfold Net.scopeNames
  simp only [List.mem_map, forall_exists_index, and_imp, forall_apply_eq_imp_iff₂]
  refine forall_congr' fun v => forall_congr' fun hv => ?_
  obtain ⟨u, hu⟩ := h v hv
  simp [Net.ids, hu]

/-- What is asked for, what is still to be decided, and what is known then. -/
def Net.Asked (n : Net α) (query : List String) (s : String) : Prop :=
  s ∈ query ∨ ∃ v ∈ n.variables, v.nodeType = .decision ∧ n.hasPolicy v.name = false ∧
    (s = v.name ∨ ∃ f ∈ n.factors, f.forVar = v.name ∧ s ∈ f.given)

theorem solveQuery_joint [Field α] [CharZero α] [DecidableEq α] (sch : NSched α) {n : Net α} (hn : n.Valid)
    (hp : n.PoliciesOK) {evidence : List (String × String)} (hev : n.EvidenceOK evidence) {query : List String}
    (ign : Bool) (hq : n.QueryOK evidence ign query) :
    ∃ r f vs, n.solveQuery sch evidence query ign =
        (.ok (r, f), { n with vs := some vs, names := n.nameTable }) ∧ f.WF ∧
      (∀ w ∈ f.vars, ∃ v ∈ n.stateVars, n.variables[w.id]? = some v ∧ w.outcomes = v.outcomes.length) ∧
      (n.scopeNames f).Nodup ∧ (∀ s ∈ query, s ∈ n.scopeNames f) ∧ (∀ s ∈ n.scopeNames f, n.Asked query s) ∧
      ∃ C : α, C ≠ 0 ∧
        (∀ w : World, (∀ s ∈ n.scopeNames f, w s < n.count s) → n.mass (n.active evidence ign)
          (fun x => n.Agrees evidence x ∧ ∀ s ∈ n.scopeNames f, x s = w s) = C * f.val (n.ids w)) ∧
        n.mass (n.active evidence ign) (n.Agrees evidence) = C * goSum f.data := by
  obtain ⟨vs, fs, ps, deps, g, vs1, h1, hS, hg, hgv, hgval⟩ := solve_query sch hn hp hev hq.state ign
  have hl := sch.ev_perm evidence
  have hperm := active_perm sch 0 n evidence ign
  obtain ⟨hst, C, hC, hJ, hT⟩ := joint_posterior hn hp hev hl hperm hS hg hgv hgval
  have hvar : ∀ w ∈ g.vars, ∃ v ∈ n.stateVars, n.variables[w.id]? = some v ∧ w = n.varOf v.name ∧
      w.outcomes = v.outcomes.length := by
    intro w hw
    obtain ⟨v, hv, rfl⟩ := List.mem_map.1 (hst w hw)
    obtain ⟨hv1, hv2⟩ := mem_stateVars.1 hv
    obtain ⟨i, k1⟩ := List.getElem?_of_mem hv1
    have k3 : n.totalUtility ≠ some i := fun e => state_notTotal hn hv1 hv2 ((totalName_iff hn k1).2 e)
    refine ⟨v, hv, ?_, rfl, ?_⟩
    · rw [varOf_eq hn k1 k3]; exact k1
    · rw [varOf_eq hn k1 k3]; rfl
  have hin : ∀ q ∈ query, n.varOf q ∈ g.vars := by
    intro q hqm
    obtain ⟨v, hv, rfl⟩ := hq.state q hqm
    have hocc : n.Occurs (sch.active 0 n evidence ign) v.name := by
      rcases hq.occurs v.name hqm with h | ⟨p, hp1, h⟩
      · exact .inl h
      · exact .inr ⟨p, hperm.symm.subset hp1, h⟩
    exact (posterior hn hp hev hl hperm hS hg hgv hgval hv (List.mem_map_of_mem hqm) (hq.free v.name hqm) hocc).1
  obtain ⟨r, vs', r1, _, _⟩ := queryLoop_spec hn hg query [] { n with vs := some vs1, names := n.nameTable } vs1 rfl rfl
    (fun q hqm => ⟨hq.state q hqm, hin q hqm⟩)
  have hids : ∀ w ∈ g.vars, ∃ v, n.variables[w.id]? = some v := fun w hw => by
    obtain ⟨v, _, h, _⟩ := hvar w hw
    exact ⟨v, h⟩
  refine ⟨r, g, vs', ?_, hg, fun w hw => ?_, ?_, ?_, ?_, C, hC, fun w hw => ?_, hT⟩
  · unfold Net.solveQuery
    rw [h1]
    dsimp only
    rw [r1]
  · obtain ⟨v, a, b, _, c⟩ := hvar w hw
    exact ⟨v, a, b, c⟩
  · refine List.Nodup.of_map (fun s => (n.varOf s).id) ?_
    have e : (n.scopeNames g).map (fun s => (n.varOf s).id) = g.vars.map Var.id := by
      unfold Net.scopeNames
      rw [List.map_map]
      apply List.map_congr_left
      intro w hw
      obtain ⟨v, _, b, c, _⟩ := hvar w hw
      simp only [Function.comp_apply, b, Option.map_some, Option.getD_some]
      rw [← c]
    rw [e]
    exact hg.nodup
  · intro s hs
    obtain ⟨v, _, b, c, _⟩ := hvar _ (hin s hs)
    obtain ⟨u, hu, e⟩ := hq.state s hs
    obtain ⟨hu1, hu2⟩ := mem_stateVars.1 hu
    refine List.mem_map.2 ⟨_, hin s hs, ?_⟩
    subst e
    obtain ⟨i, k1⟩ := List.getElem?_of_mem hu1
    have k3 : n.totalUtility ≠ some i := fun e => state_notTotal hn hu1 hu2 ((totalName_iff hn k1).2 e)
    rw [varOf_eq hn k1 k3]
    simp [Net.solverVar, k1]
  · intro s hs
    obtain ⟨w, hw, e⟩ := List.mem_map.1 hs
    obtain ⟨v, hv, b, c, _⟩ := hvar w hw
    obtain ⟨hv1, hv2⟩ := mem_stateVars.1 hv
    simp only [b, Option.map_some, Option.getD_some] at e
    subst e
    obtain ⟨⟨f, hf, hwf⟩, he, hh⟩ := (hgv w).1 hw
    have hwR := ((mem_stateSolver hn hS.vars).1 (hst w hw)).1
    by_contra hno
    simp only [Net.Asked, not_or, not_exists, not_and] at hno
    obtain ⟨hno1, hno2⟩ := hno
    have hty : w.nodeType = .chance := by
      have k3 : n.totalUtility ≠ some w.id := fun e => state_notTotal hn hv1 hv2 ((totalName_iff hn b).2 e)
      rw [c, varOf_eq hn b k3]
      simp only [Net.solverVar, Net.solverType]
      split_ifs with hd
      · rfl
      · cases hk : v.nodeType with
        | chance => rfl
        | utility => exact absurd hk hv2
        | decision =>
          have hpol : n.hasPolicy v.name = false := by
            cases h : n.hasPolicy v.name with
            | false => rfl
            | true => exact absurd ⟨hk, h⟩ hd
          exact absurd rfl (hno2 v hv1 hk hpol).1
    apply hh
    simp only [hidden, List.mem_filter, decide_eq_true_eq]
    refine ⟨hwR, hty, he, ?_, ?_⟩
    · intro q hqm hid
      obtain ⟨s, hs, rfl⟩ := List.mem_map.1 hqm
      obtain ⟨u, hu, rfl⟩ := hq.state s hs
      obtain ⟨hu1, hu2⟩ := mem_stateVars.1 hu
      rw [c] at hid
      have := Net.IsVar.inj hn (isVar_state hn hu1 hu2) (isVar_state hn hv1 hv2) hid
      exact hno1 (this ▸ hs)
    · intro d hd hdd x hx hid
      rw [hS.deps_eq] at hd
      obtain ⟨f, hf, rfl⟩ := List.mem_map.1 hd
      obtain ⟨hf1, hf2⟩ := List.mem_filter.1 hf
      obtain ⟨s, hs, rfl⟩ := List.mem_map.1 hx
      have hsv := isOpen_dims hn hf1 hf2 s (by simp [NFactor.dims, hs])
      simp only [Net.isOpen, decide_eq_true_eq] at hf2
      obtain ⟨u, hu, u1, u2⟩ := isKind_mem.1 hf2.1
      rw [c] at hid
      have := Net.IsVar.inj hn hsv (isVar_state hn hv1 hv2) hid
      exact (hno2 u hu u2 (u1 ▸ hf2.2)).2 f hf1 u1.symm (this ▸ hs)
  · have hσ : Fits (n.ids w) g.vars := by
      intro x hx
      obtain ⟨v, a, b, _, c⟩ := hvar x hx
      rw [c, ← count_eq hn (List.mem_of_getElem? b)]
      simp only [Net.ids, b]
      exact hw v.name (List.mem_map.2 ⟨x, hx, by simp [b]⟩)
    rw [← hJ _ hσ]
    unfold Net.mass
    congr 1
    funext x
    simp only [ids_scope hids]

/-- **C122.** The factor that `SolveQuery` returns has every variable that is asked for, each once; the only others are
decisions that have no policy, and their parents. Normalised with `Normalize`, it contains for every combination of outcomes
of its variables the posterior probability that they occur together. -/
theorem C122_joint [Field α] [CharZero α] [DecidableEq α] (sch : NSched α) {n : Net α} (hn : n.Valid)
    (hp : n.PoliciesOK) {evidence : List (String × String)} (hev : n.EvidenceOK evidence) {query : List String}
    (ign : Bool) (hq : n.QueryOK evidence ign query)
    (_possible : n.mass (n.active evidence ign) (n.Agrees evidence) ≠ 0) :
    ∃ r f n1 h n2, n.solveQuery sch evidence query ign = (.ok (r, f), n1) ∧ n1.normalize f = (.ok h, n2) ∧
      (n.scopeNames h).Nodup ∧ (∀ s ∈ query, s ∈ n.scopeNames h) ∧ (∀ s ∈ n.scopeNames h, n.Asked query s) ∧
      ∀ w : World, (∀ s ∈ n.scopeNames h, w s < n.count s) → h.get (ints ((n.scopeNames h).map w)) =
        .ok (n.mass (n.active evidence ign) (fun x => n.Agrees evidence x ∧ ∀ s ∈ n.scopeNames h, x s = w s) /
          n.mass (n.active evidence ign) (n.Agrees evidence)) := by
  obtain ⟨r, f, vs, h1, hf, hv, a1, a2, a3, C, hC, a4, a5⟩ := solveQuery_joint sch hn hp hev ign hq
  obtain ⟨h, k1, k2, _, k4, _, k6⟩ := normalize_spec vs f hf
  have hsc : n.scopeNames h = n.scopeNames f := by unfold Net.scopeNames; rw [k4]
  refine ⟨r, f, _, h, { n with vs := some { vs with factorCounter := vs.factorCounter + 1 }, names := n.nameTable }, h1,
    ?_, by rw [hsc]; exact a1, by rw [hsc]; exact a2, by rw [hsc]; exact a3, fun w hw => ?_⟩
  · simp only [Net.normalize, Net.withVs, k1]
  · rw [hsc] at hw ⊢
    have hσ : Fits (n.ids w) f.vars := by
      intro x hx
      obtain ⟨v, _, b, c⟩ := hv x hx
      rw [c, ← count_eq hn (List.mem_of_getElem? b)]
      simp only [Net.ids, b]
      exact hw v.name (List.mem_map.2 ⟨x, hx, by simp [b]⟩)
    have ht : (n.scopeNames f).map w = tupleOf h.vars (n.ids w) := by
      unfold Net.scopeNames tupleOf
      rw [k4, List.map_map]
      apply List.map_congr_left
      intro x hx
      obtain ⟨v, _, b, _⟩ := hv x hx
      simp [Net.ids, b]
    rw [ht, get_eq_val k2 (by rw [k4]; exact hσ), k6 _ hσ, a4 w hw, a5, mul_div_mul_left _ _ hC]

/-- **C122, as a table.** If every decision has a policy, `Rearrange` to the order of the query and `Normalize` give the
table of the joint posterior probabilities in row-major order, the last query variable changing fastest. -/
theorem C122_table [Field α] [CharZero α] [DecidableEq α] (sch : NSched α) {n : Net α} (hn : n.Valid)
    (hp : n.PoliciesOK) (hall : ∀ v ∈ n.variables, v.nodeType = .decision → n.hasPolicy v.name = true)
    {evidence : List (String × String)} (hev : n.EvidenceOK evidence) {query : List String} (hne : query ≠ [])
    (hnd : query.Nodup) (ign : Bool) (hq : n.QueryOK evidence ign query)
    (_possible : n.mass (n.active evidence ign) (n.Agrees evidence) ≠ 0) :
    ∃ r f n1 g n2 h n3, n.solveQuery sch evidence query ign = (.ok (r, f), n1) ∧ n1.rearrange f query = (.ok g, n2) ∧
      n2.normalize g = (.ok h, n3) ∧ n.scopeNames h = query ∧ h.data.length = (query.map n.count).prod ∧
      ∀ w : World, (∀ s ∈ query, w s < n.count s) → h.data[rowMajor (query.map (fun s => (n.count s, w s)))]? =
        some (n.mass (n.active evidence ign) (fun x => n.Agrees evidence x ∧ ∀ s ∈ query, x s = w s) /
          n.mass (n.active evidence ign) (n.Agrees evidence)) := by
  obtain ⟨r, f, vs, h1, hf, hv, a1, a2, a3, C, hC, a4, a5⟩ := solveQuery_joint sch hn hp hev ign hq
  have hback : ∀ s ∈ n.scopeNames f, s ∈ query := by
    intro s hs
    rcases a3 s hs with h | ⟨v, hv1, hv2, hv3, _⟩
    · exact h
    · rw [hall v hv1 hv2] at hv3; cases hv3
  obtain ⟨names, last, rfl⟩ : ∃ names last, query = names ++ [last] :=
    ⟨query.dropLast, query.getLast hne, (List.dropLast_append_getLast hne).symm⟩
  obtain ⟨g, vs', g1, g2, g3, g4, g5⟩ := rearrange_ready hn vs hf (fun w hw => by
    obtain ⟨v, a, b, _⟩ := hv w hw
    obtain ⟨c, d⟩ := mem_stateVars.1 a
    exact ⟨v, b, state_notTotal hn c d⟩) hnd a2
  have hsg : n.scopeNames g = names ++ [last] := by
    rw [g3, List.filter_eq_nil_iff.2, List.append_nil]
    intro s hs
    simp [hback s hs]
  obtain ⟨h, k1, k2, _, k4, k5, k6⟩ := normalize_spec vs' g g2
  have hsc : n.scopeNames h = names ++ [last] := by rw [← hsg]; unfold Net.scopeNames; rw [k4]
  have hgv : ∀ w ∈ h.vars, ∃ v, n.variables[w.id]? = some v ∧ w.outcomes = v.outcomes.length := by
    intro w hw
    obtain ⟨v, _, b, c⟩ := hv w (g4.subset (k4 ▸ hw))
    exact ⟨v, b, c⟩
  have hat : h.vars.map n.nameAt = names ++ [last] := hsc
  have hlen : h.data.length = ((names ++ [last]).map n.count).prod := by
    rw [k2.len, size_nameAt hn hgv, hat]
  refine ⟨r, f, _, g, _, h, { n with vs := some { vs' with factorCounter := vs'.factorCounter + 1 }, names := n.nameTable }, h1,
    g1, ?_, hsc, hlen, fun w hw => ?_⟩
  · simp only [Net.normalize, Net.withVs, k1]
  · have hσ : Fits (n.ids w) f.vars := by
      intro x hx
      obtain ⟨v, _, b, c⟩ := hv x hx
      rw [c, ← count_eq hn (List.mem_of_getElem? b)]
      simp only [Net.ids, b]
      exact hw v.name (hback _ (List.mem_map.2 ⟨x, hx, by simp [b]⟩))
    have hσg : Fits (n.ids w) g.vars := fun x hx => hσ x (g4.subset hx)
    have hsum : goSum g.data = goSum f.data := by
      rw [goSum_data g g2 (fun _ => 0), goSum_data f hf (fun _ => 0), sumOver_perm g4 g2.nodup]
      exact sumOver_congr (fun τ _ ht => g5 τ ht) hf.nodup
    have hmass : n.mass (n.active evidence ign) (fun x => n.Agrees evidence x ∧ ∀ s ∈ names ++ [last], x s = w s) =
        n.mass (n.active evidence ign) (fun x => n.Agrees evidence x ∧ ∀ s ∈ n.scopeNames f, x s = w s) := by
      unfold Net.mass
      congr 1
      funext x
      have : (∀ s ∈ names ++ [last], x s = w s) ↔ ∀ s ∈ n.scopeNames f, x s = w s :=
        ⟨fun h s hs => h s (hback s hs), fun h s hs => h s (a2 s hs)⟩
      simp only [this]
    have hlt : rowMajor ((names ++ [last]).map (fun s => (n.count s, w s))) < h.data.length := by
      rw [hlen]
      refine lt_of_lt_of_eq (rowMajor_lt _ ?_) ?_
      · intro d hd
        obtain ⟨s, hs, rfl⟩ := List.mem_map.1 hd
        exact hw s hs
      · rw [List.map_map]; rfl
    have hval : h.val (n.ids w) = h.data.getD (rowMajor ((names ++ [last]).map (fun s => (n.count s, w s)))) 0 := by
      unfold Factor.val
      rw [flatIndex_nameAt hn w hgv, hat]
    have e : h.data[rowMajor ((names ++ [last]).map (fun s => (n.count s, w s)))]? = some (h.val (n.ids w)) := by
      rw [hval, List.getD_eq_getElem?_getD, List.getElem?_eq_getElem hlt]
      rfl
    rw [e, k6 _ hσg, g5 _ hσ, hmass, a4 w (fun s hs => hw s (hback s hs)), a5, hsum, mul_div_mul_left _ _ hC]

theorem rowMajor_surj (c : String → Nat) : ∀ (l : List String), l.Nodup → ∀ k < (l.map c).prod,
    ∃ w : World, (∀ s ∈ l, w s < c s) ∧ rowMajor (l.map (fun s => (c s, w s))) = k := by
  intro l
  induction l with
  | nil => intro _ k hk; exact ⟨fun _ => 0, by simp, by simp at hk; simp [rowMajor, hk]⟩
  | cons s l ih =>
    intro hnd k hk
    rw [List.nodup_cons] at hnd
    simp only [List.map_cons, List.prod_cons] at hk
    have hpos : 0 < (l.map c).prod := Nat.pos_of_ne_zero (fun e => by simp [e] at hk)
    obtain ⟨w, h1, h2⟩ := ih hnd.2 (k % (l.map c).prod) (Nat.mod_lt _ hpos)
    refine ⟨fun t => if t = s then k / (l.map c).prod else w t, ?_, ?_⟩
    · intro t ht
      dsimp only
      split_ifs with e
      · subst e; exact (Nat.div_lt_iff_lt_mul hpos).2 hk
      · rcases List.mem_cons.1 ht with e' | ht
        · exact absurd e' e
        · exact h1 t ht
    · have e1 : l.map (fun t => (c t, if t = s then k / (l.map c).prod else w t)) = l.map (fun t => (c t, w t)) := by
        apply List.map_congr_left
        intro t ht
        rw [if_neg (fun e => hnd.1 (by rw [← e]; exact ht))]
      simp only [List.map_cons, rowMajor, if_true]
      rw [e1, h2, List.map_map]
      exact Nat.div_add_mod' k _

/-- **C122, every run the same.** The table in the order of the query does not depend on the order in which maps are
iterated. (The order of the variables in the factor itself may: `C123_refuted_query`.) -/
theorem C122_repeat [Field α] [CharZero α] [DecidableEq α] (sch sch' : NSched α) {n : Net α} (hn : n.Valid)
    (hp : n.PoliciesOK) (hall : ∀ v ∈ n.variables, v.nodeType = .decision → n.hasPolicy v.name = true)
    {evidence : List (String × String)} (hev : n.EvidenceOK evidence) {query : List String} (hne : query ≠ [])
    (hnd : query.Nodup) (ign : Bool) (hq : n.QueryOK evidence ign query)
    (possible : n.mass (n.active evidence ign) (n.Agrees evidence) ≠ 0) :
    ∃ r f n1 g n2 h n3 r' f' n1' g' n2' h' n3', n.solveQuery sch evidence query ign = (.ok (r, f), n1) ∧
      n1.rearrange f query = (.ok g, n2) ∧ n2.normalize g = (.ok h, n3) ∧
      n.solveQuery sch' evidence query ign = (.ok (r', f'), n1') ∧
      n1'.rearrange f' query = (.ok g', n2') ∧ n2'.normalize g' = (.ok h', n3') ∧
      n.scopeNames h' = n.scopeNames h ∧ h'.data = h.data := by
  obtain ⟨r, f, n1, g, n2, h, n3, a1, a2, a3, a4, a5, a6⟩ := C122_table sch hn hp hall hev hne hnd ign hq possible
  obtain ⟨r', f', n1', g', n2', h', n3', b1, b2, b3, b4, b5, b6⟩ := C122_table sch' hn hp hall hev hne hnd ign hq possible
  refine ⟨r, f, n1, g, n2, h, n3, r', f', n1', g', n2', h', n3', a1, a2, a3, b1, b2, b3, by rw [a4, b4], ?_⟩
  apply List.ext_getElem?
  intro k
  by_cases hk : k < (query.map n.count).prod
  · obtain ⟨w, w1, rfl⟩ := rowMajor_surj n.count query hnd k hk
    rw [a6 w w1, b6 w w1]
  · rw [List.getElem?_eq_none (by omega), List.getElem?_eq_none (by omega)]

/-- A case: rain and sprinkler together, given wet grass, with every map iterated backwards. -/
example : ∃ r f n1 g n2 h n3, Ex.spr.solveQuery Ex.back Ex.wet ["Rain", "Sprinkler"] false = (.ok (r, f), n1) ∧
    n1.rearrange f ["Rain", "Sprinkler"] = (.ok g, n2) ∧ n2.normalize g = (.ok h, n3) ∧
    Ex.spr.scopeNames h = ["Rain", "Sprinkler"] ∧ h.data.length = 4 ∧ h.data[0]? = some (11/2491 : ℚ) := by
  obtain ⟨r, f, n1, g, n2, h, n3, h1, h2, h3, h4, h5, h6⟩ := C122_table Ex.back Ex.spr_valid (Ex.noPolicies rfl) (by decide)
    Ex.wet_ok (query := ["Rain", "Sprinkler"]) (by decide) (by decide) false ⟨by decide, by decide, by
      intro q hq
      simp only [List.mem_cons, List.not_mem_nil, or_false] at hq
      rcases hq with rfl | rfl
      · exact chance_occurs Ex.spr_valid _ (v := ⟨"Rain", .chance, ["yes", "no"], (0, 0), "", some 0⟩) (by decide) rfl
      · exact chance_occurs Ex.spr_valid _ (v := ⟨"Sprinkler", .chance, ["on", "off"], (0, 0), "", some 1⟩) (by decide) rfl⟩
    (by decide +kernel)
  refine ⟨r, f, n1, g, n2, h, n3, h1, h2, h3, h4, h5, (h6 (fun _ => 0) (by decide)).trans ?_⟩
  decide +kernel

end Bbn
