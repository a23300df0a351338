import Verif.Spec.ExtNum
import Verif.Lemmas.TransferNet
import Verif.Lemmas.TuiOk

/-!
# C32: impossible evidence
-/

set_option autoImplicit false

namespace Bbn

open Finset

variable {K : Type}

theorem Ext.embeds [Field K] [LinearOrder K] : Embeds (Ext.fin : K → Ext K) (fun _ => True) where
  zero := rfl
  one := rfl
  add _ _ := rfl
  mul _ _ := rfl
  div a b _ hb := by
    show _ = (if b = 0 then _ else _)
    rw [if_neg hb]
  eq_zero x _ := by
    rw [show (0 : Ext K) = Ext.fin 0 from rfl]
    exact ⟨fun h => Ext.fin.inj h, fun h => congrArg _ h⟩
  pzero := trivial
  padd _ _ _ _ := trivial

theorem anyEntries (n : Net K) : n.ChanceEntries (fun _ => True) := fun _ _ _ _ _ _ _ _ _ _ _ => trivial

theorem marginal_raw [Field K] (vs : Vs) {g : Factor K} (hg : g.WF) {v : Var} (hv : v ∈ g.vars) :
    ∃ m vs', vs.marginal g v = .ok (m, vs') ∧ m.vars = [v] ∧ m.data = (List.range v.outcomes).map (margOf g v) := by
  obtain ⟨m, h1, h2, _, h4, h5⟩ := marginal_spec vs g hg v hv
  refine ⟨m, _, h1, h4, ?_⟩
  have hlen : m.data.length = v.outcomes := by rw [h2.len, h4]; simp [size]
  apply List.ext_getElem
  · simp [hlen]
  · intro k hk hk'
    have hk2 : k < v.outcomes := by rw [← hlen]; exact hk
    have := h5 (Assignment.upd (fun _ => 0) v.id k)
      (by rw [h4]; intro u hu; simp at hu; subst hu; simpa [Assignment.upd] using hk2)
    simp only [List.getElem_map, List.getElem_range]
    unfold margOf
    rw [← this]
    unfold Factor.val
    have e : flatIndex m.vars (tupleOf m.vars (Assignment.upd (fun _ => 0) v.id k)) = k := by
      rw [h4]; simp [tupleOf, flatIndex, indexLoop, Assignment.upd]
    rw [e, List.getD_eq_getElem?_getD, List.getElem?_eq_getElem hk, Option.getD_some]

/-- The answer for one variable, before it is known whether the sum is 0. -/
def extPost [Field K] [LinearOrder K] (g : Factor K) (v : Var) : List (Ext K) :=
  (List.range v.outcomes).map (fun k => Ext.fin (margOf g v k) / Ext.fin (∑ j ∈ range v.outcomes, margOf g v j))

theorem queryLoop_ext [Field K] [LinearOrder K] {n : Net K} (hn : n.Valid) {g : Factor K} (hg : g.WF) :
    ∀ (qs : List String) (result : List (String × List (Ext K))) (m : Net K) (vs : Vs), m.names = n.nameTable →
    m.vs = some vs → (∀ q ∈ qs, (∃ v ∈ n.stateVars, v.name = q) ∧ n.varOf q ∈ g.vars) →
    ∃ r n', Net.queryLoop (g.mapNum .fin) qs result (m.mapNum .fin) = (.ok r, n') ∧
      ((result.map Prod.fst).Nodup → (r.map Prod.fst).Nodup) ∧
      ∀ s, mapGet r s = if s ∈ qs then some (extPost g (n.varOf s)) else mapGet result s := by
  intro qs
  induction qs with
  | nil =>
    intro result m vs h1 h2 _
    exact ⟨result, _, rfl, id, by simp⟩
  | cons q qs ih =>
    intro result m vs h1 h2 h3
    obtain ⟨⟨v, hv, rfl⟩, hqg⟩ := h3 q List.mem_cons_self
    obtain ⟨hv1, hv2⟩ := mem_stateVars.1 hv
    obtain ⟨mm, vs1, a1, a2, a3⟩ := marginal_raw vs hg hqg
    have e1 : m.marginal g v.name = (.ok mm, { m with vs := some vs1 }) := by
      unfold Net.marginal Net.withVs
      rw [h1, get_state hn hv1 (state_notTotal hn hv1 hv2)]
      dsimp only
      rw [h2]
      dsimp only
      rw [a1]
    have hsz : mm.data.length = size mm.vars := by rw [a2, a3]; simp [size]
    have e2 : ∃ m' vs2, (({ m with vs := some vs1 } : Net K).mapNum Ext.fin).normalize (mm.mapNum Ext.fin) =
        (.ok m', ({ m with vs := some vs2 } : Net K).mapNum Ext.fin) ∧ m'.data = extPost g (n.varOf v.name) := by
      refine ⟨⟨vs1.factorCounter, (mm.data.map Ext.fin).map (· / goSum (mm.data.map Ext.fin)), mm.vars⟩,
        { vs1 with factorCounter := vs1.factorCounter + 1 }, ?_, ?_⟩
      · unfold Net.normalize Net.withVs Net.mapNum
        dsimp only
        unfold Vs.normalize Vs.createFactor
        dsimp only [Factor.mapNum]
        rw [if_neg]
        · rfl
        · rw [List.length_map, hsz]
          exact fun h => h rfl
      · have hs : goSum mm.data = ∑ j ∈ range (n.varOf v.name).outcomes, margOf g (n.varOf v.name) j := by
          rw [goSum_eq_sum, a3, List.length_map, List.length_range]
          refine Finset.sum_congr rfl (fun k hk => ?_)
          have := Finset.mem_range.1 hk
          simp [this]
        dsimp only
        rw [goSum_map Ext.embeds, hs, a3]
        unfold extPost
        rw [List.map_map, List.map_map]
        rfl
    obtain ⟨m', vs2, a4, a5⟩ := e2
    obtain ⟨r, n', b1, b2, b3⟩ := ih (mapSet result v.name m'.data) { m with vs := some vs2 } vs2 h1 rfl
      (fun q hq => h3 q (List.mem_cons_of_mem _ hq))
    refine ⟨r, n', ?_, fun h => b2 (mapSet_keys h), ?_⟩
    · unfold Net.queryLoop
      rw [netMarginal_map Ext.embeds, e1]
      dsimp only [callMap, Except.map]
      rw [a4]
      dsimp only
      rw [b1]
    · intro s
      rw [b3, mapGet_mapSet, a5]
      by_cases hs : s ∈ qs
      · simp [hs]
      · by_cases hs2 : s = v.name
        · simp [hs2]
        · simp [hs, hs2]

theorem solveQuery_ext [Field K] [LinearOrder K] [CharZero K] (sch : NSched (Ext K)) {n : Net K} (hn : n.Valid)
    (hp : n.PoliciesOK) {evidence : List (String × String)} (hev : n.EvidenceOK evidence) {query : List String}
    (ign : Bool) (hq : n.QueryOK evidence ign query) :
    ∃ r f n', (n.mapNum .fin).solveQuery sch evidence query ign = (.ok (r, f), n') ∧ (r.map Prod.fst).Nodup ∧
      (∀ s, s ∈ r.map Prod.fst ↔ s ∈ query) ∧
      ∀ q ∈ query, ∃ (N : Nat → K) (C : K), C ≠ 0 ∧
        (q, (List.range (n.count q)).map (fun k => Ext.fin (N k) / Ext.fin (∑ j ∈ range (n.count q), N j))) ∈ r ∧
        (∀ k < n.count q, n.mass (n.active evidence ign) (fun w => n.Agrees evidence w ∧ w q = k) = C * N k) ∧
        n.mass (n.active evidence ign) (n.Agrees evidence) = C * ∑ j ∈ range (n.count q), N j := by
  obtain ⟨vs, fs, ps, deps, g, vs1, h1, hS, hg, hgv, hgval⟩ :=
    solve_query (sch.cast K) hn hp hev hq.state ign
  have hl := (sch.cast K).ev_perm evidence
  have hperm := active_perm (sch.cast K) 0 n evidence ign
  have key : ∀ q ∈ query, ∃ v ∈ n.stateVars, v.name = q ∧ n.varOf q ∈ g.vars ∧ ∃ C : K, C ≠ 0 ∧
      (∀ k < v.outcomes.length, n.mass (n.active evidence ign) (fun w => n.Agrees evidence w ∧ w q = k) =
        C * margOf g (n.varOf q) k) ∧
      n.mass (n.active evidence ign) (n.Agrees evidence) =
        C * ∑ k ∈ range v.outcomes.length, margOf g (n.varOf q) k := by
    intro q hqm
    obtain ⟨v, hv, rfl⟩ := hq.state q hqm
    have hocc : n.Occurs ((sch.cast K).active 0 n evidence ign) v.name := by
      rcases hq.occurs v.name hqm with h | ⟨p, hp1, h⟩
      · exact .inl h
      · exact .inr ⟨p, hperm.symm.subset hp1, h⟩
    obtain ⟨a, C, b1, b2, b3⟩ := posterior hn hp hev hl hperm hS hg hgv hgval hv (List.mem_map_of_mem hqm)
      (hq.free v.name hqm) hocc
    exact ⟨v, hv, rfl, a, C, b1, b2, b3⟩
  obtain ⟨r, n', r1, r2, r3⟩ := queryLoop_ext hn hg query [] { n with vs := some vs1, names := n.nameTable } vs1 rfl rfl
    (fun q hqm => ⟨hq.state q hqm, by obtain ⟨_, _, _, h, _⟩ := key q hqm; exact h⟩)
  refine ⟨r, g.mapNum .fin, n', ?_, r2 (by simp), ?_, ?_⟩
  · unfold Net.solveQuery
    rw [solve_map Ext.embeds _ _ (anyEntries _), h1]
    dsimp only [callMap, Except.map]
    rw [r1]
  · intro s
    rw [← mapGet_isSome, r3]
    by_cases hs : s ∈ query
    · simp [hs]
    · simp [hs, mapGet]
  · intro q hqm
    obtain ⟨v, hv, rfl, hvg, C, b1, b2, b3⟩ := key q hqm
    have hv1 := mem_stateVars.1 hv
    have hcount := count_eq hn hv1.1
    have hout : (n.varOf v.name).outcomes = n.count v.name := (isVar_state hn hv1.1 hv1.2).outcomes hn
    refine ⟨margOf g (n.varOf v.name), C, b1, ?_, by rw [hcount]; exact b2, by rw [hcount]; exact b3⟩
    have := mapGet_some (m := r) (k := v.name) (by rw [r3, if_pos hqm])
    unfold extPost at this
    rwa [hout] at this

/-- **C32.** If the worlds that agree with the evidence have total weight 0, `Network.SolveQuery` returns, without
error, NaN for each outcome of each query variable. -/
theorem C32_impossible [Field K] [LinearOrder K] [IsStrictOrderedRing K] (sch : NSched (Ext K)) {n : Net K}
    (hn : n.Valid) (hp : n.PoliciesOK) (h0 : n.Nonneg) {evidence : List (String × String)}
    (hev : n.EvidenceOK evidence) {query : List String} (ign : Bool) (hq : n.QueryOK evidence ign query)
    (impossible : n.mass (n.active evidence ign) (n.Agrees evidence) = 0) :
    ∃ r f n', (n.mapNum .fin).solveQuery sch evidence query ign = (.ok (r, f), n') ∧ (r.map Prod.fst).Nodup ∧
      (∀ s, s ∈ r.map Prod.fst ↔ s ∈ query) ∧ ∀ q ∈ query, (q, List.replicate (n.count q) Ext.nan) ∈ r := by
  obtain ⟨r, f, n', h1, h2, h3, h4⟩ := solveQuery_ext sch hn hp hev ign hq
  refine ⟨r, f, n', h1, h2, h3, fun q hqm => ?_⟩
  obtain ⟨N, C, hC, hr, hk, hsum⟩ := h4 q hqm
  rw [impossible] at hsum
  have hs0 : ∑ j ∈ range (n.count q), N j = 0 := by
    rcases mul_eq_zero.1 hsum.symm with h | h
    · exact absurd h hC
    · exact h
  have hN : ∀ k < n.count q, N k = 0 := by
    intro k hkk
    have e := hk k hkk
    have hle : n.mass (n.active evidence ign) (fun w => n.Agrees evidence w ∧ w q = k) ≤ 0 := by
      rw [← impossible]
      exact mass_mono h0 active_sub _ _ (fun w hw => hw.1)
    have hge : 0 ≤ n.mass (n.active evidence ign) (fun w => n.Agrees evidence w ∧ w q = k) :=
      mass_nonneg h0 active_sub _
    rw [le_antisymm hle hge] at e
    rcases mul_eq_zero.1 e.symm with h | h
    · exact absurd h hC
    · exact h
  rw [hs0] at hr
  have : (List.range (n.count q)).map (fun k => (Ext.fin (N k) / Ext.fin 0 : Ext K)) =
      List.replicate (n.count q) Ext.nan := by
    rw [List.eq_replicate_iff]
    refine ⟨by simp, fun b hb => ?_⟩
    obtain ⟨k, hk1, rfl⟩ := List.mem_map.1 hb
    rw [hN k (List.mem_range.1 hk1)]
    show (if (0 : K) = 0 then (if (0 : K) = 0 then Ext.nan else _) else _) = Ext.nan
    simp
  rwa [this] at hr

/-- A silent alarm: it never rings. -/
def Ex.silent : Net ℚ where
  name := "silent"
  info := ""
  «variables» := [⟨"Burglar", .chance, ["yes", "no"], (0, 0), "", some 0⟩,
    ⟨"Alarm", .chance, ["rings", "quiet"], (0, 0), "", some 1⟩]
  factors := [⟨"Burglar", [], some [1, 9], [], 2⟩, ⟨"Alarm", ["Burglar"], some [0, 1, 0, 3], [2], 2⟩]
  policies := []
  vs := none
  names := []
  totalUtility := none

theorem Ex.silent_new : newNet "silent" "" [Ex.nv "Burglar" .chance ["yes", "no"], Ex.nv "Alarm" .chance ["rings", "quiet"]]
    [Ex.nf "Burglar" [] [1, 9], Ex.nf "Alarm" ["Burglar"] [0, 1, 0, 3]] = .ok Ex.silent := rfl

theorem Ex.silent_valid : Ex.silent.Valid where
  names := by decide
  named := by decide
  few := by decide
  outcomes := by decide
  tables := by decide
  hasTable := by decide
  known := by decide
  dims := by decide
  parents := by decide
  size := by
    intro f hf _ _
    simp only [Ex.silent, List.mem_cons, List.not_mem_nil, or_false] at hf
    rcases hf with rfl | rfl <;> exact ⟨_, rfl, by decide⟩
  single := by decide
  weights := by intro i h; simp [Ex.silent] at h

/-- The alarm rings, so nothing can be said about the burglar: NaN, for every iteration order. -/
example (sch : NSched (Ext ℚ)) : ∃ r f n',
    (Ex.silent.mapNum .fin).solveQuery sch [("Alarm", "rings")] ["Burglar"] false = (.ok (r, f), n') ∧
      ("Burglar", [.nan, .nan]) ∈ r := by
  obtain ⟨r, f, n', h1, _, _, h4⟩ := C32_impossible sch Ex.silent_valid (Ex.noPolicies rfl)
    ⟨by decide +kernel, by decide⟩ (evidence := [("Alarm", "rings")]) ⟨by decide, by decide⟩ (query := ["Burglar"]) false
    ⟨by decide, by decide, by
      intro q hq
      simp only [List.mem_singleton] at hq
      subst hq
      exact chance_occurs Ex.silent_valid _ (v := ⟨"Burglar", .chance, ["yes", "no"], (0, 0), "", some 0⟩) (by decide) rfl⟩
    (by decide +kernel)
  exact ⟨r, f, n', h1, h4 "Burglar" (by simp)⟩

/-- Otherwise all answers are finite: the posterior probabilities. -/
theorem C32_possible [Field K] [LinearOrder K] [IsStrictOrderedRing K] (sch : NSched (Ext K)) {n : Net K}
    (hn : n.Valid) (hp : n.PoliciesOK) {evidence : List (String × String)}
    (hev : n.EvidenceOK evidence) {query : List String} (ign : Bool) (hq : n.QueryOK evidence ign query)
    (possible : n.mass (n.active evidence ign) (n.Agrees evidence) ≠ 0) :
    ∃ r f n', (n.mapNum .fin).solveQuery sch evidence query ign = (.ok (r, f), n') ∧ (r.map Prod.fst).Nodup ∧
      (∀ s, s ∈ r.map Prod.fst ↔ s ∈ query) ∧
      ∀ q ∈ query, (q, (List.range (n.count q)).map (fun k =>
        Ext.fin (n.mass (n.active evidence ign) (fun w => n.Agrees evidence w ∧ w q = k) /
          n.mass (n.active evidence ign) (n.Agrees evidence)))) ∈ r := by
  obtain ⟨r, f, n', h1, h2, h3, h4⟩ := solveQuery_ext sch hn hp hev ign hq
  refine ⟨r, f, n', h1, h2, h3, fun q hqm => ?_⟩
  obtain ⟨N, C, hC, hr, hk, hsum⟩ := h4 q hqm
  have hs0 : ∑ j ∈ range (n.count q), N j ≠ 0 := by
    intro h
    rw [h, mul_zero] at hsum
    exact possible hsum
  have : (List.range (n.count q)).map (fun k => (Ext.fin (N k) / Ext.fin (∑ j ∈ range (n.count q), N j) : Ext K)) =
      (List.range (n.count q)).map (fun k =>
        Ext.fin (n.mass (n.active evidence ign) (fun w => n.Agrees evidence w ∧ w q = k) /
          n.mass (n.active evidence ign) (n.Agrees evidence))) := by
    refine List.map_congr_left (fun k hk1 => ?_)
    rw [hk k (List.mem_range.1 hk1), hsum, mul_div_mul_left _ _ hC]
    exact (Ext.embeds.div _ _ trivial hs0).symm
  rwa [this] at hr

end Bbn
