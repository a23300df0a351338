import Verif.Props.NetUpdate

/-!
# C159: for a variable without parents, seeing is the same as making certain
-/

set_option autoImplicit false

namespace Bbn

open Finset

variable {α : Type}

/-- If all events have proportional masses, then the answers are the same. -/
theorem answers_ratio [Field α] [CharZero α] [DecidableEq α] (s1 s2 : NSched α) {n n' : Net α} (hn : n.Valid) (hn' : n'.Valid)
    (hpol : n.policies = []) (hpol' : n'.policies = []) (hv : n.SameVars n') {ev ev' : List (String × String)}
    (hev : n.EvidenceOK ev) (hev' : n'.EvidenceOK ev') {query : List String}
    (hq : ∀ q ∈ query, n.isKind .chance q = true ∧ q ∉ ev.map Prod.fst ∧ q ∉ ev'.map Prod.fst) (ign1 ign2 : Bool) {K : α}
    (hK : K ≠ 0) (hm0 : n'.mass [] (n'.Agrees ev') = K * n.mass [] (n.Agrees ev))
    (hm : ∀ q ∈ query, ∀ k, n'.mass [] (fun w => n'.Agrees ev' w ∧ w q = k) = K * n.mass [] (fun w => n.Agrees ev w ∧ w q = k))
    (possible : n.mass [] (n.Agrees ev) ≠ 0) :
    ∃ r g m r' g' m', n.solveQuery s1 ev query ign1 = (.ok (r, g), m) ∧
      n'.solveQuery s2 ev' query ign2 = (.ok (r', g'), m') ∧
      (∀ q, q ∈ r.map Prod.fst ↔ q ∈ query) ∧ ∀ q p, (q, p) ∈ r' ↔ (q, p) ∈ r := by
  have hok : ∀ {m : Net α}, m.Valid → ∀ {ev : List (String × String)} (i : Bool),
      (∀ q ∈ query, m.isKind .chance q = true ∧ q ∉ ev.map Prod.fst) → m.QueryOK ev i query := by
    intro m hm ev i h
    refine ⟨fun q hq' => ?_, fun q hq' e he e' => (h q hq').2 (e' ▸ List.mem_map_of_mem he), fun q hq' => ?_⟩
    · obtain ⟨v, hv, e1, e2⟩ := isKind_mem.1 (h q hq').1
      exact ⟨v, mem_stateVars.2 ⟨hv, by rw [e2]; decide⟩, e1⟩
    · obtain ⟨v, hv, e1, e2⟩ := isKind_mem.1 (h q hq').1
      rw [← e1]; exact chance_occurs hm _ hv e2
  have hact : n.active ev ign1 = [] := by simp [Net.active, hpol]
  have hact' : n'.active ev' ign2 = [] := by simp [Net.active, hpol']
  obtain ⟨r, g, m, a1, a2, a3, a4⟩ := C31_solveQuery_posterior s1 hn (by constructor <;> simp [hpol]) hev ign1
    (hok hn _ (fun q h => ⟨(hq q h).1, (hq q h).2.1⟩)) (by rw [hact]; exact possible)
  obtain ⟨r', g', m', b1, b2, b3, b4⟩ := C31_solveQuery_posterior s2 hn' (by constructor <;> simp [hpol'])
    hev' ign2 (hok hn' _ (fun q h => ⟨by rw [SameVars.isKind hv]; exact (hq q h).1, (hq q h).2.2⟩))
    (by rw [hact', hm0]; exact mul_ne_zero hK possible)
  refine ⟨r, g, m, r', g', m', a1, b1, a3, ?_⟩
  have hsame : ∀ q ∈ query, ∃ d, (q, d) ∈ r ∧ (q, d) ∈ r' := by
    intro q hq'
    obtain ⟨d, u1, u2, u3⟩ := a4 q hq'
    obtain ⟨d', v1, v2, v3⟩ := b4 q hq'
    have hcount : n'.count q = n.count q := by
      obtain ⟨v, h1, h2, _⟩ := isKind_mem.1 (hq q hq').1
      exact SameVars.count hv hn hn' ⟨v, h1, h2⟩
    have : d' = d := by
      apply List.ext_getElem?
      intro k
      by_cases hk : k < n.count q
      · rw [u3 k hk, v3 k (by rw [hcount]; exact hk), hact, hact', hm q hq', hm0, mul_div_mul_left _ _ hK]
      · rw [List.getElem?_eq_none (l := d) (by omega), List.getElem?_eq_none (l := d') (by rw [v2, hcount]; omega)]
    exact ⟨d, u1, this ▸ v1⟩
  have huni : ∀ {L : List (String × List α)}, (L.map Prod.fst).Nodup → ∀ {q d d'}, (q, d) ∈ L → (q, d') ∈ L → d = d' := by
    intro L hL q d d' h1 h2
    have := List.inj_on_of_nodup_map hL h1 h2 rfl
    simpa using this
  intro q p
  constructor
  · intro h
    obtain ⟨e, h1, h2⟩ := hsame q ((b3 q).1 (List.mem_map_of_mem h))
    rw [huni b2 h h2]; exact h1
  · intro h
    obtain ⟨e, h1, h2⟩ := hsame q ((a3 q).1 (List.mem_map_of_mem h))
    rw [huni a2 h h1]; exact h2

/-- **C159.** A chance variable without parents is observed. The same answers are given by the network in which the table of the
variable is replaced by one with a one for the observed outcome and zeros for the others, and the variable is not observed. This
holds whenever the observations are possible. -/
theorem C159_seeing [Field α] [CharZero α] [DecidableEq α] (s1 s2 : NSched α) {n n' : Net α} (hn : n.Valid) (hn' : n'.Valid)
    (hpol : n.policies = []) (hpol' : n'.policies = []) (hv : n.SameVars n') {h : NVar} (hh : h ∈ n.variables)
    (hp : n.SameChances n' [h.name]) {f f' : NFactor α} (hf : f ∈ n.chanceTables) (hf' : f' ∈ n'.chanceTables)
    (ef : f.forVar = h.name) (ef' : f'.forVar = h.name) (hroot : f.given = []) (hroot' : f'.given = []) {o : String}
    (ho : o ∈ h.outcomes)
    (htab : f'.table = some ((List.range h.outcomes.length).map (fun k => if k = h.outcomes.idxOf o then (1 : α) else 0)))
    {evidence : List (String × String)} (hev : n.EvidenceOK evidence) (hfree : h.name ∉ evidence.map Prod.fst)
    {query : List String} (hq : ∀ q ∈ query, n.isKind .chance q = true ∧ q ∉ evidence.map Prod.fst ∧ q ≠ h.name)
    (ign1 ign2 : Bool) (possible : n.mass [] (n.Agrees ((h.name, o) :: evidence)) ≠ 0) :
    ∃ r g m r' g' m', n.solveQuery s1 ((h.name, o) :: evidence) query ign1 = (.ok (r, g), m) ∧
      n'.solveQuery s2 evidence query ign2 = (.ok (r', g'), m') ∧
      (∀ q, q ∈ r.map Prod.fst ↔ q ∈ query) ∧ ∀ q p, (q, p) ∈ r' ↔ (q, p) ∈ r := by
  set ko := h.outcomes.idxOf o with hko
  have hkl : ko < h.outcomes.length := List.idxOf_lt_length_iff.2 ho
  have hhc : h.nodeType = .chance := by
    have := (mem_chanceTables.1 hf).2
    rw [ef] at this
    exact (isKind_iff hn hh _).1 this
  have hhs : h ∈ n.stateVars := mem_stateVars.2 ⟨hh, by rw [hhc]; decide⟩
  set d : List α := (List.range h.outcomes.length).map (fun k => if k = ko then (1 : α) else 0) with hd
  have hdl : d.length = h.outcomes.length := by simp [hd]
  have hdg : ∀ k < h.outcomes.length, d.getD k 0 = if k = ko then 1 else 0 := by
    intro k hk
    rw [List.getD_eq_getElem?_getD, hd, List.getElem?_map, List.getElem?_range hk]
    rfl
  have hsum : ∑ k ∈ range d.length, d.getD k 0 = 1 := by
    rw [hdl, Finset.sum_congr rfl (fun k hk => hdg k (Finset.mem_range.1 hk)), Finset.sum_ite_eq',
      if_pos (Finset.mem_range.2 hkl)]
  set prior : Nat → α := fun k => n.prob f (World.set (fun _ => 0) h.name k) with hprior
  have hpf : ∀ w : World, n.prob f w = prior (w h.name) := by
    intro w
    rw [root_prob hroot w, ef]
  have hpf' : ∀ w : World, n'.prob f' w = d.getD (w h.name) 0 := by
    intro w
    rw [root_table hroot' htab ?_ hsum, ef']
    rw [ef', SameVars.count hv hn hn' ⟨h, hh, rfl⟩, count_eq hn hh, hdl]
  have hag : ∀ w, n.Agrees ((h.name, o) :: evidence) w ↔ n.Agrees evidence w ∧ w h.name = ko := agrees_cons hn hh o
  have h0 : prior ko ≠ 0 := by
    intro h0
    apply possible
    have : n.mass [] (n.Agrees ((h.name, o) :: evidence)) = n.total [] (fun _ => 0) := by
      unfold Net.mass Net.total
      refine sumWorlds_congr _ _ (stateVars_names hn) (fun w _ _ => ?_)
      by_cases e : n.Agrees ((h.name, o) :: evidence) w
      · have : n.joint [] w = 0 := by
          unfold Net.joint
          rw [List.prod_eq_zero, zero_mul]
          exact List.mem_map.2 ⟨f, hf, by rw [hpf, ((hag w).1 e).2, h0]⟩
        rw [this]; simp
      · simp [e]
    rw [this]
    unfold Net.total
    have h1 := sumWorlds_mul n.stateVars (0 : α) (fun w => n.joint [] w * 0) (fun _ => 0)
    simpa using h1
  have hjoint : ∀ w, n.Allowed w → n'.joint [] w = (if w h.name = ko then (prior ko)⁻¹ else 0) * n.joint [] w := by
    intro w hw
    refine SameVars.joint hv hn hn' hp hw ?_
    have hfil : n.stateVars.filter (fun u => u.name ∈ [h.name]) = [h] := by
      rw [show (fun u : NVar => decide (u.name ∈ [h.name])) = fun u => decide (u.name = h.name) by
        funext u; simp only [List.mem_singleton]]
      exact filter_single NVar.name _ (stateVars_names hn) h hhs
    rw [hfil]
    simp only [List.map_cons, List.map_nil, List.prod_cons, List.prod_nil, mul_one]
    rw [kernel_table hn hf ef.symm, kernel_table hn' hf' ef'.symm, hpf, hpf', hdg _ (hw h hhs)]
    by_cases e : w h.name = ko
    · rw [if_pos e, if_pos e, e, inv_mul_cancel₀ h0]
    · rw [if_neg e, if_neg e, zero_mul]
  obtain ⟨h', hh', e1, e2, e3⟩ := SameVars.var (SameVars.symm hv) hh
  have hm : ∀ (P : World → Prop) [DecidablePred P], n'.mass [] (fun w => n'.Agrees evidence w ∧ P w) =
      (prior ko)⁻¹ * n.mass [] (fun w => n.Agrees ((h.name, o) :: evidence) w ∧ P w) := by
    intro P _
    rw [mass_congr n' [] (fun w => and_congr_left (fun _ => SameVars.agrees hv evidence w)),
      mass_congr n [] (fun w => and_congr_left (fun _ => hag w))]
    unfold Net.mass
    rw [total_parts hn' (v := h') (mem_stateVars.2 ⟨hh', by rw [e2, hhc]; decide⟩), e1, e3,
      Finset.sum_eq_single_of_mem ko (Finset.mem_range.2 hkl)]
    · rw [SameVars.total hv hn (c := (prior ko)⁻¹)]
      · congr 2
        funext w
        by_cases k1 : w h.name = ko <;> by_cases k2 : n.Agrees evidence w <;> by_cases k3 : P w <;> simp [k1, k2, k3]
      · intro w hw hne
        rw [hjoint w hw, if_pos]
        by_contra hcon
        simp [hcon] at hne
    · intro k _ hk
      rw [SameVars.total hv hn (c := 0), zero_mul]
      intro w hw hne
      rw [hjoint w hw, if_neg]
      intro hcon
      apply hne
      rw [if_neg (by rw [hcon]; exact Ne.symm hk), zero_mul]
  refine answers_ratio s1 s2 hn hn' hpol hpol' hv ⟨?_, ?_⟩ (SameVars.evidence hv hev) ?_ ign1 ign2 (inv_ne_zero h0) ?_
    (fun q _ k => hm (fun w => w q = k)) possible
  · rw [List.map_cons, List.nodup_cons]; exact ⟨hfree, hev.keys⟩
  · intro e he
    rcases List.mem_cons.1 he with rfl | he
    · exact ⟨h, hh, rfl, by rw [hhc]; decide, ho⟩
    · exact hev.known e he
  · intro q hq'
    obtain ⟨h1, h2, h3⟩ := hq q hq'
    refine ⟨h1, ?_, h2⟩
    rw [List.map_cons, List.mem_cons, not_or]
    exact ⟨h3, h2⟩
  · have := hm (fun _ => True)
    simpa only [and_true] using this

namespace Ex

/-- The network `flu` for someone who has flu. -/
def fluSure : Net ℚ :=
  { flu with factors := [⟨"Flu", [], some [1, 0], [], 2⟩, ⟨"Fever", ["Flu"], some [9/10, 1/10, 1/10, 9/10], [2], 2⟩,
    ⟨"Cough", ["Flu"], some [9/10, 1/10, 1/10, 9/10], [2], 2⟩] }

theorem fluSure_valid : fluSure.Valid where
  names := by decide
  named := by decide
  few := by decide
  outcomes := by decide
  tables := by decide
  hasTable := by decide
  known := by decide
  dims := by decide
  parents := by decide
  size := by
    have key : ∀ f ∈ fluSure.factors, f.table = some f.tab ∧ f.tab.length = (f.dims.map fluSure.count).prod := by
      decide +kernel
    exact fun f hf _ _ => ⟨f.tab, key f hf⟩
  single := by decide
  weights := by intro i h; cases h

theorem fluSure_same : flu.SameChances fluSure ["Flu"] := by
  intro f hf f' hf' e hne w hw
  have h1 : ∀ f ∈ flu.chanceTables, ∀ f' ∈ fluSure.chanceTables, f'.forVar = f.forVar → f.forVar ∉ ["Flu"] → f' = f := by
    decide +kernel
  obtain rfl := h1 f hf f' hf' e hne
  rfl

end Ex

open Ex in
/-- The hypotheses of `C159_seeing` are met: with fever and flu, or with fever in someone who has flu for sure, a cough is
equally likely. -/
example (s1 s2 : NSched ℚ) : ∃ r g m r' g' m',
    flu.solveQuery s1 [("Flu", "yes"), ("Fever", "yes")] ["Cough"] false = (.ok (r, g), m) ∧
      fluSure.solveQuery s2 [("Fever", "yes")] ["Cough"] false = (.ok (r', g'), m') ∧
      (∀ q, q ∈ r.map Prod.fst ↔ q ∈ ["Cough"]) ∧ ∀ q p, (q, p) ∈ r' ↔ (q, p) ∈ r :=
  C159_seeing s1 s2 flu_valid fluSure_valid rfl rfl rfl (h := ⟨"Flu", .chance, ["yes", "no"], (0, 0), "", some 0⟩) (by decide)
    fluSure_same (f := ⟨"Flu", [], some [1/10, 9/10], [], 2⟩) (f' := ⟨"Flu", [], some [1, 0], [], 2⟩) (by decide +kernel)
    (by decide +kernel) rfl rfl rfl rfl (o := "yes") (by decide) (by decide +kernel) (evidence := [("Fever", "yes")])
    ⟨by decide, by decide⟩ (by decide) (by decide) false false (by decide +kernel)

open Ex in
/-- For a variable with parents this is false: with the sprinkler on, rain is unlikely; a sprinkler that is always on says nothing
about rain. -/
example : (dry.mass [] (fun w => dry.Agrees [("Sprinkler", "on")] w ∧ w "Rain" = 0) / dry.mass [] (dry.Agrees [("Sprinkler", "on")])
      : ℚ) = 1 / 161 ∧
    ({ dry with factors := [⟨"Sprinkler", [], some [1, 0], [], 2⟩, ⟨"Rain", [], some [20, 80], [], 2⟩] } : Net ℚ).mass []
      (fun w => w "Rain" = 0) = 1 / 5 := by
  decide +kernel

end Bbn
