import Verif.Lemmas.Solve

/-!
# The weighted sum of the utility tables
-/

set_option autoImplicit false

namespace Bbn

open Finset

variable {α : Type}

/-- What `collectUtils` uses as weight of a factor. -/
def factorWeight [Zero α] [One α] (utils : List Var) (weights : Option (List α)) (f : Factor α) : α :=
  match weights with
  | none => 1
  | some ws => ws.getD ((firstUtil utils f).getD 0) 0

/-- A utility factor after scaling. -/
structure Scaled [CommSemiring α] (w : α) (f s : Factor α) : Prop where
  wf : s.WF
  vars : s.vars = f.vars
  val : ∀ σ, Fits σ f.vars → s.val σ = w * f.val σ

theorem collectUtils_spec [CommSemiring α] {utils : List Var} {weights : Option (List α)}
    (hw : ∀ ws, weights = some ws → utils.length ≤ ws.length) (L : List (Factor α)) :
    ∀ (vs : Vs), (∀ f ∈ L, f.WF) →
    ∃ n facs, collectUtils utils weights L vs =
        .ok ((L.filter (fun f => utils.any (fun u => u ∈ f.vars))).map Factor.id, facs, { vs with factorCounter := n }) ∧
      vs.factorCounter ≤ n ∧
      List.Forall₂ (fun f s => Scaled (factorWeight utils weights f) f s)
        (L.filter (fun f => utils.any (fun u => u ∈ f.vars))) facs := by
  induction L with
  | nil => intro vs _; exact ⟨vs.factorCounter, [], rfl, Nat.le_refl _, .nil⟩
  | cons f L ih =>
    intro vs hwf
    have hf := hwf f (by simp)
    rw [collectUtils]
    cases hfu : firstUtil utils f with
    | none =>
      have : utils.any (fun u => decide (u ∈ f.vars)) = false := by
        rw [List.any_eq_false]
        have := List.findIdx?_eq_none_iff.1 hfu
        intro u hu
        simpa using this u hu
      obtain ⟨n, facs, h1, h2, h3⟩ := ih vs (fun g hg => hwf g (by simp [hg]))
      refine ⟨n, facs, ?_, h2, ?_⟩
      · rw [List.filter_cons_of_neg (by simp only [this]; simp)]; exact h1
      · rw [List.filter_cons_of_neg (by simp only [this]; simp)]; exact h3
    | some i =>
      obtain ⟨hi1, hi2, hi3⟩ := List.findIdx?_eq_some_iff_getElem.1 hfu
      have hany : utils.any (fun u => decide (u ∈ f.vars)) = true := by
        rw [List.any_eq_true]
        exact ⟨utils[i], List.getElem_mem _, hi2⟩
      have hone : ∃ m s, scaleUtil weights i f vs = .ok (s, { vs with factorCounter := m }) ∧ vs.factorCounter ≤ m ∧
          Scaled (factorWeight utils weights f) f s := by
        cases hws : weights with
        | none =>
          refine ⟨vs.factorCounter, f, rfl, Nat.le_refl _, hf, rfl, ?_⟩
          intro σ _; simp [factorWeight]
        | some ws =>
          have hlt : i < ws.length := lt_of_lt_of_le hi1 (hw ws hws)
          have hc : (⟨0, [ws[i]], []⟩ : Factor α).WF := ⟨by simp [size], by simp⟩
          obtain ⟨s, s1, s2, s3, s4, s5⟩ := product_spec vs [f, ⟨0, [ws[i]], []⟩]
            (by intro g hg; simp at hg; rcases hg with rfl | rfl; exacts [hf, hc])
            (by
              unfold CoherentFs
              simpa using coherent_of_nodup hf.nodup)
          have hv : s.vars = f.vars := by
            rw [s4, ← scopeUnion_single hf]
            simp [scopeUnion]
          refine ⟨vs.factorCounter + 1, s, ?_, by omega, s2, hv, ?_⟩
          · have : goGet ws i = .ok ws[i] := goGet_eq.2 (List.getElem?_eq_getElem hlt)
            simp only [scaleUtil, this, ok_bind]
            exact s1
          · intro σ hσ
            rw [s5 σ (hv ▸ hσ)]
            simp [factorWeight, hfu, Factor.val, flatIndex, indexLoop, tupleOf, hlt, mul_comm]
      obtain ⟨m, s, o1, o2, o3⟩ := hone
      obtain ⟨n, facs, h1, h2, h3⟩ := ih { vs with factorCounter := m } (fun g hg => hwf g (by simp [hg]))
      refine ⟨n, s :: facs, ?_, le_trans o2 h2, ?_⟩
      · dsimp only
        rw [o1, ok_bind]
        dsimp only
        rw [h1, ok_bind]
        rw [List.filter_cons_of_pos (by simpa using hany)]
        rfl
      · rw [List.filter_cons_of_pos (by simpa using hany)]
        exact .cons o3 h3

theorem sumOutUtils_spec [CommSemiring α] (us : List Var) : ∀ (s : Factor α) (vs : Vs) (el : List Bool), s.WF →
    (us.map Var.id).Nodup → (∀ u ∈ us, u ∈ s.vars ∧ u.outcomes = 1 ∧ u.index < el.length) → s.id < vs.factorCounter →
    ∃ n s' el', sumOutUtils us s vs el = .ok (s', { vs with factorCounter := n }, el') ∧
      vs.factorCounter ≤ n ∧ s'.WF ∧ s.id ≤ s'.id ∧ s'.id < n ∧
      el'.length = el.length ∧ (∀ i : Nat, (∀ u ∈ us, u.index ≠ i) → el'[i]? = el[i]?) ∧
      (∀ v, v ∈ s'.vars ↔ v ∈ s.vars ∧ v.id ∉ us.map Var.id) ∧
      ∀ σ, Fits σ s'.vars → (∀ u ∈ us, σ u.id = 0) → s'.val σ = s.val σ := by
  induction us with
  | nil =>
    intro s vs el hs _ _ hid
    exact ⟨vs.factorCounter, s, el, rfl, Nat.le_refl _, hs, Nat.le_refl _, hid, rfl, fun _ _ => rfl, by simp, fun _ _ _ => rfl⟩
  | cons u us ih =>
    intro s vs el hs hn hu hid
    simp only [List.map_cons, List.nodup_cons] at hn
    obtain ⟨hu1, hu2, hu3⟩ := hu u (by simp)
    obtain ⟨g, g1, g2, g3, g4, g5⟩ := sumOut_spec vs s hs u u hu1 rfl
    obtain ⟨n, s', el', h1, h2, h3, h4, h5, h6, h7, h8, h9⟩ := ih g
      { vs with factorCounter := vs.factorCounter + 1 } (el.set u.index true) g2 hn.2
      (by
        intro w hw
        obtain ⟨w1, w2, w3⟩ := hu w (by simp [hw])
        refine ⟨?_, w2, by simpa using w3⟩
        rw [g4, mem_otherVars]
        exact ⟨w1, fun e => hn.1 (e ▸ List.mem_map_of_mem hw)⟩) (by simp [g3])
    refine ⟨n, s', el', ?_, by simp at h2; omega, h3, by omega, h5, by simpa using h6, ?_, ?_, ?_⟩
    · rw [sumOutUtils, g1, ok_bind]
      dsimp only
      rw [goSet_ok hu3, ok_bind]
      exact h1
    · intro i hi
      rw [h7 i (fun w hw => hi w (by simp [hw])), List.getElem?_set_ne (hi u (by simp))]
    · intro v
      rw [h8 v, g4, mem_otherVars]
      simp only [List.map_cons, List.mem_cons, not_or]
      tauto
    · intro σ hσ h0
      have hu0 := h0 u (by simp)
      rw [h9 σ hσ (fun w hw => h0 w (by simp [hw])), g5]
      · rw [hu2]; simp
        rw [← hu0, upd_self]
      · intro v hv
        by_cases hv2 : v.id ∈ us.map Var.id
        · obtain ⟨w, hw, e⟩ := List.mem_map.1 hv2
          have h1 := (hu w (by simp [hw]))
          have hvs : v ∈ s.vars := by rw [g4] at hv; exact (mem_otherVars.1 hv).1
          have : w = v := coherent_of_nodup hs.nodup w h1.1 v hvs e
          rw [← this, h0 w (by simp [hw]), h1.2.1]; omega
        · exact hσ v ((h8 v).2 ⟨hv, hv2⟩)

theorem sum_scaled [CommSemiring α] {w : Factor α → α} {fs ss : List (Factor α)}
    (h : List.Forall₂ (fun f s => Scaled (w f) f s) fs ss) {σ : Assignment} (hσ : FitsFs σ fs) :
    (ss.map (fun s => s.val σ)).sum = (fs.map (fun f => w f * f.val σ)).sum := by
  induction h with
  | nil => rfl
  | @cons f s fs ss hfs _ ih =>
    simp only [List.map_cons, List.sum_cons]
    rw [ih (fun g hg => hσ g (by simp [hg])), hfs.val σ (hσ f (by simp))]

/-- `sumUtilities` replaces the utility factors by their weighted sum. -/
theorem sumUtilities_spec [CommSemiring α] (sch : Sched α) (st : VE α) (hR : VarsOK st.vs.variables)
    (hlen : st.eliminated.length = st.vs.variables.length)
    (hg : Good st.vs.variables st.vs.factorCounter st.factors)
    (hu : UtilityOK st.vs.variables st.factors st.weights) :
    ∃ n el s, st.sumUtilities sch =
        .ok { st with vs := { st.vs with factorCounter := n }, eliminated := el, tick := st.tick + 1,
                      factors := st.factors.filter (fun f => !f.isUtility) ++ [s] } ∧
      Good st.vs.variables n (st.factors.filter (fun f => !f.isUtility) ++ [s]) ∧
      el.length = st.vs.variables.length ∧
      (∀ v ∈ st.vs.variables, v.nodeType ≠ .utility → el[v.index]? = st.eliminated[v.index]?) ∧
      s.WF ∧ (∀ v, v ∈ s.vars ↔ (∃ f ∈ st.factors, f.isUtility = true ∧ v ∈ f.vars) ∧ v.nodeType ≠ .utility) ∧
      ∀ σ, Fits σ s.vars → (∀ u ∈ utilities st.vs.variables, σ u.id = 0) →
        s.val σ = ((st.factors.filter (fun f => f.isUtility)).map
          (fun f => factorWeight (utilities st.vs.variables) st.weights f * f.val σ)).sum := by
  set R := st.vs.variables with hRdef
  set p : Factor α → Bool := fun f => (utilities R).any (fun u => u ∈ f.vars) with hpd
  have hpu : ∀ f ∈ st.factors, p f = f.isUtility := fun f hf => mem_isUtility (hg.sub f hf)
  have hit : (st.iter sch).Perm st.factors := sch.fac_perm _ _
  have hgi := hg.perm hit.symm
  obtain ⟨n1, facs, a1, a2, a3⟩ := collectUtils_spec hu.weights (st.iter sch) st.vs hgi.wf
  have hfac : ∀ s ∈ facs, ∃ f ∈ st.factors, f.isUtility = true ∧ s.vars = f.vars ∧ s.WF := by
    intro s hs
    obtain ⟨f, hf, hsc⟩ := forall₂_mem_right a3 hs
    obtain ⟨hf1, hf2⟩ := List.mem_filter.1 hf
    have hf3 := hit.subset hf1
    exact ⟨f, hf3, by rw [← hpu f hf3]; exact hf2, hsc.vars, hsc.wf⟩
  obtain ⟨s0, b1, b2, b3, b4, b5⟩ := sum_spec { st.vs with factorCounter := n1 } facs
    (fun s hs => (hfac s hs).choose_spec.2.2.2)
    (coherentFs_of_sub hR.ids (fun s hs v hv => by
      obtain ⟨f, hf, _, h2, _⟩ := hfac s hs
      exact hg.sub f hf v (h2 ▸ hv)))
  have hs0 : ∀ v, v ∈ s0.vars ↔ ∃ f ∈ st.factors, f.isUtility = true ∧ v ∈ f.vars := by
    intro v
    rw [b4, mem_scopeUnion]
    constructor
    · rintro ⟨s, hs, hv⟩
      obtain ⟨f, hf, h1, h2, _⟩ := hfac s hs
      exact ⟨f, hf, h1, h2 ▸ hv⟩
    · rintro ⟨f, hf, h1, hv⟩
      obtain ⟨s, hs, hsc⟩ := forall₂_mem_left a3 (a := f)
        (List.mem_filter.2 ⟨hit.symm.subset hf, by have := hpu f hf; rw [h1] at this; exact this⟩)
      exact ⟨s, hs, hsc.vars ▸ hv⟩
  have hun : ((utilities R).map Var.id).Nodup := (List.filter_sublist.map _).nodup hR.ids
  have humem : ∀ u, u ∈ utilities R ↔ u ∈ R ∧ u.nodeType = .utility := by intro u; simp [utilities]
  obtain ⟨n2, s, el, c1, c2, c3, c4, c5, c6, c7, c8, c9⟩ := sumOutUtils_spec (utilities R) s0
    { st.vs with factorCounter := n1 + 1 } st.eliminated b2 hun
    (by
      intro u hu'
      obtain ⟨h1, h2⟩ := (humem u).1 hu'
      refine ⟨?_, hu.one u h1 h2, by rw [hlen]; exact hR.index_lt h1⟩
      obtain ⟨f, hf, huf⟩ := hu.has u h1 h2
      refine (hs0 u).2 ⟨f, hf, ?_, huf⟩
      simp only [Factor.isUtility, List.any_eq_true, decide_eq_true_eq]
      exact ⟨u, huf, h2⟩) (by simp [b3])
  have hsv : ∀ v, v ∈ s.vars ↔ (∃ f ∈ st.factors, f.isUtility = true ∧ v ∈ f.vars) ∧ v.nodeType ≠ .utility := by
    intro v
    rw [c8, hs0]
    constructor
    · rintro ⟨⟨f, hf, h1, h2⟩, h3⟩
      refine ⟨⟨f, hf, h1, h2⟩, fun h => h3 (List.mem_map_of_mem ((humem v).2 ⟨hg.sub f hf v h2, h⟩))⟩
    · rintro ⟨⟨f, hf, h1, h2⟩, h3⟩
      refine ⟨⟨f, hf, h1, h2⟩, fun h => ?_⟩
      obtain ⟨w, hw, e⟩ := List.mem_map.1 h
      obtain ⟨hw1, hw2⟩ := (humem w).1 hw
      have := coherent_of_nodup hR.ids w hw1 v (hg.sub f hf v h2) e
      exact h3 (this ▸ hw2)
  have hdel : deleteAll st.factors ((st.iter sch |>.filter p).map Factor.id) =
      st.factors.filter (fun f => !f.isUtility) := by
    rw [deleteAll_filter hg.ids hit]
    apply List.filter_congr
    intro f hf; rw [hpu f hf]
  have hgood1 : Good R n1 (st.factors.filter (fun f => !f.isUtility)) := hg.mono List.filter_sublist a2
  have hid : n1 ≤ s.id := by simp at b3; omega
  have hsub : ∀ v ∈ s.vars, v ∈ R := by
    intro v hv
    obtain ⟨⟨f, hf, _, h⟩, _⟩ := (hsv v).1 hv
    exact hg.sub f hf v h
  refine ⟨n2, el, s, ?_, hgood1.append c3 hsub hid c5, c6.trans hlen, ?_, c3, hsv, ?_⟩
  · unfold VE.sumUtilities
    have hne : ¬ (R.filter (fun u => u.nodeType = .utility)).length = 0 := by
      intro h; exact hu.some (List.eq_nil_of_length_eq_zero h)
    dsimp only
    rw [← hRdef, if_neg hne]
    change (collectUtils (utilities R) st.weights (st.iter sch) st.vs >>= _) = _
    rw [a1, ok_bind]
    dsimp only
    rw [b1, ok_bind]
    dsimp only
    change (sumOutUtils (utilities R) s0 _ st.eliminated >>= _) = _
    rw [c1, ok_bind]
    dsimp only
    rw [hdel, insertFactor_fresh (c := n1) hgood1.lt hid]
    rfl
  · intro v hv hnt
    apply c7
    intro u hu' e
    obtain ⟨h1, h2⟩ := (humem u).1 hu'
    have := hR.ext_index h1 hv e
    exact hnt (this ▸ h2)
  · intro σ hσ h0
    have hfit0 : Fits σ s0.vars := by
      intro v hv
      by_cases hnt : v.nodeType = .utility
      · obtain ⟨f, hf, _, h⟩ := (hs0 v).1 hv
        have hvR := hg.sub f hf v h
        rw [h0 v ((humem v).2 ⟨hvR, hnt⟩), hu.one v hvR hnt]; omega
      · exact hσ v ((hsv v).2 ⟨(hs0 v).1 hv, hnt⟩)
    rw [c9 σ hσ h0, b5 σ hfit0]
    rw [sum_scaled a3 (by
      intro f hf v hv
      obtain ⟨hf1, hf2⟩ := List.mem_filter.1 hf
      have hf3 := hit.subset hf1
      exact hfit0 v ((hs0 v).2 ⟨f, hf3, by rw [← hpu f hf3]; exact hf2, hv⟩))]
    have hfe : st.factors.filter p = st.factors.filter (fun f => f.isUtility) := List.filter_congr hpu
    rw [← hfe]
    exact ((hit.filter p).map _).sum_eq

theorem sum_map_ite {β : Type} [AddCommMonoid α] {l : List β} [DecidableEq β] (hn : l.Nodup) {b : β} (hb : b ∈ l)
    (p : β → Prop) [DecidablePred p] (hp : ∀ x ∈ l, p x ↔ x = b) (g : β → α) :
    (l.map (fun x => if p x then g x else 0)).sum = g b := by
  induction l with
  | nil => simp at hb
  | cons a l ih =>
    rw [List.nodup_cons] at hn
    simp only [List.map_cons, List.sum_cons]
    by_cases hab : a = b
    · rw [if_pos ((hp a (by simp)).2 hab), hab]
      have : (l.map (fun x => if p x then g x else 0)) = l.map (fun _ => 0) := by
        apply List.map_congr_left
        intro x hx
        rw [if_neg]
        intro h
        have := (hp x (by simp [hx])).1 h
        exact hn.1 (by rw [hab, ← this]; exact hx)
      rw [this]; simp
    · rw [if_neg (fun h => hab ((hp a (by simp)).1 h)), zero_add]
      rcases List.mem_cons.1 hb with h | h
      · exact absurd h.symm hab
      · exact ih hn.2 h (fun x hx => hp x (by simp [hx]))

theorem factorWeight_eq [CommSemiring α] {vars : List Var} {f : Factor α} {weights : Option (List α)}
    (hn : vars.Nodup) {u : Var} (hu : u ∈ vars) (hut : u.nodeType = .utility) (huf : u ∈ f.vars)
    (honly : ∀ w ∈ f.vars, w.nodeType = .utility → w = u) :
    factorWeight (utilities vars) weights f = weightOf weights vars u := by
  unfold factorWeight weightOf
  cases weights with
  | none => rfl
  | some ws =>
    simp only
    have hmem : u ∈ utilities vars := by simp [utilities, hu, hut]
    have : firstUtil (utilities vars) f = some ((utilities vars).idxOf u) := by
      unfold firstUtil
      rw [List.findIdx?_eq_some_iff_getElem]
      refine ⟨List.idxOf_lt_length_of_mem hmem, by simpa using huf, ?_⟩
      intro j hj
      simp only [decide_eq_true_eq]
      intro hin
      have hjl : j < (utilities vars).length := lt_trans hj (List.idxOf_lt_length_of_mem hmem)
      have hjm : (utilities vars)[j] ∈ utilities vars := List.getElem_mem _
      have h1 : (utilities vars)[j] = u := by
        apply honly _ hin
        have := hjm
        simp only [utilities, List.mem_filter, decide_eq_true_eq] at this
        exact this.2
      have hnu : (utilities vars).Nodup := hn.filter _
      have : (utilities vars).idxOf u = j := by
        rw [← h1]
        exact hnu.idxOf_getElem j _
      omega
    rw [this]; rfl

theorem total_eq [CommSemiring α] {vars : List Var} (hn : vars.Nodup) (weights : Option (List α))
    (fs : List (Factor α)) (hsub : ∀ f ∈ fs, ∀ v ∈ f.vars, v ∈ vars)
    (honly : ∀ f ∈ fs, ∀ u ∈ f.vars, ∀ w ∈ f.vars, u.nodeType = .utility → w.nodeType = .utility → u = w)
    (σ : Assignment) :
    ((fs.filter (fun f => f.isUtility)).map (fun f => factorWeight (utilities vars) weights f * f.val σ)).sum =
      totalUtility vars fs weights σ := by
  induction fs with
  | nil => simp [totalUtility]
  | cons f fs ih =>
    have ih' := ih (fun g hg => hsub g (by simp [hg])) (fun g hg => honly g (by simp [hg]))
    have hsplit : totalUtility vars (f :: fs) weights σ =
        ((utilities vars).map (fun u => if u ∈ f.vars then weightOf weights vars u * f.val σ else 0)).sum +
          totalUtility vars fs weights σ := by
      unfold totalUtility
      rw [← List.sum_map_add]
      congr 1
      apply List.map_congr_left
      intro u _
      by_cases h : u ∈ f.vars
      · simp [h, mul_add]
      · simp [h]
    rw [hsplit, ← ih']
    cases hfu : f.isUtility with
    | true =>
      rw [List.filter_cons_of_pos (by simpa using hfu), List.map_cons, List.sum_cons]
      congr 1
      simp only [Factor.isUtility, List.any_eq_true, decide_eq_true_eq] at hfu
      obtain ⟨u, huf, hut⟩ := hfu
      have huv := hsub f (by simp) u huf
      have ho : ∀ w ∈ f.vars, w.nodeType = .utility → w = u := fun w hw hwt => honly f (by simp) w hw u huf hwt hut
      rw [sum_map_ite (l := utilities vars) (hn.filter _) (b := u) (by simp [utilities, huv, hut]) (fun x => x ∈ f.vars) (by
        intro x hx
        simp only [utilities, List.mem_filter, decide_eq_true_eq] at hx
        constructor
        · intro h; exact ho x h hx.2
        · rintro rfl; exact huf) (fun u => weightOf weights vars u * f.val σ)]
      rw [factorWeight_eq hn huv hut huf ho]
    | false =>
      rw [List.filter_cons_of_neg (by simp [hfu])]
      have : ((utilities vars).map (fun u => if u ∈ f.vars then weightOf weights vars u * f.val σ else 0)).sum = 0 := by
        apply List.sum_eq_zero
        intro x hx
        obtain ⟨u, hu, rfl⟩ := List.mem_map.1 hx
        rw [if_neg]
        intro h
        simp only [utilities, List.mem_filter, decide_eq_true_eq] at hu
        simp only [Factor.isUtility, List.any_eq_false, decide_eq_true_eq] at hfu
        exact hfu u h hu.2
      rw [this, zero_add]

theorem sum_plugged [CommSemiring α] {es : List Evid} {cs rs : List (Factor α)} (w : Factor α → α)
    (h : List.Forall₂ (Plugged es) cs rs) (hw : ∀ c ∈ cs, ∀ r, Plugged es c r → w r = w c) {σ : Assignment}
    (hσ : FitsFs σ rs) :
    (rs.map (fun r => w r * r.val σ)).sum = (cs.map (fun c => w c * c.val (plug es σ))).sum := by
  induction h with
  | nil => rfl
  | @cons c r cs rs hcr _ ih =>
    simp only [List.map_cons, List.sum_cons]
    rw [ih (fun c hc => hw c (by simp [hc])) (fun f hf => hσ f (by simp [hf])), hcr.val σ (hσ r (by simp)),
      hw c (by simp) r hcr]

/-- The scopes after plugging in the evidence and adding up the utilities. -/
def totalScopes (fs : List (Factor α)) (ev : List Evid) : Multiset (Finset Nat) :=
  (scopes (fs.filter (fun f => !f.isUtility))).map (fun s => s \ evIds ev) +
    {(((fs.filter (fun f => f.isUtility)).flatMap
      (fun f => (f.vars.filter (fun v => v.nodeType ≠ .utility)).map Var.id)).toFinset) \ evIds ev}

theorem isUtility_plugged [Zero α] {ev : List Evid} {vars : List Var} (hid : (vars.map Var.id).Nodup)
    (hev : EvidenceOK vars ev) {c r : Factor α} (hc : ∀ v ∈ c.vars, v ∈ vars) (h : Plugged ev c r) :
    c.isUtility = r.isUtility := by
  rw [Bool.eq_iff_iff]
  simp only [Factor.isUtility, List.any_eq_true, decide_eq_true_eq]
  constructor
  · rintro ⟨u, h1, h2⟩; exact ⟨u, (plugged_any hid hev h (hc u h1) h2).2 h1, h2⟩
  · rintro ⟨u, h1, h2⟩
    have : u ∈ c.vars := by rw [h.vars] at h1; exact (List.mem_filter.1 h1).1
    exact ⟨u, this, h2⟩

/-- `SolveUtility` for the total utility. -/
theorem solve_total_spec [CommSemiring α] (sch : Sched α) {vs : Vs} {fs : List (Factor α)}
    {deps : List (Var × List Var)} (hp : Problem vs fs deps) {weights : Option (List α)}
    (hu : UtilityOK vs.variables fs weights) {ev : List Evid} (hev : EvidenceOK vs.variables ev) (q : List Var)
    (hin : ∀ v ∈ hidden vs.variables deps ev q, ∃ f ∈ fs, v ∈ f.vars) :
    ∃ g st', (VE.new vs fs deps weights).solveUtility sch ev q none = .ok (g, st') ∧ g.WF ∧
      (∀ v, v ∈ g.vars ↔ (∃ f ∈ fs, v ∈ f.vars) ∧ v.nodeType ≠ .utility ∧ (∀ e ∈ ev, e.var.id ≠ v.id) ∧
        v ∉ hidden vs.variables deps ev q) ∧
      (∀ σ, Fits σ g.vars → (∀ u ∈ utilities vs.variables, σ u.id = 0) → g.val σ =
        sumOver (hidden vs.variables deps ev q) (fun τ => joint (fs.filter (fun f => !f.isUtility)) (plug ev τ) *
          totalUtility vs.variables fs weights (plug ev τ)) σ) ∧
      ∃ hs : List Var, st'.log = hs.map Var.id ∧ hs.Perm (hidden vs.variables deps ev q) ∧
        hs.Pairwise (DegreeThenId (totalScopes fs ev)) := by
  obtain ⟨h0, hg, hR⟩ := new_good hp weights
  obtain ⟨n, fs1, rs, a1, a2, a3, a4⟩ := eliminateEvidence_spec hR.ids sch ev (VE.new vs fs deps weights)
    (fun e he => by
      obtain ⟨b1, b2, b3⟩ := hev e he
      rw [h0] at *
      exact ⟨b1, b3⟩) (by rw [h0]; exact hg)
  rw [h0] at a4 a1
  simp only at a1 a4 a2
  set R := vs.variables with hRd
  set st1 : VE α := ⟨{ vs with factorCounter := n }, List.replicate vs.variables.length false, deps, fs1, weights,
    0 + ev.length, []⟩ with hst1
  have hsub1 : ∀ f ∈ fs1, ∃ c ∈ fs, Plugged ev c f := fun f hf => forall₂_mem_right a4 (a3.subset hf)
  have hu1 : UtilityOK R fs1 weights := by
    refine ⟨hu.one, ?_, ?_, hu.some, hu.weights⟩
    · intro f hf u huf w hwf
      obtain ⟨c, hc, hcf⟩ := hsub1 f hf
      rw [hcf.vars] at huf hwf
      exact hu.only c hc u (List.mem_filter.1 huf).1 w (List.mem_filter.1 hwf).1
    · intro u huR hut
      obtain ⟨c, hc, huc⟩ := hu.has u huR hut
      obtain ⟨r, hr, hcr⟩ := forall₂_mem_left a4 hc
      exact ⟨r, a3.symm.subset hr, (plugged_any hR.ids hev hcr huR hut).2 huc⟩
  obtain ⟨n2, el, s, b1, b2, b3, b4, b5, b6, b7⟩ := sumUtilities_spec sch st1 hR (by simp [hst1]) a2 hu1
  simp only [hst1] at b1 b2 b3 b4 b6 b7
  rw [← hst1] at b1
  rw [← hRd] at b2 b3 b4 b7
  set fs2 := fs1.filter (fun f => !f.isUtility) ++ [s] with hfs2
  have hpl : List.Forall₂ (Plugged ev) (fs.filter (fun f => !f.isUtility)) (rs.filter (fun f => !f.isUtility)) :=
    forall₂_filter a4 (fun c hc r hcr => by rw [isUtility_plugged hR.ids hev (hp.facVars c hc) hcr])
  have hplu : List.Forall₂ (Plugged ev) (fs.filter (fun f => f.isUtility)) (rs.filter (fun f => f.isUtility)) :=
    forall₂_filter a4 (fun c hc r hcr => by rw [isUtility_plugged hR.ids hev (hp.facVars c hc) hcr])
  have hmem1 : ∀ v, (∃ f ∈ fs1, v ∈ f.vars) ↔ (∃ f ∈ fs, v ∈ f.vars) ∧ ∀ e ∈ ev, e.var.id ≠ v.id := by
    intro v
    constructor
    · rintro ⟨f, hf, h⟩
      obtain ⟨c, hc, hcf⟩ := hsub1 f hf
      rw [hcf.vars, List.mem_filter] at h
      exact ⟨⟨c, hc, h.1⟩, by simpa using h.2⟩
    · rintro ⟨⟨c, hc, h⟩, h2⟩
      obtain ⟨r, hr, hcr⟩ := forall₂_mem_left a4 hc
      refine ⟨r, a3.symm.subset hr, ?_⟩
      rw [hcr.vars, List.mem_filter]
      exact ⟨h, by simpa using h2⟩
  have hmem2 : ∀ v, (∃ f ∈ fs2, v ∈ f.vars) ↔ (∃ f ∈ fs1, v ∈ f.vars) ∧ v.nodeType ≠ .utility := by
    intro v
    constructor
    · rintro ⟨f, hf, h⟩
      rcases List.mem_append.1 hf with hf | hf
      · obtain ⟨hf1, hf2⟩ := List.mem_filter.1 hf
        refine ⟨⟨f, hf1, h⟩, fun hvt => ?_⟩
        simp only [Factor.isUtility, Bool.not_eq_true', List.any_eq_false, decide_eq_true_eq] at hf2
        exact hf2 v h hvt
      · simp only [List.mem_singleton] at hf
        subst hf
        obtain ⟨⟨f, hf, _, h1⟩, h2⟩ := (b6 v).1 h
        exact ⟨⟨f, hf, h1⟩, h2⟩
    · rintro ⟨⟨f, hf, h⟩, h2⟩
      cases hfu : f.isUtility with
      | true => exact ⟨s, by simp [hfs2], (b6 v).2 ⟨⟨f, hf, hfu, h⟩, h2⟩⟩
      | false => exact ⟨f, by simp [hfs2, hf, hfu], h⟩
  set st2 : VE α := ⟨{ vs with factorCounter := n2 }, el, deps, fs2, weights, 0 + ev.length + 1, []⟩ with hst2
  have hidn : ((hidden R deps ev q).map Var.id).Nodup := (List.filter_sublist.map _).nodup hR.ids
  have hidspec : ∀ v ∈ hidden R deps ev q, v ∈ R ∧ v.nodeType = .chance ∧ ∀ e ∈ ev, e.var.id ≠ v.id := by
    intro v hv
    simp only [hidden, List.mem_filter, decide_eq_true_eq] at hv
    exact ⟨hv.1, hv.2.1, hv.2.2.1⟩
  obtain ⟨g, st', k1, k2, k3, k4, hs, k5, k6, k7⟩ := finish_spec sch st2 hR hp.depKeys hp.depVars b3 (by
      intro v hv hvt
      rw [b4 v hv (by rw [hvt]; decide)]
      have := hR.index_lt hv
      simp [this]) b2 ev q (by
      intro v hv
      obtain ⟨h1, h2, h3⟩ := hidspec v hv
      exact (hmem2 v).2 ⟨(hmem1 v).2 ⟨hin v hv, h3⟩, by rw [h2]; decide⟩)
  refine ⟨g, st', ?_, k2, ?_, ?_, hs, by simpa [hst2] using k5, k6, ?_⟩
  · unfold VE.solveUtility VE.solve
    rw [h0, a1, ok_bind]
    simp only [if_true]
    rw [b1, ok_bind]
    exact k1
  · intro v
    rw [k3 v]
    change (∃ f ∈ fs2, v ∈ f.vars) ∧ _ ↔ _
    rw [hmem2 v, hmem1 v]
    tauto
  · intro σ hσ hσ0
    rw [k4 σ hσ]
    change sumOver (hidden R deps ev q) (joint fs2) σ = _
    apply sumOver_congr _ hidn
    intro τ t1 t2
    have hfit : FitsFs τ fs2 := by
      intro f hf v hv
      have hvR := b2.sub f hf v hv
      by_cases hh : v.id ∈ (hidden R deps ev q).map Var.id
      · obtain ⟨w, hw, e⟩ := List.mem_map.1 hh
        have := coherent_of_nodup hR.ids w (hidspec w hw).1 v hvR e
        rw [← this]; exact t2 w hw
      · rw [t1 _ hh]
        apply hσ
        rw [k3]
        exact ⟨⟨f, hf, hv⟩, fun h => hh (List.mem_map_of_mem h)⟩
    have hτ0 : ∀ u ∈ utilities R, τ u.id = 0 := by
      intro u hu'
      have hu2 := hu'
      simp only [utilities, List.mem_filter, decide_eq_true_eq] at hu2
      rw [t1, hσ0 u hu']
      intro hh
      obtain ⟨w, hw, e⟩ := List.mem_map.1 hh
      obtain ⟨w1, w2, _⟩ := hidspec w hw
      have := coherent_of_nodup hR.ids w w1 u hu2.1 e
      rw [this, hu2.2] at w2
      exact absurd w2 (by decide)
    rw [hfs2, joint_append, joint_perm (a3.filter _), joint_plugged hpl (by
      intro f hf
      exact hfit f (List.mem_append_left _ ((a3.symm.filter _).subset hf)))]
    congr 1
    simp only [joint, List.map_cons, List.map_nil, List.prod_cons, List.prod_nil, mul_one]
    rw [b7 τ (hfit s (by simp [hfs2])) hτ0, ((a3.filter (fun f => f.isUtility)).map _).sum_eq,
      sum_plugged _ hplu, total_eq (List.Nodup.of_map _ hR.ids) weights fs hp.facVars hu.only]
    · intro c hc r hcr
      obtain ⟨hc1, hc2⟩ := List.mem_filter.1 hc
      have hcu := hc2
      simp only [Factor.isUtility, List.any_eq_true, decide_eq_true_eq] at hcu
      obtain ⟨u, huc, hut⟩ := hcu
      have huR := hp.facVars c hc1 u huc
      rw [factorWeight_eq (List.Nodup.of_map _ hR.ids) huR hut huc (fun w hw hwt => hu.only c hc1 w hw u huc hwt hut),
        factorWeight_eq (List.Nodup.of_map _ hR.ids) huR hut ((plugged_any hR.ids hev hcr huR hut).2 huc)
          (fun w hw hwt => hu.only c hc1 w (by rw [hcr.vars] at hw; exact (List.mem_filter.1 hw).1) u huc hwt hut)]
    · intro f hf v hv
      obtain ⟨hf1, hf2⟩ := List.mem_filter.1 hf
      have hf3 := a3.symm.subset hf1
      by_cases hvt : v.nodeType = .utility
      · have hvR := a2.sub f hf3 v hv
        rw [hτ0 v (by simp [utilities, hvR, hvt]), hu.one v hvR hvt]; omega
      · exact hfit s (by simp [hfs2]) v ((b6 v).2 ⟨⟨f, hf3, hf2, hv⟩, hvt⟩)
  · have hsc : scopes st2.factors = totalScopes fs ev := by
      change scopes fs2 = _
      have happ : scopes fs2 = scopes (fs1.filter (fun f => !f.isUtility)) + {scope s} := by
        unfold scopes; rw [hfs2, List.map_append, ← Multiset.coe_add]; rfl
      rw [happ, totalScopes, scopes_perm (a3.filter _), scopes_plugged hpl]
      congr 2
      ext i
      simp only [mem_scope, b6, Finset.mem_sdiff, List.mem_toFinset, List.mem_flatMap, List.mem_filter, List.mem_map,
        decide_eq_true_eq, evIds, not_exists, not_and]
      constructor
      · rintro ⟨v, ⟨⟨f, hf, h1, h2⟩, h3⟩, rfl⟩
        obtain ⟨c, hc, hcf⟩ := hsub1 f hf
        rw [← isUtility_plugged hR.ids hev (hp.facVars c hc) hcf] at h1
        rw [hcf.vars, List.mem_filter] at h2
        exact ⟨⟨c, ⟨hc, h1⟩, v, ⟨h2.1, h3⟩, rfl⟩, by simpa using h2.2⟩
      · rintro ⟨⟨c, ⟨hc, h1⟩, v, ⟨h2, h3⟩, rfl⟩, h4⟩
        obtain ⟨r, hr, hcr⟩ := forall₂_mem_left a4 hc
        rw [isUtility_plugged hR.ids hev (hp.facVars c hc) hcr] at h1
        refine ⟨v, ⟨⟨r, a3.symm.subset hr, h1, ?_⟩, h3⟩, rfl⟩
        rw [hcr.vars, List.mem_filter]
        exact ⟨h2, by simpa using h4⟩
    rw [← hsc]; exact k7

theorem order_unique {S : Multiset (Finset Nat)} {as bs : List Var} (h : as.Perm bs) (ha : as.Pairwise (DegreeThenId S))
    (hb : bs.Pairwise (DegreeThenId S)) : as = bs := by
  refine h.eq_of_pairwise ?_ ha hb
  intro a b _ _ h1 h2
  unfold DegreeThenId at h1 h2
  omega

theorem sumOver_zero [AddCommMonoid α] (vs : List Var) (σ : Assignment) : sumOver vs (fun _ => (0 : α)) σ = 0 := by
  induction vs generalizing σ with
  | nil => rfl
  | cons v vs ih => simp [sumOver, ih]

theorem sumOver_add [AddCommMonoid α] (vs : List Var) (F G : Assignment → α) (σ : Assignment) :
    sumOver vs (fun τ => F τ + G τ) σ = sumOver vs F σ + sumOver vs G σ := by
  induction vs generalizing σ with
  | nil => rfl
  | cons v vs ih => simp [sumOver, ih, Finset.sum_add_distrib]

theorem sumOver_list_sum [AddCommMonoid α] {β : Type} (vs : List Var) (l : List β) (F : β → Assignment → α)
    (σ : Assignment) :
    sumOver vs (fun τ => (l.map (fun b => F b τ)).sum) σ = (l.map (fun b => sumOver vs (F b) σ)).sum := by
  induction l with
  | nil => simp [sumOver_zero]
  | cons b l ih => simp only [List.map_cons, List.sum_cons]; rw [sumOver_add, ih]

theorem sumOver_mul_left [CommSemiring α] (vs : List Var) (c : α) (F : Assignment → α) (σ : Assignment) :
    sumOver vs (fun τ => c * F τ) σ = c * sumOver vs F σ := by
  induction vs generalizing σ with
  | nil => rfl
  | cons v vs ih => simp [sumOver, ih, Finset.mul_sum]

end Bbn
