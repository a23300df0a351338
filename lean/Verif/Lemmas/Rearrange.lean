import Verif.Lemmas.SumOut
import Mathlib.Algebra.Field.Basic

/-!
# Lemmas on `Rearrange`, `Normalize`, `NormalizeFor`, `Invert`
-/

set_option autoImplicit false

namespace Bbn

open Finset

variable {α : Type}

theorem foldl_set_length {β : Type _} (ps : List (Nat × β)) (init : List β) :
    (ps.foldl (fun old p => old.set p.1 p.2) init).length = init.length := by
  induction ps generalizing init with
  | nil => rfl
  | cons p ps ih => simp [ih]

theorem foldl_set_get {β : Type _} {q : Nat} {x : β} :
    ∀ (ps : List (Nat × β)) (init : List β), q < init.length → (∀ p ∈ ps, p.1 = q → p.2 = x) →
      (init[q]? = some x ∨ ∃ p ∈ ps, p.1 = q) → (ps.foldl (fun old p => old.set p.1 p.2) init)[q]? = some x
  | [], init, _, _, h => by simpa using h
  | p :: ps, init, hq, hall, h => by
    rw [List.foldl_cons]
    apply foldl_set_get ps _ (by simpa using hq) (fun p' hp' => hall p' (by simp [hp']))
    by_cases e : p.1 = q
    · left
      have := hall p (by simp) e
      rw [List.getElem?_set, if_pos e, if_pos (by omega), this]
    · rcases h with h | ⟨p', hp', e'⟩
      · left; rw [List.getElem?_set, if_neg e]; exact h
      · rcases List.mem_cons.1 hp' with rfl | hp'
        · exact absurd e' e
        · exact .inr ⟨p', hp', e'⟩

theorem slicesIndex_inj {β : Type _} [DecidableEq β] {x y : β} {l : List β} {i : Nat}
    (hx : slicesIndex x l = some i) (hy : slicesIndex y l = some i) : x = y := by
  have h1 := slicesIndex_some hx
  have h2 := slicesIndex_some hy
  rw [h1] at h2; simpa using h2

theorem slicesIndex_of_getElem? {β : Type _} [DecidableEq β] {x : β} {l : List β} {i : Nat} (hn : l.Nodup)
    (h : l[i]? = some x) : slicesIndex x l = some i := by
  obtain ⟨j, hj⟩ := slicesIndex_mem (List.mem_of_getElem? h)
  have h2 := slicesIndex_some hj
  have hi := (List.getElem?_eq_some_iff.1 h)
  have hj' := (List.getElem?_eq_some_iff.1 h2)
  have : i = j := by
    have := hi.2.trans hj'.2.symm
    exact (List.Nodup.getElem_inj_iff hn).1 this
  rw [hj, this]

theorem mapM_slicesIndex {ws vs : List Var} (h : ∀ v ∈ ws, v ∈ vs) :
    ws.mapM (oldPos vs) = .ok (ws.map (fun v => (slicesIndex v vs).getD 0)) := by
  induction ws with
  | nil => rfl
  | cons w ws ih =>
    obtain ⟨i, hi⟩ := slicesIndex_mem (h w (by simp))
    have e : oldPos vs w = .ok i := by simp [oldPos, hi]
    rw [List.mapM_cons, ih (fun v hv => h v (by simp [hv])), e]
    simp only [ok_bind]
    simp [hi, pure, Except.pure]

theorem scatter_tupleOf {ws vs : List Var} (hn : vs.Nodup) (hp : ws.Perm vs) (σ : Assignment) :
    scatter vs.length (ws.map (fun v => (slicesIndex v vs).getD 0)) (tupleOf ws σ) = tupleOf vs σ := by
  have hz : (ws.map (fun v => (slicesIndex v vs).getD 0)).zip (tupleOf ws σ) =
      ws.map (fun v => ((slicesIndex v vs).getD 0, σ v.id)) := by
    rw [tupleOf, List.zip_map']
  unfold scatter
  rw [hz]
  apply List.ext_getElem?
  intro q
  by_cases hq : q < vs.length
  · have hq' : vs[q]? = some vs[q] := List.getElem?_eq_getElem hq
    have hr : (tupleOf vs σ)[q]? = some (σ vs[q].id) := by
      rw [tupleOf, List.getElem?_map, hq']; rfl
    rw [hr]
    apply foldl_set_get _ _ (by simpa using hq)
    · intro p hp' e
      obtain ⟨v, hv, rfl⟩ := List.mem_map.1 hp'
      obtain ⟨i, hi⟩ := slicesIndex_mem (hp.subset hv)
      simp only [hi, Option.getD_some] at e
      subst e
      have := slicesIndex_some hi
      rw [hq'] at this
      simp only [Option.some.injEq] at this
      rw [this]
    · right
      have hm : vs[q] ∈ ws := hp.symm.subset (List.getElem_mem hq)
      refine ⟨_, List.mem_map_of_mem hm, ?_⟩
      simp [slicesIndex_of_getElem? hn hq']
  · have e1 : (List.foldl (fun old p => old.set p.1 p.2) (List.replicate vs.length 0)
        (List.map (fun v => ((slicesIndex v vs).getD 0, σ v.id)) ws)).length = vs.length := by
      rw [foldl_set_length]; simp
    rw [List.getElem?_eq_none (by omega), List.getElem?_eq_none (by simp [tupleOf]; omega)]

theorem size_perm {vs ws : List Var} (h : vs.Perm ws) : size vs = size ws := by
  induction h with
  | nil => rfl
  | cons v _ ih => simp [size, ih]
  | swap v w l => simp [size, Nat.mul_left_comm]
  | trans _ _ h1 h2 => exact h1.trans h2

theorem eq_of_ids_eq {vs ws : List Var} (hp : ws.Perm vs) (hn : (vs.map Var.id).Nodup)
    (h : ws.map Var.id = vs.map Var.id) : ws = vs := by
  have hc := coherent_of_nodup hn
  have hlen : ws.length = vs.length := hp.length_eq
  apply List.ext_getElem hlen
  intro i h1 h2
  apply hc _ (hp.subset (List.getElem_mem h1)) _ (List.getElem_mem h2)
  have : (ws.map Var.id)[i]'(by simpa using h1) = (vs.map Var.id)[i]'(by simpa using h2) := by
    simp only [h]
  simpa using this

/-- `Rearrange` to a permutation of the factor's variables keeps all values. -/
theorem rearrange_spec [Zero α] (s : Vs) (f : Factor α) (hf : f.WF) (ws : List Var) (hp : ws.Perm f.vars) :
    ∃ g : Factor α, s.rearrange f ws = .ok (g, { s with factorCounter := s.factorCounter + 1 }) ∧
      g.WF ∧ g.id = s.factorCounter ∧ g.vars = ws ∧ ∀ σ, Fits σ f.vars → g.val σ = f.val σ := by
  have hnv : f.vars.Nodup := List.Nodup.of_map _ hf.nodup
  have hnw : (ws.map Var.id).Nodup := (hp.map Var.id).symm.nodup hf.nodup
  unfold Vs.rearrange
  rw [if_neg (by simp [hp.length_eq]), mapM_slicesIndex (fun v hv => hp.subset hv), ok_bind]
  by_cases he : ws.map Var.id = f.vars.map Var.id
  · have := eq_of_ids_eq hp hf.nodup he
    subst this
    rw [if_pos rfl]
    exact ⟨⟨s.factorCounter, f.data, f.vars⟩, by simp [Vs.createFactor, hf.len], ⟨hf.len, hf.nodup⟩, rfl, rfl,
      fun σ _ => rfl⟩
  · rw [if_neg he]
    have hget : ∀ t, InRange ws t →
        f.getN (scatter f.vars.length (ws.map (fun v => (slicesIndex v f.vars).getD 0)) t) =
          .ok (f.val (assignOf ws t)) := by
      intro t ht
      have h1 := tupleOf_assignOf hnw ht.length
      have hfit : Fits (assignOf ws t) ws := fits_of_inRange (by rw [h1]; exact ht)
      have := scatter_tupleOf hnv hp (assignOf ws t)
      rw [h1] at this
      rw [this]
      exact getN_tupleOf hf.len (hfit.mono (fun v hv => hp.symm.subset hv))
    refine ⟨⟨s.factorCounter, (List.range (size ws)).map (fun j => f.val (assignOf ws (outcomesOf ws j))), ws⟩,
      ?_, ⟨by simp, hnw⟩, rfl, rfl, ?_⟩
    · simp only [Vs.createFactor, ok_bind, List.length_replicate]
      rw [odoBuild_full (h := fun t => f.val (assignOf ws t)) hget]
      rfl
    · intro σ hσ
      have hσ' : Fits σ ws := hσ.mono (fun v hv => hp.subset hv)
      have ht := tupleOf_inRange hσ'
      simp only [Factor.val]
      rw [getD_odo (h := fun t => f.data.getD (flatIndex f.vars (tupleOf f.vars (assignOf ws t))) 0) ht]
      congr 2
      apply tupleOf_congr
      intro v hv
      have h1 := tupleOf_assignOf hnw (t := tupleOf ws σ) (tupleOf_length _ _)
      exact List.map_inj_left.1 h1 v (hp.symm.subset hv)

theorem getD_map [Zero α] {l : List α} {f : α → α} {i : Nat} (h : i < l.length) :
    (l.map f).getD i 0 = f (l.getD i 0) := by
  simp [List.getD_eq_getElem?_getD, List.getElem?_map, List.getElem?_eq_getElem h]

/-- `Normalize` divides each value by the total. No laws needed. -/
theorem normalize_spec [Zero α] [Add α] [Div α] (s : Vs) (f : Factor α) (hf : f.WF) :
    ∃ g : Factor α, s.normalize f = .ok (g, { s with factorCounter := s.factorCounter + 1 }) ∧
      g.WF ∧ g.id = s.factorCounter ∧ g.vars = f.vars ∧ g.data = f.data.map (· / goSum f.data) ∧
      ∀ σ, Fits σ f.vars → g.val σ = f.val σ / goSum f.data := by
  refine ⟨⟨s.factorCounter, f.data.map (· / goSum f.data), f.vars⟩, ?_, ⟨by simp [hf.len], hf.nodup⟩, rfl, rfl,
    rfl, ?_⟩
  · simp only [Vs.normalize, Vs.createFactor, hf.len, ne_eq, not_true_eq_false, if_false, ok_bind]
    rfl
  · intro σ hσ
    have := flatIndex_lt (tupleOf_inRange hσ)
    simp only [Factor.val]
    rw [getD_map (by rw [hf.len]; exact this)]

/-- `Invert` takes reciprocals. No laws needed. -/
theorem invert_spec [Zero α] [One α] [Div α] (s : Vs) (f : Factor α) (hf : f.WF) :
    ∃ g : Factor α, s.invert f = .ok (g, { s with factorCounter := s.factorCounter + 1 }) ∧
      g.WF ∧ g.id = s.factorCounter ∧ g.vars = f.vars ∧
      ∀ σ, Fits σ f.vars → g.val σ = 1 / f.val σ := by
  refine ⟨⟨s.factorCounter, f.data.map (1 / ·), f.vars⟩, ?_, ⟨by simp [hf.len], hf.nodup⟩, rfl, rfl, ?_⟩
  · simp only [Vs.invert, Vs.createFactor, hf.len, ne_eq, not_true_eq_false, if_false, ok_bind]
    rfl
  · intro σ hσ
    have := flatIndex_lt (tupleOf_inRange hσ)
    simp only [Factor.val]
    rw [getD_map (by rw [hf.len]; exact this)]

theorem goSum_eq_sum [AddCommMonoid α] (l : List α) : goSum l = ∑ k ∈ range l.length, l.getD k 0 := by
  have : ∀ (l : List α) (a : α), l.foldl (· + ·) a = a + ∑ k ∈ range l.length, l.getD k 0 := by
    intro l
    induction l with
    | nil => simp
    | cons x l ih =>
      intro a
      rw [List.foldl_cons, ih, List.length_cons, Finset.sum_range_succ']
      simp only [List.getD_cons_succ, List.getD_cons_zero]
      rw [add_assoc, add_comm x]
  have := this l 0
  rw [zero_add] at this
  exact this

theorem normBins_length [Zero α] [Add α] [Div α] [DecidableEq α] (m : Nat) :
    ∀ (n : Nat) (d : List α), (normBins m n d).length = d.length
  | 0, d => rfl
  | n + 1, d => by
    have h1 : (normBin (d.take m)).length = (d.take m).length := by
      unfold normBin; simp only; split <;> simp
    rw [normBins, List.length_append, h1, normBins_length m n]; simp; omega

theorem normBins_get [Zero α] [Add α] [Div α] [DecidableEq α] {m : Nat} :
    ∀ (n : Nat) (d : List α) (r c : Nat), d.length = n * m → r < n → c < m →
      (normBins m n d).getD (r * m + c) 0 =
        if goSum ((d.drop (r * m)).take m) = 0 then d.getD (r * m + c) 0
        else d.getD (r * m + c) 0 / goSum ((d.drop (r * m)).take m)
  | 0, d, r, c, _, hr, _ => by omega
  | n + 1, d, r, c, hd, hr, hc => by
    have hmd : m ≤ d.length := by rw [hd, Nat.succ_mul]; omega
    have h1 : (normBin (d.take m)).length = m := by
      unfold normBin; simp only; split <;> simp [hmd]
    rw [normBins]
    cases r with
    | zero =>
      simp only [Nat.zero_mul, Nat.zero_add, List.drop_zero]
      rw [List.getD_eq_getElem?_getD, List.getElem?_append_left (by omega), ← List.getD_eq_getElem?_getD]
      have e : (d.take m).getD c 0 = d.getD c 0 := by
        simp [List.getD_eq_getElem?_getD, hc]
      unfold normBin
      simp only
      split
      · exact e
      · rw [getD_map (by simp; omega), e]
    | succ r =>
      have e1 : (r + 1) * m + c = m + (r * m + c) := by rw [Nat.succ_mul]; omega
      rw [List.getD_eq_getElem?_getD, List.getElem?_append_right (by omega), h1, ← List.getD_eq_getElem?_getD]
      have e2 : (r + 1) * m + c - m = r * m + c := by omega
      rw [e2, normBins_get n (d.drop m) r c (by simp [hd, Nat.succ_mul]) (by omega) hc]
      have e3 : (d.drop m).drop (r * m) = d.drop ((r + 1) * m) := by
        rw [List.drop_drop]; congr 1; rw [Nat.succ_mul]; omega
      have e4 : (d.drop m).getD (r * m + c) 0 = d.getD ((r + 1) * m + c) 0 := by
        simp only [List.getD_eq_getElem?_getD, List.getElem?_drop]; rw [e1]
      rw [e3, e4]

theorem perm_moveLast {vs : List Var} {p : Nat} {w : Var} (hp : vs[p]? = some w) :
    (vs.eraseIdx p ++ [w]).Perm vs := by
  have hlt := (List.getElem?_eq_some_iff.1 hp)
  have : vs.Perm (vs[p]'hlt.1 :: vs.eraseIdx p) := (List.getElem_cons_eraseIdx_perm hlt.1).symm
  rw [hlt.2] at this
  exact (List.perm_append_comm.trans (by simp)).trans this.symm

theorem tupleOf_append (vs ws : List Var) (σ : Assignment) : tupleOf (vs ++ ws) σ = tupleOf vs σ ++ tupleOf ws σ := by
  simp [tupleOf]

theorem sum_getD_take_drop [AddCommMonoid α] {d : List α} {a m : Nat} (h : a + m ≤ d.length) :
    goSum ((d.drop a).take m) = ∑ c ∈ range m, d.getD (a + c) 0 := by
  rw [goSum_eq_sum]
  have : ((d.drop a).take m).length = m := by simp; omega
  rw [this]
  apply Finset.sum_congr rfl
  intro c hc
  have : c < m := by simpa using hc
  simp [List.getD_eq_getElem?_getD, this]

/-- `NormalizeFor` on a well-formed factor that contains the variable. -/
theorem normalizeFor_spec [AddCommMonoid α] [Div α] [DecidableEq α] (s : Vs) (f : Factor α) (hf : f.WF) (v : Var)
    (hv : v ∈ f.vars) (hpos : 0 < v.outcomes) :
    ∃ g : Factor α, s.normalizeFor f v = .ok (g, { s with factorCounter := s.factorCounter + 1 }) ∧
      g.WF ∧ g.id = s.factorCounter ∧ g.vars = otherVars v.id f.vars ++ [v] ∧
      ∀ σ, Fits σ f.vars → g.val σ =
        if ∑ c ∈ range v.outcomes, f.val (σ.upd v.id c) = 0 then f.val σ
        else f.val σ / ∑ c ∈ range v.outcomes, f.val (σ.upd v.id c) := by
  obtain ⟨p, hp⟩ := mem_ids_firstIdx (List.mem_map_of_mem (f := Var.id) hv)
  obtain ⟨w, hw, hid⟩ := firstIdx_some hp
  have hwv : w = v := coherent_of_nodup hf.nodup w (List.mem_of_getElem? hw) v hv hid
  subst hwv
  have ho := otherVars_eq_eraseIdx hf.nodup hw
  have hperm := perm_moveLast hw
  obtain ⟨g, h1, hg, h3, h4, h5⟩ := rearrange_spec s f hf (f.vars.eraseIdx p ++ [w]) hperm
  have hsz : size g.vars = size (f.vars.eraseIdx p) * w.outcomes := by
    rw [h4, size_append]; simp [size]
  have hlen : g.data.length = size (f.vars.eraseIdx p) * w.outcomes := by rw [hg.len, hsz]
  have hbins : g.data.length / w.outcomes = size (f.vars.eraseIdx p) := by
    rw [hlen, Nat.mul_div_cancel _ hpos]
  refine ⟨⟨g.id, normBins w.outcomes (size (f.vars.eraseIdx p)) g.data, g.vars⟩, ?_,
    ⟨by simp [normBins_length, hg.len], hg.nodup⟩, h3, by simp [h4, ho], ?_⟩
  · unfold Vs.normalizeFor
    rw [hp]
    simp only
    rw [goGet_eq.2 hw, ok_bind, h1, ok_bind]
    simp only
    rw [if_neg (by omega), hbins]; rfl
  · intro σ hσ
    have hσ' : Fits σ (f.vars.eraseIdx p) := hσ.mono (fun v hv => (List.eraseIdx_sublist ..).subset hv)
    have ht' := tupleOf_inRange hσ'
    have hlt := flatIndex_lt ht'
    have hwlt : σ w.id < w.outcomes := hσ w hv
    have hidx : ∀ c, flatIndex g.vars (tupleOf g.vars (σ.upd w.id c)) =
        flatIndex (f.vars.eraseIdx p) (tupleOf (f.vars.eraseIdx p) σ) * w.outcomes + c := by
      intro c
      rw [h4, tupleOf_append]
      have e1 : tupleOf (f.vars.eraseIdx p) (σ.upd w.id c) = tupleOf (f.vars.eraseIdx p) σ := by
        apply tupleOf_congr
        intro u hu
        have := (mem_otherVars.1 (ho ▸ hu)).2
        simp [Assignment.upd, this]
      rw [e1, flatIndex_append _ _ _ _ (tupleOf_length _ _) (tupleOf_length _ _)]
      simp [size, tupleOf, Assignment.upd, flatIndex, indexLoop]
    have hidx0 : flatIndex g.vars (tupleOf g.vars σ) =
        flatIndex (f.vars.eraseIdx p) (tupleOf (f.vars.eraseIdx p) σ) * w.outcomes + σ w.id := by
      rw [← hidx, upd_self]
    have hval : ∀ c, c < w.outcomes → g.data.getD
        (flatIndex (f.vars.eraseIdx p) (tupleOf (f.vars.eraseIdx p) σ) * w.outcomes + c) 0 =
        f.val (σ.upd w.id c) := by
      intro c hc
      rw [← hidx, ← h5]
      · rfl
      · apply fits_upd (hσ.mono (fun u hu => (mem_otherVars.1 hu).1))
        intro u hu e
        have := coherent_of_nodup hf.nodup u hu w hv e
        rw [this]; exact hc
    set r := flatIndex (f.vars.eraseIdx p) (tupleOf (f.vars.eraseIdx p) σ) with hr
    have hsum : goSum ((g.data.drop (r * w.outcomes)).take w.outcomes) =
        ∑ c ∈ range w.outcomes, f.val (σ.upd w.id c) := by
      rw [sum_getD_take_drop]
      · apply Finset.sum_congr rfl
        intro c hc
        exact hval c (by simpa using hc)
      · rw [hlen, ← Nat.succ_mul]; exact Nat.mul_le_mul_right _ hlt
    have e2 : g.data.getD (r * w.outcomes + σ w.id) 0 = f.val σ := by
      rw [hval _ hwlt, upd_self]
    show (normBins _ _ _).getD (flatIndex g.vars (tupleOf g.vars σ)) 0 = _
    rw [hidx0, normBins_get _ _ _ _ hlen hlt hwlt, hsum, e2]

end Bbn
