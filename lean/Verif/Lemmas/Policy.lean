import Verif.Lemmas.Rearrange
import Verif.Spec.Policy
import Mathlib.Algebra.Order.Field.Basic

/-!
# Lemmas on `Policy`
-/

set_option autoImplicit false

namespace Bbn

open Finset

variable {α : Type}

/-- Positions of `row` whose entry is maximal. -/
def argmaxList [LinearOrder α] (row : List α) : List Nat :=
  (List.range row.length).filter (fun c => ∀ x ∈ row, ∀ y, row[c]? = some y → x ≤ y)

theorem argmaxLoop_spec [LinearOrder α] :
    ∀ (us pre : List α) (m : α), m ∈ pre → (∀ x ∈ pre, x ≤ m) →
      argmaxLoop pre.length us (some m) ((List.range pre.length).filter (fun c => pre[c]? = some m)) =
        argmaxList (pre ++ us)
  | [], pre, m, hm, hmax => by
    unfold argmaxLoop argmaxList
    rw [List.append_nil]
    apply List.filter_congr
    intro c hc
    have hc' : c < pre.length := by simpa using hc
    rw [List.getElem?_eq_getElem hc']
    simp only [Option.some.injEq, decide_eq_decide]
    constructor
    · rintro e x hx y rfl; rw [e]; exact hmax x hx
    · intro h; exact le_antisymm (hmax _ (List.getElem_mem hc')) (h m hm _ rfl)
  | u :: us, pre, m, hm, hmax => by
    have hstep : ∀ acc m', argmaxLoop (pre ++ [u]).length us (some m') acc =
        argmaxLoop (pre.length + 1) us (some m') acc := by intro acc m'; simp
    have happ : pre ++ u :: us = (pre ++ [u]) ++ us := by simp
    rw [argmaxLoop]
    by_cases h1 : m < u
    · rw [if_pos h1, happ, ← argmaxLoop_spec us (pre ++ [u]) u (by simp)
        (by intro x hx; rcases List.mem_append.1 hx with hx | hx
            · exact (hmax x hx).trans h1.le
            · simp at hx; rw [hx]), hstep]
      congr 1
      have : (List.range (pre ++ [u]).length) = List.range pre.length ++ [pre.length] := by
        simp [List.range_succ]
      rw [this, List.filter_append]
      have e1 : List.filter (fun c => decide ((pre ++ [u])[c]? = some u)) (List.range pre.length) = [] := by
        rw [List.filter_eq_nil_iff]
        intro c hc
        have hc' : c < pre.length := by simpa using hc
        rw [List.getElem?_append_left hc', List.getElem?_eq_getElem hc']
        simp only [Option.some.injEq, decide_eq_true_eq]
        intro e
        have := hmax _ (List.getElem_mem hc')
        rw [e] at this
        exact absurd h1 (not_lt.2 this)
      rw [e1]; simp
    · rw [if_neg h1]
      have hrange : (List.range (pre ++ [u]).length) = List.range pre.length ++ [pre.length] := by
        simp [List.range_succ]
      have e1 : List.filter (fun c => decide ((pre ++ [u])[c]? = some m)) (List.range pre.length) =
          List.filter (fun c => decide (pre[c]? = some m)) (List.range pre.length) := by
        apply List.filter_congr
        intro c hc
        have hc' : c < pre.length := by simpa using hc
        rw [List.getElem?_append_left hc']
      have hmax' : ∀ x ∈ pre ++ [u], x ≤ m := by
        intro x hx; rcases List.mem_append.1 hx with hx | hx
        · exact hmax x hx
        · simp at hx; rw [hx]; exact not_lt.1 h1
      by_cases h2 : u = m
      · rw [if_pos h2, happ, ← argmaxLoop_spec us (pre ++ [u]) m (by simp [hm]) hmax', hstep]
        congr 1
        rw [hrange, List.filter_append, e1]; simp [h2]
      · rw [if_neg h2, happ, ← argmaxLoop_spec us (pre ++ [u]) m (by simp [hm]) hmax', hstep]
        congr 1
        rw [hrange, List.filter_append, e1]; simp [h2]

theorem argmaxLoop_full [LinearOrder α] (row : List α) : argmaxLoop 0 row none [] = argmaxList row := by
  cases row with
  | nil => rfl
  | cons u us =>
    rw [argmaxLoop, if_pos (le_refl u)]
    have := argmaxLoop_spec us [u] u (by simp) (by simp)
    simpa using this

theorem argmaxList_map [LinearOrder α] (n : Nat) (u : Nat → α) :
    argmaxList ((List.range n).map u) = bestOutcomes n u := by
  unfold argmaxList bestOutcomes
  rw [List.length_map, List.length_range]
  apply List.filter_congr
  intro c hc
  have hc' : c < n := by simpa using hc
  simp only [List.mem_map, List.mem_range, forall_exists_index, and_imp, forall_apply_eq_imp_iff₂,
    List.getElem?_map, List.getElem?_range hc', Option.map_some, Option.some.injEq, decide_eq_decide]
  constructor
  · intro h c' h'; exact h c' h' _ rfl
  · rintro h c' h' y rfl; exact h c' h'

theorem bestOutcomes_nodup [LinearOrder α] (n : Nat) (u : Nat → α) : (bestOutcomes n u).Nodup :=
  List.Nodup.filter _ List.nodup_range

theorem mem_bestOutcomes [LinearOrder α] {n c : Nat} {u : Nat → α} :
    c ∈ bestOutcomes n u ↔ c < n ∧ ∀ c' < n, u c' ≤ u c := by
  simp [bestOutcomes]

theorem bestOutcomes_ne_nil [LinearOrder α] {n : Nat} (hn : 0 < n) (u : Nat → α) : bestOutcomes n u ≠ [] := by
  have : ∃ c < n, ∀ c' < n, u c' ≤ u c := by
    induction n with
    | zero => omega
    | succ n ih =>
      rcases Nat.eq_zero_or_pos n with h0 | hp
      · subst h0
        refine ⟨0, by omega, fun c' h' => ?_⟩
        have : c' = 0 := by omega
        rw [this]
      · obtain ⟨c, hc, hmax⟩ := ih hp
        rcases le_total (u c) (u n) with h | h
        · refine ⟨n, by omega, fun c' h' => ?_⟩
          rcases Nat.lt_succ_iff_lt_or_eq.1 h' with h'' | rfl
          · exact (hmax c' h'').trans h
          · exact le_refl _
        · refine ⟨c, by omega, fun c' h' => ?_⟩
          rcases Nat.lt_succ_iff_lt_or_eq.1 h' with h'' | rfl
          · exact hmax c' h''
          · exact h
  obtain ⟨c, hc, hm⟩ := this
  intro e
  have : c ∈ bestOutcomes n u := mem_bestOutcomes.2 ⟨hc, hm⟩
  rw [e] at this; simp at this

theorem mapM_ok {β γ : Type} {l : List β} {g : β → Except Fault γ} {h : β → γ} (hg : ∀ x ∈ l, g x = .ok (h x)) :
    l.mapM g = .ok (l.map h) := by
  induction l with
  | nil => rfl
  | cons x l ih =>
    rw [List.mapM_cons, hg x (by simp), ok_bind, ih (fun y hy => hg y (by simp [hy])), ok_bind]; rfl

theorem outcomesOf_append_zero (vs : List Var) (w : Var) (hw : 0 < w.outcomes) (r : Nat) :
    outcomesOf (vs ++ [w]) (r * w.outcomes) = outcomesOf vs r ++ [0] := by
  have key : ∀ vs : List Var, outcomesLoop (vs ++ [w]) (r * w.outcomes) =
      ((outcomesLoop vs r).1 ++ [0], (outcomesLoop vs r).2) := by
    intro vs
    induction vs with
    | nil => simp [outcomesLoop, Nat.mul_div_cancel _ hw]
    | cons v vs ih => simp [outcomesLoop, ih]
  simp [outcomesOf, key]

theorem foldlM_set_spec [Zero α] (vars : List Var) (x : α) (base : List Nat) (hb : ∀ c, (base ++ [c]).length = vars.length) :
    ∀ (cs : List Nat) (new : List α), (∀ c ∈ cs, flatIndex vars (base ++ [c]) < new.length) →
      ∃ d, cs.foldlM (fun d c => do
          let j ← varsIndex vars (base ++ [c])
          goSet d j x) new = .ok d ∧ d.length = new.length ∧
        ∀ j, d.getD j 0 = if ∃ c ∈ cs, flatIndex vars (base ++ [c]) = j then x else new.getD j 0
  | [], new, _ => ⟨new, rfl, rfl, by simp⟩
  | c :: cs, new, h => by
    have hc := h c (by simp)
    obtain ⟨d, h1, h2, h3⟩ := foldlM_set_spec vars x base hb cs (new.set (flatIndex vars (base ++ [c])) x)
      (by intro c' hc'; simpa using h c' (by simp [hc']))
    refine ⟨d, ?_, by simpa using h2, ?_⟩
    · rw [List.foldlM_cons, varsIndex_ok (hb c), ok_bind, goSet_ok hc, ok_bind]
      exact h1
    · intro j
      rw [h3, getD_set hc]
      by_cases e : ∃ c' ∈ cs, flatIndex vars (base ++ [c']) = j
      · rw [if_pos e, if_pos (by obtain ⟨c', h', e'⟩ := e; exact ⟨c', by simp [h'], e'⟩)]
      · rw [if_neg e]
        by_cases e2 : flatIndex vars (base ++ [c]) = j
        · rw [if_pos e2, if_pos ⟨c, by simp, e2⟩]
        · rw [if_neg e2, if_neg]
          rintro ⟨c', h', e'⟩
          rcases List.mem_cons.1 h' with rfl | h'
          · exact e2 e'
          · exact e ⟨c', h', e'⟩

section
variable [Zero α] [One α] [Div α] [NatCast α] [LinearOrder α]

/-- Value of the policy at an assignment. -/
def policyVal (f : Factor α) (w : Var) (σ : Assignment) : α :=
  if σ w.id ∈ bestOutcomes w.outcomes (fun c => f.val (σ.upd w.id c)) then
    1 / ((bestOutcomes w.outcomes (fun c => f.val (σ.upd w.id c))).length : α) else 0

theorem policy_rows_spec (f : Factor α) (hf : f.WF) {p : Nat} {w : Var} (hw : f.vars[p]? = some w) (hpos : 0 < w.outcomes) :
    ∀ (n r : Nat) (new : List α), r + n = size (f.vars.eraseIdx p) →
      new.length = size (f.vars.eraseIdx p ++ [w]) →
      (∀ σ, Fits σ f.vars → new.getD (flatIndex (f.vars.eraseIdx p ++ [w]) (tupleOf (f.vars.eraseIdx p ++ [w]) σ)) 0 =
        if flatIndex (f.vars.eraseIdx p) (tupleOf (f.vars.eraseIdx p) σ) < r then policyVal f w σ else 0) →
      ∃ d, (List.range' r n).foldlM (fun d row => policyRow f (f.vars.eraseIdx p ++ [w]) p w.outcomes row d) new = .ok d ∧
        d.length = size (f.vars.eraseIdx p ++ [w]) ∧
        ∀ σ, Fits σ f.vars → d.getD (flatIndex (f.vars.eraseIdx p ++ [w]) (tupleOf (f.vars.eraseIdx p ++ [w]) σ)) 0 =
          policyVal f w σ
  | 0, r, new, hr, hl, hinv => by
    refine ⟨new, rfl, hl, ?_⟩
    intro σ hσ
    have hlt := flatIndex_lt (tupleOf_inRange (hσ.mono (vs := f.vars.eraseIdx p)
      (fun v hv => (List.eraseIdx_sublist ..).subset hv)))
    rw [hinv σ hσ, if_pos (by omega)]
  | n + 1, r, new, hr, hl, hinv => by
    have ho := otherVars_eq_eraseIdx hf.nodup hw
    set others := f.vars.eraseIdx p with hothers
    have hrlt : r < size others := by omega
    have hne : (others.map Var.id).Nodup := by rw [← ho]; exact otherVars_nodup hf.nodup
    have hrow := outcomesOf_inRange hrlt
    have hbase : (outcomesOf (others ++ [w]) (r * w.outcomes)).dropLast = outcomesOf others r := by
      rw [outcomesOf_append_zero _ _ hpos, List.dropLast_concat]
    have htup : ∀ τ : Assignment, ∀ c, tupleOf f.vars (τ.upd w.id c) = (tupleOf others τ).insertIdx p c :=
      fun τ c => tupleOf_upd hf.nodup hw τ c
    let τ := assignOf others (outcomesOf others r)
    have hτ : tupleOf others τ = outcomesOf others r := tupleOf_assignOf hne (outcomesOf_length _ _)
    have hτfit : Fits τ others := fits_of_inRange (by rw [hτ]; exact hrow)
    have hfitupd : ∀ c, c < w.outcomes → Fits (τ.upd w.id c) f.vars := by
      intro c hc
      apply fits_upd (by rw [ho]; exact hτfit)
      intro u hu e
      have := coherent_of_nodup hf.nodup u hu w (List.mem_of_getElem? hw) e
      rw [this]; exact hc
    have hrd : (List.range w.outcomes).mapM
        (fun c => f.getN ((outcomesOf (others ++ [w]) (r * w.outcomes)).dropLast.insertIdx p c)) =
        .ok ((List.range w.outcomes).map (fun c => f.val (τ.upd w.id c))) := by
      apply mapM_ok
      intro c hc
      rw [hbase, ← hτ, ← htup]
      exact getN_tupleOf hf.len (hfitupd c (by simpa using hc))
    set best := bestOutcomes w.outcomes (fun c => f.val (τ.upd w.id c)) with hbest
    have hbne : best ≠ [] := bestOutcomes_ne_nil hpos _
    have hidx : ∀ c, flatIndex (others ++ [w]) (outcomesOf others r ++ [c]) = r * w.outcomes + c := by
      intro c
      rw [flatIndex_append _ _ _ _ (outcomesOf_length _ _) rfl, flatIndex_outcomesOf hrlt]
      simp [size, flatIndex, indexLoop]
    have hsz : size (others ++ [w]) = size others * w.outcomes := by rw [size_append]; simp [size]
    obtain ⟨d, h1, h2, h3⟩ := foldlM_set_spec (others ++ [w]) (1 / (best.length : α)) (outcomesOf others r)
      (by intro c; simp [outcomesOf_length]) best new (by
        intro c hc
        have hc' := (mem_bestOutcomes.1 hc).1
        rw [hidx, hl, hsz]
        calc r * w.outcomes + c < r * w.outcomes + w.outcomes := by omega
          _ = (r + 1) * w.outcomes := by ring
          _ ≤ _ := Nat.mul_le_mul_right _ hrlt)
    have hrowEq : policyRow f (others ++ [w]) p w.outcomes r new = .ok d := by
      unfold policyRow
      simp only
      rw [hrd, ok_bind, argmaxLoop_full, argmaxList_map, ← hbest]
      rw [if_neg (by simpa using hbne), hbase]
      exact h1
    rw [List.range'_succ, List.foldlM_cons, hrowEq, ok_bind]
    apply policy_rows_spec f hf hw hpos n (r + 1) d (by rw [← hothers]; omega) (by rw [h2, hl])
    intro σ hσ
    have hσo : Fits σ others := hσ.mono (fun v hv => (List.eraseIdx_sublist ..).subset hv)
    have hin := tupleOf_inRange hσo
    have hwlt : σ w.id < w.outcomes := hσ w (List.mem_of_getElem? hw)
    have hfi : flatIndex (others ++ [w]) (tupleOf (others ++ [w]) σ) =
        flatIndex others (tupleOf others σ) * w.outcomes + σ w.id := by
      rw [tupleOf_append, flatIndex_append _ _ _ _ (tupleOf_length _ _) (tupleOf_length _ _)]
      simp [size, flatIndex, indexLoop, tupleOf]
    rw [← hothers, h3, hinv σ hσ, hfi]
    by_cases e : flatIndex others (tupleOf others σ) = r
    · have htt : tupleOf others σ = tupleOf others τ := by
        rw [hτ, ← e, outcomesOf_flatIndex hin]
      have hfn : (fun c => f.val (σ.upd w.id c)) = (fun c => f.val (τ.upd w.id c)) := by
        funext c; simp only [Factor.val]; rw [htup, htup, htt]
      rw [if_neg (show ¬ flatIndex others (tupleOf others σ) < r by omega),
        if_pos (show flatIndex others (tupleOf others σ) < r + 1 by omega), e]
      unfold policyVal
      rw [hfn, ← hbest]
      congr 1
      apply propext
      constructor
      · rintro ⟨c, hc, hce⟩
        rw [hidx] at hce
        have : c = σ w.id := by omega
        rw [← this]; exact hc
      · intro h; exact ⟨_, h, hidx _⟩
    · rw [if_neg]
      · congr 1
        apply propext; omega
      · rintro ⟨c, hc, hce⟩
        rw [hidx] at hce
        have hc' := (mem_bestOutcomes.1 hc).1
        apply e
        have h4 : (r * w.outcomes + c) / w.outcomes = r := by
          rw [Nat.add_comm, Nat.add_mul_div_right _ _ hpos, Nat.div_eq_of_lt hc', Nat.zero_add]
        have h5 : (flatIndex others (tupleOf others σ) * w.outcomes + σ w.id) / w.outcomes =
            flatIndex others (tupleOf others σ) := by
          rw [Nat.add_comm, Nat.add_mul_div_right _ _ hpos, Nat.div_eq_of_lt hwlt, Nat.zero_add]
        rw [← h5, ← hce, h4]

/-- `Policy` on a well-formed factor that contains the variable. -/
theorem policy_spec (s : Vs) (f : Factor α) (hf : f.WF) (v : Var) (w : Var) (hwm : w ∈ f.vars) (hid : w.id = v.id)
    (hpos : 0 < w.outcomes) :
    ∃ g : Factor α, s.policy f v = .ok (g, { s with factorCounter := s.factorCounter + 1 }) ∧
      g.WF ∧ g.id = s.factorCounter ∧ g.vars = otherVars v.id f.vars ++ [w] ∧
      ∀ σ, Fits σ f.vars → g.val σ = policyVal f w σ := by
  obtain ⟨p, hp⟩ := mem_ids_lastIdx (hid ▸ List.mem_map_of_mem (f := Var.id) hwm)
  obtain ⟨w', hw, hid'⟩ := lastIdx_some hp
  have hww : w' = w := coherent_of_nodup hf.nodup w' (List.mem_of_getElem? hw) w hwm (hid'.trans hid.symm)
  subst hww
  have ho := otherVars_eq_eraseIdx hf.nodup hw
  rw [hid'] at ho
  have hperm := perm_moveLast hw
  have hsz : size f.vars = size (f.vars.eraseIdx p) * w'.outcomes := by
    rw [← size_perm hperm, size_append]; simp [size]
  obtain ⟨d, h1, h2, h3⟩ := policy_rows_spec f hf hw hpos (size (f.vars.eraseIdx p)) 0
    (List.replicate (size (f.vars.eraseIdx p ++ [w'])) 0) (by omega) (by simp)
    (by
      intro σ hσ
      have := flatIndex_lt (tupleOf_inRange (hσ.mono (vs := f.vars.eraseIdx p ++ [w'])
        (fun v hv => hperm.subset hv)))
      simp [List.getD_eq_getElem?_getD, this])
  refine ⟨⟨s.factorCounter, d, f.vars.eraseIdx p ++ [w']⟩, ?_, ⟨h2, ?_⟩, rfl, by rw [ho], fun σ hσ => h3 σ hσ⟩
  · unfold Vs.policy
    rw [hp]
    simp only
    rw [goGet_eq.2 hw, ok_bind]
    simp only [Vs.createFactor, ok_bind, ho]
    rw [if_neg (by omega), hf.len, hsz, Nat.mul_div_cancel _ hpos, List.range_eq_range', h1]
    rfl
  · exact (hperm.map Var.id).symm.nodup hf.nodup

end

theorem sum_best [Field α] [LinearOrder α] [IsStrictOrderedRing α] (n : Nat) (hn : 0 < n) (u : Nat → α) :
    ∑ c ∈ range n, (if c ∈ bestOutcomes n u then 1 / ((bestOutcomes n u).length : α) else 0) = 1 := by
  rw [← Finset.sum_filter]
  have e : (range n).filter (fun c => c ∈ bestOutcomes n u) = (bestOutcomes n u).toFinset := by
    ext c
    simp only [Finset.mem_filter, Finset.mem_range, List.mem_toFinset, mem_bestOutcomes]
    tauto
  rw [e, Finset.sum_const, List.toFinset_card_of_nodup (bestOutcomes_nodup n u), nsmul_eq_mul]
  have : (bestOutcomes n u).length ≠ 0 := by
    simpa using bestOutcomes_ne_nil hn u
  exact mul_one_div_cancel (Nat.cast_ne_zero.2 this)

end Bbn
