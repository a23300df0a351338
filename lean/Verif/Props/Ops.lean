import Verif.Props.Factor
import Verif.Lemmas.Repeat
import Mathlib.Algebra.BigOperators.Group.List.Lemmas
import Mathlib.Algebra.BigOperators.Ring.Finset
import Mathlib.Algebra.BigOperators.Field
import Mathlib.Data.Nat.Cast.Order.Field

/-!
# C06-C16, C18: factor operations
-/

set_option autoImplicit false

namespace Bbn

open Finset

variable {α : Type}

/-- **C06.** `Product` of any number of factors: exactly the union of their variables (in order of first
appearance), and at each assignment the product of the given factors' values. -/
theorem C06_product_pointwise [CommSemiring α] (s : Vs) (fs : List (Factor α)) (hwf : ∀ f ∈ fs, f.WF)
    (hc : CoherentFs fs) :
    ∃ g s', s.product fs = .ok (g, s') ∧ g.WF ∧ g.vars = (fs.flatMap Factor.vars).eraseDups ∧
      ∀ σ, Fits σ g.vars → g.get (ints (tupleOf g.vars σ)) = .ok (fs.map (fun f => f.val σ)).prod := by
  obtain ⟨g, h1, h2, _, h4, h5⟩ := product_spec s fs hwf hc
  refine ⟨g, _, h1, h2, h4, fun σ hσ => ?_⟩
  rw [← h5 σ hσ]; exact val_eq_get h2 hσ

example : ∃ g s', Ex.vs3.product [Ex.fA, Ex.fAB, Ex.fBC] = .ok (g, s') ∧
    g.get (ints (tupleOf g.vars Ex.σ1)) = .ok (2/3 * (1/10) * 1) := by
  obtain ⟨g, s', h1, _, h3, h4⟩ := C06_product_pointwise Ex.vs3 _ Ex.all_wf Ex.all_coherent
  refine ⟨g, s', h1, ?_⟩
  rw [h4 Ex.σ1 (by rw [h3]; exact Ex.σ1_fits)]
  decide +kernel

/-- **C07, order.** Permuting the arguments of `Product` changes at most the order of the variables of the
result. -/
theorem C07_product_perm [CommSemiring α] (s s' : Vs) (fs fs' : List (Factor α)) (hp : fs.Perm fs')
    (hwf : ∀ f ∈ fs, f.WF) (hc : CoherentFs fs) :
    ∃ g t g' t', s.product fs = .ok (g, t) ∧ s'.product fs' = .ok (g', t') ∧ g.vars.Perm g'.vars ∧
      ∀ σ, Fits σ g.vars → g.val σ = g'.val σ := by
  have hwf' : ∀ f ∈ fs', f.WF := fun f hf => hwf f (hp.symm.subset hf)
  have hmem : ∀ v, v ∈ scopeUnion fs ↔ v ∈ scopeUnion fs' := by
    intro v; simp only [mem_scopeUnion]
    exact ⟨fun ⟨f, hf, h⟩ => ⟨f, hp.subset hf, h⟩, fun ⟨f, hf, h⟩ => ⟨f, hp.symm.subset hf, h⟩⟩
  have hc' : CoherentFs fs' := by
    intro v hv w hw e
    have : ∀ u, u ∈ fs'.flatMap Factor.vars → u ∈ fs.flatMap Factor.vars := by
      intro u hu
      obtain ⟨f, hf, h⟩ := List.mem_flatMap.1 hu
      exact List.mem_flatMap.2 ⟨f, hp.symm.subset hf, h⟩
    exact hc v (this v hv) w (this w hw) e
  obtain ⟨g, h1, h2, _, h4, h5⟩ := product_spec s fs hwf hc
  obtain ⟨g', h1', h2', _, h4', h5'⟩ := product_spec s' fs' hwf' hc'
  refine ⟨g, _, g', _, h1, h1', ?_, ?_⟩
  · rw [List.perm_ext_iff_of_nodup (List.Nodup.of_map _ h2.nodup) (List.Nodup.of_map _ h2'.nodup), h4, h4']
    exact hmem
  · intro σ hσ
    have hσ' : Fits σ g'.vars := hσ.mono (fun v hv => by rw [h4]; exact (hmem v).2 (h4' ▸ hv))
    rw [h5 σ hσ, h5' σ hσ']
    exact (hp.map _).prod_eq

/-- **C07, grouping.** Multiplying two groups first and then the two results gives the same function as
multiplying all factors at once. -/
theorem C07_product_assoc [CommSemiring α] (s : Vs) (fs gs : List (Factor α)) (hwf : ∀ f ∈ fs ++ gs, f.WF)
    (hc : CoherentFs (fs ++ gs)) :
    ∃ p t q u r w a b, s.product fs = .ok (p, t) ∧ t.product gs = .ok (q, u) ∧ u.product [p, q] = .ok (r, w) ∧
      s.product (fs ++ gs) = .ok (a, b) ∧ r.vars.Perm a.vars ∧ ∀ σ, Fits σ r.vars → r.val σ = a.val σ := by
  have mono : ∀ hs : List (Factor α), (∀ h ∈ hs, h ∈ fs ++ gs) → CoherentFs hs := by
    intro hs hh v hv w hw e
    have : ∀ u, u ∈ hs.flatMap Factor.vars → u ∈ (fs ++ gs).flatMap Factor.vars := by
      intro u hu
      obtain ⟨f, hf, h⟩ := List.mem_flatMap.1 hu
      exact List.mem_flatMap.2 ⟨f, hh f hf, h⟩
    exact hc v (this v hv) w (this w hw) e
  obtain ⟨p, h1, h2, _, h4, h5⟩ := product_spec s fs (fun f hf => hwf f (by simp [hf])) (mono fs (by simp +contextual))
  obtain ⟨q, k1, k2, _, k4, k5⟩ := product_spec { s with factorCounter := s.factorCounter + 1 } gs
    (fun f hf => hwf f (by simp [hf])) (mono gs (by simp +contextual))
  have hpq : CoherentFs [p, q] := by
    intro v hv w hw e
    have : ∀ u, u ∈ [p, q].flatMap Factor.vars → u ∈ (fs ++ gs).flatMap Factor.vars := by
      intro u hu
      simp only [List.flatMap_cons, List.flatMap_nil, List.append_nil, List.mem_append, h4, k4, mem_scopeUnion] at hu
      rcases hu with ⟨f, hf, h⟩ | ⟨f, hf, h⟩ <;> exact List.mem_flatMap.2 ⟨f, by simp [hf], h⟩
    exact hc v (this v hv) w (this w hw) e
  obtain ⟨r, l1, l2, _, l4, l5⟩ := product_spec
    { s with factorCounter := s.factorCounter + 1 + 1 } [p, q]
    (by intro f hf; simp at hf; rcases hf with rfl | rfl <;> assumption) hpq
  obtain ⟨a, m1, m2, _, m4, m5⟩ := product_spec s (fs ++ gs) hwf hc
  have hmem : ∀ v, v ∈ r.vars ↔ v ∈ a.vars := by
    intro v
    simp [l4, m4, mem_scopeUnion, h4, k4, or_and_right, exists_or]
  refine ⟨p, _, q, _, r, _, a, _, h1, k1, l1, m1, ?_, ?_⟩
  · rw [List.perm_ext_iff_of_nodup (List.Nodup.of_map _ l2.nodup) (List.Nodup.of_map _ m2.nodup)]
    exact hmem
  · intro σ hσ
    have ha : Fits σ a.vars := hσ.mono (fun v hv => (hmem v).2 hv)
    have hp : Fits σ p.vars := hσ.mono (fun v hv => by rw [l4]; exact mem_scopeUnion.2 ⟨p, by simp, hv⟩)
    have hq : Fits σ q.vars := hσ.mono (fun v hv => by rw [l4]; exact mem_scopeUnion.2 ⟨q, by simp, hv⟩)
    rw [l5 σ hσ, m5 σ ha]
    simp [h5 σ hp, k5 σ hq]

example : [Ex.fA, Ex.fAB, Ex.fBC].Perm [Ex.fBC, Ex.fA, Ex.fAB] :=
  List.perm_append_comm (l₁ := [Ex.fA, Ex.fAB]) (l₂ := [Ex.fBC])

/-- **C08.** `Sum` of any number of factors: the union of their variables, and at each assignment the sum of the
given factors' values. -/
theorem C08_sum_pointwise [CommSemiring α] (s : Vs) (fs : List (Factor α)) (hwf : ∀ f ∈ fs, f.WF)
    (hc : CoherentFs fs) :
    ∃ g s', s.sum fs = .ok (g, s') ∧ g.WF ∧ g.vars = (fs.flatMap Factor.vars).eraseDups ∧
      ∀ σ, Fits σ g.vars → g.get (ints (tupleOf g.vars σ)) = .ok (fs.map (fun f => f.val σ)).sum := by
  obtain ⟨g, h1, h2, _, h4, h5⟩ := sum_spec s fs hwf hc
  refine ⟨g, _, h1, h2, h4, fun σ hσ => ?_⟩
  rw [← h5 σ hσ]; exact val_eq_get h2 hσ

example : ∃ g s', Ex.vs3.sum [Ex.fA, Ex.fAB, Ex.fBC] = .ok (g, s') ∧
    g.get (ints (tupleOf g.vars Ex.σ1)) = .ok (2/3 + 1/10 + 1) := by
  obtain ⟨g, s', h1, _, h3, h4⟩ := C08_sum_pointwise Ex.vs3 _ Ex.all_wf Ex.all_coherent
  refine ⟨g, s', h1, ?_⟩
  rw [h4 Ex.σ1 (by rw [h3]; exact Ex.σ1_fits)]
  decide +kernel

/-- **C09.** `SumOut(f, v)` drops `v`, keeps the other variables in order, and its value is the sum of `f` over
all outcomes of `v`. -/
theorem C09_sumOut [AddCommMonoid α] (s : Vs) (f : Factor α) (hf : f.WF) (v : Var) (hv : v ∈ f.vars) :
    ∃ g s', s.sumOut f v = .ok (g, s') ∧ g.WF ∧ g.vars = f.vars.filter (fun w => w.id ≠ v.id) ∧
      ∀ σ, Fits σ g.vars →
        g.get (ints (tupleOf g.vars σ)) = .ok (∑ k ∈ range v.outcomes, f.val (σ.upd v.id k)) := by
  obtain ⟨g, h1, h2, _, h4, h5⟩ := sumOut_spec s f hf v v hv rfl
  refine ⟨g, _, h1, h2, h4, fun σ hσ => ?_⟩
  rw [← h5 σ hσ]; exact val_eq_get h2 hσ

example : ∃ g s', Ex.vs3.sumOut Ex.fAB Ex.xA = .ok (g, s') ∧ g.data = [5/10, 7/10, 8/10] :=
  ⟨⟨3, [5/10, 7/10, 8/10], [Ex.xB]⟩, ⟨4, [Ex.xA, Ex.xB, Ex.xC], []⟩, by decide +kernel, rfl⟩

/-- **C10.** Summing out a set of variables in any two orders gives factors with the same variables and the same
data. -/
theorem C10_sumOut_order [AddCommMonoid α] (s s' : Vs) (f : Factor α) (hf : f.WF) (vs vs' : List Var)
    (hp : vs.Perm vs') (hsub : ∀ v ∈ vs, v ∈ f.vars) (hn : (vs.map Var.id).Nodup) :
    ∃ g t g' t', sumOutList s f vs = .ok (g, t) ∧ sumOutList s' f vs' = .ok (g', t') ∧
      g.vars = g'.vars ∧ g.data = g'.data := by
  obtain ⟨g, t, h1, h2, h3, h4⟩ := sumOutList_spec s f hf vs hsub hn
  obtain ⟨g', t', h1', h2', h3', h4'⟩ := sumOutList_spec s' f hf vs' (fun v hv => hsub v (hp.symm.subset hv))
    ((hp.map _).nodup hn)
  have hv : g.vars = g'.vars := by
    rw [h3, h3']
    apply List.filter_congr
    intro v _
    have : v.id ∈ vs.map Var.id ↔ v.id ∈ vs'.map Var.id := (hp.map _).mem_iff
    simp [this]
  refine ⟨g, t, g', t', h1, h1', hv, data_ext h2 h2'.len hv ?_⟩
  intro σ hσ
  rw [h4 σ hσ, h4' σ (hv ▸ hσ), sumOver_perm hp hn]

example : [Ex.xA, Ex.xB].Perm [Ex.xB, Ex.xA] ∧ (∀ v ∈ [Ex.xA, Ex.xB], v ∈ Ex.fAB.vars) ∧
    ([Ex.xA, Ex.xB].map Var.id).Nodup := by decide

/-- **C11.** `Restrict(f, v, k)` drops `v`, keeps the other variables in order, and its value is that of `f` with
`v = k`. Holds for any value type: the entries are copied. -/
theorem C11_restrict [Zero α] (s : Vs) (f : Factor α) (hf : f.WF) (v : Var) (hv : v ∈ f.vars) (k : Nat)
    (hk : k < v.outcomes) :
    ∃ g s', s.restrict f v k = .ok (g, s') ∧ g.WF ∧ g.vars = f.vars.filter (fun w => w.id ≠ v.id) ∧
      ∀ σ, Fits σ g.vars →
        g.get (ints (tupleOf g.vars σ)) = f.get (ints (tupleOf f.vars (σ.upd v.id k))) := by
  obtain ⟨g, h1, h2, _, h4, h5⟩ := restrict_spec s f hf v hv k hk
  refine ⟨g, _, h1, h2, h4, fun σ hσ => ?_⟩
  have e : Fits (σ.upd v.id k) f.vars := by
    apply fits_upd (h4 ▸ hσ)
    intro u hu e
    rw [coherent_of_nodup hf.nodup u hu v hv e]; exact hk
  have h6 := val_eq_get h2 hσ
  have h7 := val_eq_get hf e
  rw [show ints = List.map Nat.cast from rfl, h6, h7, h5 σ hσ]

example : ∃ g s', Ex.vs3.restrict Ex.fAB Ex.xB 2 = .ok (g, s') ∧ g.data = [7/10, 1/10] :=
  ⟨⟨3, [7/10, 1/10], [Ex.xA]⟩, ⟨4, [Ex.xA, Ex.xB, Ex.xC], []⟩, by decide +kernel, rfl⟩

/-- **C12, several observations.** Restricting to several observations in any two orders gives the same
variables and the same data. -/
theorem C12_restrict_order [Zero α] (s s' : Vs) (f : Factor α) (hf : f.WF) (es es' : List (Var × Nat))
    (hp : es.Perm es') (hsub : ∀ e ∈ es, e.1 ∈ f.vars ∧ e.2 < e.1.outcomes)
    (hn : (es.map (fun e => e.1.id)).Nodup) :
    ∃ g t g' t', restrictList s f es = .ok (g, t) ∧ restrictList s' f es' = .ok (g', t') ∧
      g.vars = g'.vars ∧ g.data = g'.data := by
  obtain ⟨g, t, h1, h2, h3, h4⟩ := restrictList_spec s f hf es hsub hn
  obtain ⟨g', t', h1', h2', h3', h4'⟩ := restrictList_spec s' f hf es' (fun v hv => hsub v (hp.symm.subset hv))
    ((hp.map _).nodup hn)
  have hv : g.vars = g'.vars := by
    rw [h3, h3']
    apply List.filter_congr
    intro v _
    have : v.id ∈ es.map (fun e => e.1.id) ↔ v.id ∈ es'.map (fun e => e.1.id) := (hp.map _).mem_iff
    simp [this]
  refine ⟨g, t, g', t', h1, h1', hv, data_ext h2 h2'.len hv ?_⟩
  intro σ hσ
  rw [h4 σ hσ, h4' σ (hv ▸ hσ), updList_perm hp hn]

/-- **C12, product.** Restricting a product equals the product of the restricted factors (two factors that both
contain the variable). -/
theorem C12_restrict_product [CommSemiring α] (s : Vs) (f g : Factor α) (hf : f.WF) (hg : g.WF)
    (hc : CoherentFs [f, g]) (v : Var) (hvf : v ∈ f.vars) (hvg : v ∈ g.vars) (k : Nat) (hk : k < v.outcomes) :
    ∃ p t q u f' t1 g' t2 r t3, s.product [f, g] = .ok (p, t) ∧ t.restrict p v k = .ok (q, u) ∧
      s.restrict f v k = .ok (f', t1) ∧ t1.restrict g v k = .ok (g', t2) ∧ t2.product [f', g'] = .ok (r, t3) ∧
      q.vars.Perm r.vars ∧ ∀ σ, Fits σ q.vars → q.val σ = r.val σ := by
  obtain ⟨p, h1, h2, _, h4, h5⟩ := product_spec s [f, g]
    (by intro x hx; simp at hx; rcases hx with rfl | rfl <;> assumption) hc
  have hvp : v ∈ p.vars := by rw [h4]; exact mem_scopeUnion.2 ⟨f, by simp, hvf⟩
  obtain ⟨q, k1, k2, _, k4, k5⟩ := restrict_spec { s with factorCounter := s.factorCounter + 1 } p h2 v hvp k hk
  obtain ⟨f', a1, a2, _, a4, a5⟩ := restrict_spec s f hf v hvf k hk
  obtain ⟨g', b1, b2, _, b4, b5⟩ := restrict_spec { s with factorCounter := s.factorCounter + 1 } g hg v hvg k hk
  have hc' : CoherentFs [f', g'] := by
    intro x hx y hy e
    have sub : ∀ u, u ∈ [f', g'].flatMap Factor.vars → u ∈ [f, g].flatMap Factor.vars := by
      intro u hu
      simp only [List.flatMap_cons, List.flatMap_nil, List.append_nil, List.mem_append, a4, b4, mem_otherVars] at hu ⊢
      rcases hu with h | h
      · exact .inl h.1
      · exact .inr h.1
    exact hc x (sub x hx) y (sub y hy) e
  obtain ⟨r, c1, c2, _, c4, c5⟩ := product_spec
    { s with factorCounter := s.factorCounter + 1 + 1 } [f', g']
    (by intro x hx; simp at hx; rcases hx with rfl | rfl <;> assumption) hc'
  have hmem : ∀ w, w ∈ q.vars ↔ w ∈ r.vars := by
    intro w
    simp only [k4, c4, mem_otherVars, h4, mem_scopeUnion, List.mem_cons, List.not_mem_nil, or_false,
      exists_eq_or_imp, exists_eq_left, a4, b4]
    tauto
  refine ⟨p, _, q, _, f', _, g', _, r, _, h1, k1, a1, b1, c1, ?_, ?_⟩
  · rw [List.perm_ext_iff_of_nodup (List.Nodup.of_map _ k2.nodup) (List.Nodup.of_map _ c2.nodup)]
    exact hmem
  · intro σ hσ
    have hσr : Fits σ r.vars := hσ.mono (fun w hw => (hmem w).2 hw)
    have hσf : Fits σ f'.vars := hσr.mono (fun w hw => by rw [c4]; exact mem_scopeUnion.2 ⟨f', by simp, hw⟩)
    have hσg : Fits σ g'.vars := hσr.mono (fun w hw => by rw [c4]; exact mem_scopeUnion.2 ⟨g', by simp, hw⟩)
    have hup : Fits (σ.upd v.id k) p.vars := by
      apply fits_upd (k4 ▸ hσ)
      intro u hu e
      rw [coherent_of_nodup h2.nodup u hu v hvp e]; exact hk
    rw [k5 σ hσ, h5 _ hup, c5 σ hσr]
    simp [a5 σ hσf, b5 σ hσg]

/-- **C12, sums.** Restricting commutes with summing out another variable. -/
theorem C12_restrict_sumOut [AddCommMonoid α] (s : Vs) (f : Factor α) (hf : f.WF) (v w : Var) (hv : v ∈ f.vars)
    (hw : w ∈ f.vars) (hne : v.id ≠ w.id) (k : Nat) (hk : k < v.outcomes) :
    ∃ p t q u p' t' q' u', s.restrict f v k = .ok (p, t) ∧ t.sumOut p w = .ok (q, u) ∧
      s.sumOut f w = .ok (p', t') ∧ t'.restrict p' v k = .ok (q', u') ∧ q.vars = q'.vars ∧ q.data = q'.data := by
  obtain ⟨p, h1, h2, _, h4, h5⟩ := restrict_spec s f hf v hv k hk
  have hwp : w ∈ p.vars := by rw [h4]; exact mem_otherVars.2 ⟨hw, hne.symm⟩
  obtain ⟨q, k1, k2, _, k4, k5⟩ := sumOut_spec { s with factorCounter := s.factorCounter + 1 } p h2 w w hwp rfl
  obtain ⟨p', a1, a2, _, a4, a5⟩ := sumOut_spec s f hf w w hw rfl
  have hvp : v ∈ p'.vars := by rw [a4]; exact mem_otherVars.2 ⟨hv, hne⟩
  obtain ⟨q', b1, b2, _, b4, b5⟩ := restrict_spec { s with factorCounter := s.factorCounter + 1 } p' a2 v hvp k hk
  have hvars : q.vars = q'.vars := by
    rw [k4, h4, b4, a4, otherVars, otherVars, otherVars, otherVars, List.filter_comm]
  refine ⟨p, _, q, _, p', _, q', _, h1, k1, a1, b1, hvars, data_ext k2 b2.len hvars ?_⟩
  intro σ hσ
  have hup : Fits (σ.upd v.id k) p'.vars := by
    apply fits_upd (b4 ▸ hvars ▸ hσ)
    intro u hu e
    rw [coherent_of_nodup a2.nodup u hu v hvp e]; exact hk
  rw [k5 σ hσ, b5 σ (hvars ▸ hσ), a5 _ hup]
  apply Finset.sum_congr rfl
  intro c hc
  have hup2 : Fits (σ.upd w.id c) p.vars := by
    apply fits_upd (k4 ▸ hσ)
    intro u hu e
    rw [coherent_of_nodup h2.nodup u hu w hwp e]; simpa using hc
  rw [h5 _ hup2, upd_comm _ hne.symm]

example : CoherentFs [Ex.fAB, Ex.fBC] ∧ Ex.xB ∈ Ex.fAB.vars ∧ Ex.xB ∈ Ex.fBC.vars ∧ 2 < Ex.xB.outcomes := by
  unfold CoherentFs Coherent; decide

/-- **C13.** `Rearrange` to any permutation of the factor's variables keeps the value at every named assignment;
for any value type. -/
theorem C13_rearrange [Zero α] (s : Vs) (f : Factor α) (hf : f.WF) (ws : List Var) (hp : ws.Perm f.vars) :
    ∃ g s', s.rearrange f ws = .ok (g, s') ∧ g.WF ∧ g.vars = ws ∧
      ∀ σ, Fits σ f.vars → g.get (ints (tupleOf ws σ)) = f.get (ints (tupleOf f.vars σ)) := by
  obtain ⟨g, h1, h2, _, h4, h5⟩ := rearrange_spec s f hf ws hp
  refine ⟨g, _, h1, h2, h4, fun σ hσ => ?_⟩
  have hσg : Fits σ g.vars := hσ.mono (fun v hv => hp.subset (h4 ▸ hv))
  have e1 := val_eq_get h2 hσg
  have e2 := val_eq_get hf hσ
  rw [h4] at e1
  rw [show ints = List.map Nat.cast from rfl, e1, e2, h5 σ hσ]

/-- **C13, round trip.** Rearranging back restores the original data exactly. -/
theorem C13_rearrange_roundtrip [Zero α] (s : Vs) (f : Factor α) (hf : f.WF) (ws : List Var) (hp : ws.Perm f.vars) :
    ∃ g s' h s'', s.rearrange f ws = .ok (g, s') ∧ s'.rearrange g f.vars = .ok (h, s'') ∧
      h.vars = f.vars ∧ h.data = f.data := by
  obtain ⟨g, h1, h2, _, h4, h5⟩ := rearrange_spec s f hf ws hp
  obtain ⟨h, k1, k2, _, k4, k5⟩ := rearrange_spec { s with factorCounter := s.factorCounter + 1 } g h2 f.vars
    (by rw [h4]; exact hp.symm)
  refine ⟨g, _, h, _, h1, k1, k4, data_ext k2 hf.len k4 ?_⟩
  intro σ hσ
  rw [k4] at hσ
  rw [k5 σ (hσ.mono (fun v hv => hp.subset (h4 ▸ hv))), h5 σ hσ]

example : [Ex.xB, Ex.xA].Perm Ex.fAB.vars ∧
    ∃ g s', Ex.vs3.rearrange Ex.fAB [Ex.xB, Ex.xA] = .ok (g, s') ∧
      g.data = [1/10, 4/10, 2/10, 5/10, 7/10, 1/10] :=
  ⟨by decide, ⟨3, [1/10, 4/10, 2/10, 5/10, 7/10, 1/10], [Ex.xB, Ex.xA]⟩, ⟨4, [Ex.xA, Ex.xB, Ex.xC], []⟩,
    by decide +kernel, rfl⟩

/-- **C14.** `Marginal(f, v)` has the single variable `v`; its value at outcome `k` is the sum of `f` over all
joint outcomes of the other variables, with `v = k`; the same data results from summing out all others. -/
theorem C14_marginal [AddCommMonoid α] (s : Vs) (f : Factor α) (hf : f.WF) (v : Var) (hv : v ∈ f.vars) :
    ∃ g s', s.marginal f v = .ok (g, s') ∧ g.vars = [v] ∧ g.data.length = v.outcomes ∧
      (∀ k (σ : Assignment), k < v.outcomes →
        g.get [(k : Int)] = .ok (sumOver (f.vars.filter (fun w => w.id ≠ v.id)) f.val (σ.upd v.id k))) ∧
      ∃ h t, sumOutList s f (f.vars.filter (fun w => w.id ≠ v.id)) = .ok (h, t) ∧
        h.vars = g.vars ∧ h.data = g.data := by
  obtain ⟨g, h1, h2, _, h4, h5⟩ := marginal_spec s f hf v hv
  obtain ⟨h, t, k1, k2, k3, k4⟩ := sumOutList_spec s f hf (f.vars.filter (fun w => w.id ≠ v.id))
    (fun w hw => (List.mem_filter.1 hw).1) (otherVars_nodup (id := v.id) hf.nodup)
  have hvars : h.vars = g.vars := by
    rw [k3, h4]
    have e : ∀ l : List Var, (l.map Var.id).Nodup → v ∈ l → (∀ w ∈ l, w ∈ f.vars) →
        l.filter (fun u => u.id ∉ (f.vars.filter (fun w => w.id ≠ v.id)).map Var.id) = [v] := by
      intro l hl hvl hsub
      have hmem : ∀ u ∈ l, (u.id ∉ (f.vars.filter (fun w => w.id ≠ v.id)).map Var.id ↔ u = v) := by
        intro u hu
        constructor
        · intro hnot
          by_contra hne
          apply hnot
          refine List.mem_map_of_mem (List.mem_filter.2 ⟨hsub u hu, ?_⟩)
          simp only [decide_eq_true_eq]
          exact fun e => hne (coherent_of_nodup hl u hu v hvl e)
        · rintro rfl hin
          obtain ⟨w, hw, hid⟩ := List.mem_map.1 hin
          have := (List.mem_filter.1 hw).2
          simp only [decide_eq_true_eq] at this
          exact this hid
      have : l.filter (fun u => u.id ∉ (f.vars.filter (fun w => w.id ≠ v.id)).map Var.id) = l.filter (fun u => u = v) := by
        apply List.filter_congr
        intro u hu
        exact decide_eq_decide.2 (hmem u hu)
      rw [this]
      have hcount := List.count_eq_one_of_mem (List.Nodup.of_map _ hl) hvl
      have h6 := List.filter_eq (l := l) v
      rw [h6, hcount]; rfl
    exact e f.vars hf.nodup hv (fun w hw => hw)
  refine ⟨g, _, h1, h4, by rw [h2.len, h4]; simp [size], ?_, h, t, k1, hvars, ?_⟩
  · intro k σ hk
    have hfit : Fits (σ.upd v.id k) g.vars := by rw [h4]; simp [Fits, Assignment.upd, hk]
    have e1 := val_eq_get h2 hfit
    rw [h5 _ hfit, h4] at e1
    rw [show [(k : Int)] = (tupleOf [v] (σ.upd v.id k)).map Nat.cast by simp [tupleOf, Assignment.upd]]
    exact e1
  · apply data_ext k2 h2.len hvars
    intro σ hσ
    rw [k4 σ hσ, h5 σ (hvars ▸ hσ)]; rfl

example : ∃ g s', Ex.vs3.marginal Ex.fAB Ex.xB = .ok (g, s') ∧ g.data = [5/10, 7/10, 8/10] :=
  ⟨⟨3, [5/10, 7/10, 8/10], [Ex.xB]⟩, ⟨4, [Ex.xA, Ex.xB, Ex.xC], []⟩, by decide +kernel, rfl⟩

theorem sum_map_div [Field α] (l : List α) (c : α) : (l.map (· / c)).sum = l.sum / c := by
  induction l with
  | nil => simp
  | cons x l ih => simp [ih, add_div]

theorem goSum_list [AddCommMonoid α] (l : List α) : goSum l = l.sum := by
  unfold goSum; rw [List.sum_eq_foldl]

/-- **C15.** If the entries do not add up to zero, `Normalize` keeps the variables, divides all entries by the
same number (their total), yields total one, and a second call changes nothing. -/
theorem C15_normalize [Field α] (s : Vs) (f : Factor α) (hf : f.WF) (h0 : f.data.sum ≠ 0) :
    ∃ g s', s.normalize f = .ok (g, s') ∧ g.vars = f.vars ∧ g.data = f.data.map (· / f.data.sum) ∧
      g.data.sum = 1 ∧ ∃ h s'', s'.normalize g = .ok (h, s'') ∧ h.vars = g.vars ∧ h.data = g.data := by
  obtain ⟨g, h1, h2, _, h4, h5, _⟩ := normalize_spec s f hf
  rw [goSum_list] at h5
  have hsum : g.data.sum = 1 := by rw [h5, sum_map_div, div_self h0]
  obtain ⟨h, k1, _, _, k4, k5, _⟩ := normalize_spec { s with factorCounter := s.factorCounter + 1 } g h2
  refine ⟨g, _, h1, h4, h5, hsum, h, _, k1, k4, ?_⟩
  rw [k5, goSum_list, hsum]; simp

example : Ex.fAB.data.sum ≠ 0 := by decide +kernel

/-- **C16.** `NormalizeFor(f, v)` moves `v` to the last place and divides each entry by the sum of its group (the
entries that differ from it in `v` only), unless that sum is zero; so groups with non-zero sum add up to one and
groups with sum zero are unchanged. -/
theorem C16_normalizeFor [Field α] [DecidableEq α] (s : Vs) (f : Factor α) (hf : f.WF) (v : Var) (hv : v ∈ f.vars)
    (hpos : 0 < v.outcomes) :
    ∃ g s', s.normalizeFor f v = .ok (g, s') ∧ g.WF ∧ g.vars = f.vars.filter (fun w => w.id ≠ v.id) ++ [v] ∧
      ∀ σ, Fits σ f.vars →
        (∑ c ∈ range v.outcomes, f.val (σ.upd v.id c) ≠ 0 →
          g.val σ = f.val σ / ∑ c ∈ range v.outcomes, f.val (σ.upd v.id c) ∧
          ∑ c ∈ range v.outcomes, g.val (σ.upd v.id c) = 1) ∧
        (∑ c ∈ range v.outcomes, f.val (σ.upd v.id c) = 0 → g.val σ = f.val σ) := by
  obtain ⟨g, h1, h2, _, h4, h5⟩ := normalizeFor_spec s f hf v hv hpos
  refine ⟨g, _, h1, h2, h4, fun σ hσ => ⟨fun hne => ⟨?_, ?_⟩, fun h0 => ?_⟩⟩
  · rw [h5 σ hσ, if_neg hne]
  · have : ∀ c ∈ range v.outcomes, g.val (σ.upd v.id c) =
        f.val (σ.upd v.id c) / ∑ c ∈ range v.outcomes, f.val (σ.upd v.id c) := by
      intro c hc
      have hfit : Fits (σ.upd v.id c) f.vars := by
        apply fits_upd (hσ.mono (fun w hw => (mem_otherVars.1 hw).1))
        intro u hu e
        rw [coherent_of_nodup hf.nodup u hu v hv e]; simpa using hc
      rw [h5 _ hfit]
      simp only [upd_upd_same]
      rw [if_neg hne]
    rw [Finset.sum_congr rfl this, ← Finset.sum_div, div_self hne]
  · rw [h5 σ hσ, if_pos h0]

example : ∃ g s', Ex.vs3.normalizeFor Ex.fAB Ex.xA = .ok (g, s') ∧ g.vars = [Ex.xB, Ex.xA] ∧
    g.data = [1/5, 4/5, 2/7, 5/7, 7/8, 1/8] :=
  ⟨⟨3, [1/5, 4/5, 2/7, 5/7, 7/8, 1/8], [Ex.xB, Ex.xA]⟩, ⟨4, [Ex.xA, Ex.xB, Ex.xC], []⟩, by decide +kernel, rfl, rfl⟩

/-- **C18.** `Policy(f, d)` puts `d` last. For each assignment of the other variables, the outcomes of `d` with
the highest value share probability one equally and all other outcomes get zero, so each row adds up to one. -/
theorem C18_policy [Field α] [LinearOrder α] [IsStrictOrderedRing α] (s : Vs) (f : Factor α) (hf : f.WF) (d : Var)
    (hd : d ∈ f.vars) (hpos : 0 < d.outcomes) :
    ∃ g s', s.policy f d = .ok (g, s') ∧ g.WF ∧ g.vars = f.vars.filter (fun w => w.id ≠ d.id) ++ [d] ∧
      ∀ σ, Fits σ f.vars →
        (σ d.id ∈ bestOutcomes d.outcomes (fun c => f.val (σ.upd d.id c)) →
          g.val σ = 1 / ((bestOutcomes d.outcomes (fun c => f.val (σ.upd d.id c))).length : α)) ∧
        (σ d.id ∉ bestOutcomes d.outcomes (fun c => f.val (σ.upd d.id c)) → g.val σ = 0) ∧
        ∑ c ∈ range d.outcomes, g.val (σ.upd d.id c) = 1 := by
  obtain ⟨g, h1, h2, _, h4, h5⟩ := policy_spec s f hf d d hd rfl hpos
  refine ⟨g, _, h1, h2, h4, fun σ hσ => ⟨fun h => ?_, fun h => ?_, ?_⟩⟩
  · rw [h5 σ hσ, policyVal, if_pos h]
  · rw [h5 σ hσ, policyVal, if_neg h]
  · rw [← sum_best d.outcomes hpos (fun c => f.val (σ.upd d.id c))]
    apply Finset.sum_congr rfl
    intro c hc
    have hfit : Fits (σ.upd d.id c) f.vars := by
      apply fits_upd (hσ.mono (fun w hw => (mem_otherVars.1 hw).1))
      intro u hu e
      rw [coherent_of_nodup hf.nodup u hu d hd e]; simpa using hc
    rw [h5 _ hfit, policyVal]
    simp only [upd_upd_same]
    simp only [Assignment.upd, if_true]

/-- A utility factor with a tie in the second row. -/
def Ex.uAB : Factor ℚ := ⟨0, [3, 5, 1, 2, 2, -4], [Ex.xA, Ex.xB]⟩

example : ∃ g s', Ex.vs3.policy Ex.uAB Ex.xB = .ok (g, s') ∧ g.data = [0, 1, 0, 1/2, 1/2, 0] :=
  ⟨⟨3, [0, 1, 0, 1/2, 1/2, 0], [Ex.xA, Ex.xB]⟩, ⟨4, [Ex.xA, Ex.xB, Ex.xC], []⟩, by decide +kernel, rfl⟩

end Bbn
