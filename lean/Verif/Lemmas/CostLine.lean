import Verif.Lemmas.CostNet
import Verif.Lemmas.CostGame
import Mathlib.Data.List.Sort

/-!
# The tables of a query of a network around a line
-/

set_option autoImplicit false

namespace Bbn

open Finset

variable {α : Type}

/-- There is an order, whatever the network, the evidence and the query. -/
theorem exists_takesOut (n : Net α) (evidence : List (String × String)) (query : List String) :
    ∃ order, n.TakesOut evidence query order := by
  set d : Nat → Nat := fun i => (around i (n.unobserved evidence)).card with hd
  let le : Nat → Nat → Bool := fun i j => decide (d i < d j ∨ d i = d j ∧ i ≤ j)
  let l := (List.range n.variables.length).filter (fun i => ∃ v, n.variables[i]? = some v ∧
    v.name ∉ evidence.map Prod.fst ∧ v.name ∉ query)
  have hp : (l.mergeSort le).Perm l := List.mergeSort_perm _ _
  refine ⟨l.mergeSort le, ?_, ?_⟩
  · intro i
    rw [hp.mem_iff, List.mem_filter, decide_eq_true_eq, List.mem_range]
    exact ⟨fun h => h.2, fun h => ⟨by
      obtain ⟨v, h, _⟩ := h
      exact (List.getElem?_eq_some_iff.1 h).1, h⟩⟩
  · have h1 : (l.mergeSort le).Pairwise (fun i j => le i j = true) := by
      apply List.pairwise_mergeSort
      · intro a b c
        simp only [le, decide_eq_true_eq]
        omega
      · intro a b
        simp only [le, Bool.or_eq_true, decide_eq_true_eq]
        omega
    have h2 : (l.mergeSort le).Nodup := hp.nodup_iff.2 (List.nodup_range.filter _)
    refine (h1.and h2).imp ?_
    intro i j ⟨h, hne⟩
    simp only [le, decide_eq_true_eq] at h
    change d i < d j ∨ d i = d j ∧ i < j
    omega

/-- There is only one order. -/
theorem takesOut_unique {n : Net α} {evidence : List (String × String)} {query : List String} {order order' : List Nat}
    (h : n.TakesOut evidence query order) (h' : n.TakesOut evidence query order') : order = order' := by
  have nd : ∀ {o}, n.TakesOut evidence query o → o.Nodup := fun h => h.sorted.imp (fun {i j} h => by
    rintro rfl
    rcases h with h | h <;> omega)
  refine List.Perm.eq_of_pairwise (fun a b _ _ h1 h2 => ?_) h.sorted h'.sorted ?_
  · omega
  · rw [List.perm_ext_iff_of_nodup (nd h) (nd h')]
    intro i
    rw [h.mem, h'.mem]

variable {n : Net α}

theorem width_le {k : Nat} (hk : 0 < k) (h : ∀ v ∈ n.variables, v.outcomes.length ≤ k) (i : Nat) : n.width i ≤ k := by
  unfold Net.width
  cases e : n.variables[i]? with
  | none => exact hk
  | some v => exact h v (List.mem_of_getElem? e)

theorem biggestTable_aroundLine (hn : n.Valid) (hc : n.AllChance) {line : List String} (hl : n.AroundLine line)
    {k : Nat} (hk : 0 < k) (hout : ∀ v ∈ n.variables, v.outcomes.length ≤ k) {evidence : List (String × String)}
    {query : List String} {order : List Nat} (ho : n.TakesOut evidence query order) :
    n.biggestTable evidence order ≤ k ^ (3 + query.length) := by
  have hw := width_le hk hout
  have hvar : ∀ f ∈ n.factors, ∀ s ∈ f.dims, ∃ v, n.variables[n.place s]? = some v ∧ v.name = s := by
    intro f hf s hs
    obtain ⟨i, v, h1, rfl, _⟩ := dims_isVar hn hf (allChance_total hn hc hf) s hs
    exact ⟨v, by rw [place_eq hn h1]; exact h1, rfl⟩
  have hcard : ∀ f ∈ n.factors, (f.dims.map n.place).toFinset.card ≤ 2 := by
    intro f hf
    refine le_trans (List.toFinset_card_le _) ?_
    have := hl.one f hf
    simp [NFactor.dims]
    omega
  have hun : ∀ s ∈ n.unobserved evidence, ∃ f ∈ n.factors,
      s = (f.dims.map n.place).toFinset \ (evidence.map (fun e => n.place e.1)).toFinset := by
    intro s hs
    simp only [Net.unobserved, Net.families, Multiset.map_coe, Multiset.mem_coe, List.map_map, List.mem_map,
      Function.comp] at hs
    obtain ⟨f, hf, rfl⟩ := hs
    exact ⟨f, hf, rfl⟩
  refine max_le (Multiset.sup_le.2 ?_) ?_
  · intro b hb
    simp only [Net.families, Multiset.map_coe, Multiset.mem_coe, List.map_map, List.mem_map, Function.comp] at hb
    obtain ⟨f, hf, rfl⟩ := hb
    exact entriesOver_le hw hk (le_trans (hcard f hf) (by omega))
  · let at' : Nat → String := fun i => ((n.variables[i]?).map NVar.name).getD ""
    have hat : ∀ f ∈ n.factors, ∀ s ∈ f.dims, at' (n.place s) = s := by
      intro f hf s hs
      obtain ⟨v, h1, h2⟩ := hvar f hf s hs
      simp [at', h1, h2]
    have hQ : (query.map n.place).toFinset.card ≤ query.length := by
      refine le_trans (List.toFinset_card_le _) (by simp)
    refine le_trans (biggest_aroundLine hw hk (fun i => line.idxOf (at' i))
      ((range n.variables.length).filter (fun i => at' i ∈ line)) ?_ (S₀ := n.unobserved evidence) ?_
      (query.map n.place).toFinset order ?_ ?_ ?_ (n.unobserved evidence) ?_ (fun s hs => .inr ⟨s, hs, Subset.refl _⟩))
      (Nat.pow_le_pow_right hk (by omega))
    · intro a ha b hb e
      simp only [mem_filter, mem_range] at ha hb
      have h1 : at' a = at' b := (List.idxOf_inj ha.2).1 e
      have ga := List.getElem?_eq_getElem ha.1
      have gb := List.getElem?_eq_getElem hb.1
      refine pos_unique hn ga gb ?_
      simpa [at', ga, gb] using h1
    · intro s hs a ha b hb hal hbl
      obtain ⟨f, hf, rfl⟩ := hun s hs
      simp only [mem_sdiff, List.mem_toFinset, List.mem_map] at ha hb
      obtain ⟨⟨x, hx, rfl⟩, _⟩ := ha
      obtain ⟨⟨y, hy, rfl⟩, _⟩ := hb
      simp only [mem_filter, hat f hf x hx, hat f hf y hy] at hal hbl ⊢
      have hgiven : ∀ g ∈ f.given, f.forVar ∈ line → line.idxOf f.forVar = line.idxOf g + 1 := by
        intro g hg hfl
        obtain ⟨bs, as, e⟩ := hl.order f hf g hg hfl
        have hnd := hl.nodup
        rw [e] at hnd ⊢
        rw [List.nodup_append] at hnd
        obtain ⟨_, n2, n3⟩ := hnd
        have g1 : g ∉ bs := fun h => n3 g h g List.mem_cons_self rfl
        have g2 : f.forVar ∉ bs := fun h => n3 _ h f.forVar (by simp) rfl
        have g3 : g ≠ f.forVar := fun h => (List.nodup_cons.1 n2).1 (by simp [h])
        rw [List.idxOf_append_of_notMem g1, List.idxOf_append_of_notMem g2, List.idxOf_cons_self,
          List.idxOf_cons_ne _ g3, List.idxOf_cons_self]
      have hone := hl.one f hf
      simp only [NFactor.dims, List.mem_append, List.mem_singleton] at hx hy
      rcases hx with hx | rfl <;> rcases hy with hy | rfl
      · have : x = y := by
          match hg : f.given, hone with
          | [], _ => rw [hg] at hx; simp at hx
          | [z], _ => rw [hg] at hx hy; simp at hx hy; rw [hx, hy]
        subst this; omega
      · rw [hgiven x hx hbl.2]
      · rw [hgiven y hy hal.2]; omega
      · omega
    · intro i hi hil
      obtain ⟨v, hv, _, _⟩ := (ho.mem i).1 hi
      have hli : i < n.variables.length := (List.getElem?_eq_some_iff.1 hv).1
      have hnl : v.name ∉ line := by
        simp only [mem_filter, mem_range] at hil
        intro h
        exact hil ⟨hli, by simpa [at', hv] using h⟩
      have hfor : ∀ s ∈ n.unobserved evidence, i ∈ s → ∃ f ∈ n.factors, f.forVar = v.name ∧
          s ⊆ (f.dims.map n.place).toFinset := by
        intro s hs his
        obtain ⟨f, hf, rfl⟩ := hun s hs
        refine ⟨f, hf, ?_, sdiff_subset⟩
        simp only [mem_sdiff, List.mem_toFinset, List.mem_map] at his
        obtain ⟨⟨x, hx, e⟩, _⟩ := his
        have hxv : x = v.name := by
          have := hat f hf x hx
          rw [e] at this
          rw [← this]
          simp [at', hv]
        subst hxv
        simp only [NFactor.dims, List.mem_append, List.mem_singleton] at hx
        rcases hx with hx | hx
        · exact absurd (hl.parents f hf _ hx) hnl
        · exact hx.symm
      by_cases hex : ∃ s ∈ n.unobserved evidence, i ∈ s
      · obtain ⟨s, hs, his⟩ := hex
        obtain ⟨f, hf, hfv, _⟩ := hfor s hs his
        refine le_trans (card_le_card (t := (f.dims.map n.place).toFinset) ?_) (hcard f hf)
        intro a ha
        obtain ⟨t, t1, t2, t3⟩ := mem_around.1 ha
        obtain ⟨g, hg, hgv, hsub⟩ := hfor t t1 t2
        have : g = f := List.inj_on_of_nodup_map hn.tables hg hf (hgv.trans hfv.symm)
        subst this
        exact hsub t3
      · have : around i (n.unobserved evidence) = ∅ := by
          rw [eq_empty_iff_forall_notMem]
          intro a ha
          obtain ⟨t, t1, t2, _⟩ := mem_around.1 ha
          exact hex ⟨t, t1, t2⟩
        rw [this]; simp
    · exact ho.sorted.imp (fun {i j} h => by
        rintro rfl
        rcases h with h | h <;> omega)
    · exact ho.sorted.imp (fun {i j} h => by omega)
    · intro s hs a ha
      obtain ⟨f, hf, rfl⟩ := hun s hs
      simp only [mem_sdiff, List.mem_toFinset, List.mem_map] at ha
      obtain ⟨⟨x, hx, rfl⟩, hne⟩ := ha
      obtain ⟨v, h1, h2⟩ := hvar f hf x hx
      by_cases hq : x ∈ query
      · exact .inr (List.mem_toFinset.2 (List.mem_map_of_mem hq))
      · refine .inl ((ho.mem _).2 ⟨v, h1, ?_, h2 ▸ hq⟩)
        intro h
        obtain ⟨e, he, e1⟩ := List.mem_map.1 h
        exact hne ⟨e, he, by rw [e1, h2]⟩

theorem biggestTable_childrenFirst (hn : n.Valid) (hc : n.AllChance) (hone : ∀ f ∈ n.factors, f.given.length ≤ 1)
    {m : Nat} (hm : 0 < m) (hout : ∀ v ∈ n.variables, v.outcomes.length ≤ m) {evidence : List (String × String)}
    {query : List String} {order : List Nat} (ho : n.TakesOut evidence query order)
    (hfirst : ∀ f ∈ n.factors, ∀ g ∈ f.given, n.place f.forVar ∈ order → n.place g ∈ order →
      List.Sublist [n.place f.forVar, n.place g] order) :
    n.biggestTable evidence order ≤ m ^ (2 + query.length) := by
  have hw := width_le hm hout
  have hvar : ∀ f ∈ n.factors, ∀ s ∈ f.dims, ∃ v, n.variables[n.place s]? = some v ∧ v.name = s := by
    intro f hf s hs
    obtain ⟨i, v, h1, rfl, _⟩ := dims_isVar hn hf (allChance_total hn hc hf) s hs
    exact ⟨v, by rw [place_eq hn h1]; exact h1, rfl⟩
  have hcard : ∀ f ∈ n.factors, (f.dims.map n.place).toFinset.card ≤ 2 := by
    intro f hf
    refine le_trans (List.toFinset_card_le _) ?_
    have := hone f hf
    simp [NFactor.dims]
    omega
  have hun : ∀ s ∈ n.unobserved evidence, ∃ f ∈ n.factors,
      s = (f.dims.map n.place).toFinset \ (evidence.map (fun e => n.place e.1)).toFinset := by
    intro s hs
    simp only [Net.unobserved, Net.families, Multiset.map_coe, Multiset.mem_coe, List.map_map, List.mem_map,
      Function.comp] at hs
    obtain ⟨f, hf, rfl⟩ := hs
    exact ⟨f, hf, rfl⟩
  refine max_le (Multiset.sup_le.2 ?_) ?_
  · intro b hb
    simp only [Net.families, Multiset.map_coe, Multiset.mem_coe, List.map_map, List.mem_map, Function.comp] at hb
    obtain ⟨f, hf, rfl⟩ := hb
    exact entriesOver_le hw hm (le_trans (hcard f hf) (by omega))
  · -- the parent of the variable at a place
    let par : Nat → Nat := fun i => ((n.factors.find? (fun f => n.place f.forVar = i)).bind
      (fun f => f.given.head?.map n.place)).getD i
    have hplace : ∀ f ∈ n.factors, ∀ f' ∈ n.factors, n.place f.forVar = n.place f'.forVar → f = f' := by
      intro f hf f' hf' e
      obtain ⟨v, h1, h2⟩ := hvar f hf f.forVar (by simp [NFactor.dims])
      obtain ⟨v', h1', h2'⟩ := hvar f' hf' f'.forVar (by simp [NFactor.dims])
      rw [e, h1'] at h1
      have := Option.some.inj h1
      subst this
      exact List.inj_on_of_nodup_map hn.tables hf hf' (h2.symm.trans h2')
    have hpar : ∀ f ∈ n.factors, par (n.place f.forVar) = (f.given.head?.map n.place).getD (n.place f.forVar) := by
      intro f hf
      have : n.factors.find? (fun f' => n.place f'.forVar = n.place f.forVar) = some f := by
        cases e : n.factors.find? (fun f' => n.place f'.forVar = n.place f.forVar) with
        | none =>
          rw [List.find?_eq_none] at e
          exact absurd (e f hf) (by simp)
        | some f' =>
          have h1 := List.find?_some e
          rw [hplace f' (List.mem_of_find?_eq_some e) f hf (by simpa using h1)]
      simp only [par, this, Option.bind_some]
    have hQ : (query.map n.place).toFinset.card ≤ query.length := by
      refine le_trans (List.toFinset_card_le _) (by simp)
    refine le_trans (biggest_childrenFirst hw hm par (query.map n.place).toFinset order (n.unobserved evidence) ?_ ?_ ?_
      ?_) (Nat.pow_le_pow_right hm (by omega))
    · exact ho.sorted.imp (fun {i j} h => by
        rintro rfl
        rcases h with h | h <;> omega)
    · intro j hj hp hne
      cases e : n.factors.find? (fun f => n.place f.forVar = j) with
      | none => exact absurd (by simp [par, e]) hne
      | some f =>
        have hf := List.mem_of_find?_eq_some e
        have hfj : n.place f.forVar = j := by simpa using List.find?_some e
        subst hfj
        have h' := hpar f hf
        cases hg : f.given with
        | nil => rw [hg] at h'; exact absurd h' hne
        | cons g l =>
          rw [hg] at h'
          have h'' : par (n.place f.forVar) = n.place g := h'
          rw [h''] at hp ⊢
          exact hfirst f hf g (by simp [hg]) hj hp
    · intro s hs a ha
      obtain ⟨f, hf, rfl⟩ := hun s hs
      simp only [mem_sdiff, List.mem_toFinset, List.mem_map] at ha
      obtain ⟨⟨x, hx, rfl⟩, hne⟩ := ha
      obtain ⟨v, h1, h2⟩ := hvar f hf x hx
      by_cases hq : x ∈ query
      · exact .inr (List.mem_toFinset.2 (List.mem_map_of_mem hq))
      · refine .inl ((ho.mem _).2 ⟨v, h1, ?_, h2 ▸ hq⟩)
        intro h
        obtain ⟨e, he, e1⟩ := List.mem_map.1 h
        exact hne ⟨e, he, by rw [e1, h2]⟩
    · intro s hs
      obtain ⟨f, hf, rfl⟩ := hun s hs
      refine ⟨n.place f.forVar, fun a ha _ => ?_⟩
      rw [hpar f hf]
      simp only [mem_sdiff, List.mem_toFinset, List.mem_map] at ha
      obtain ⟨⟨x, hx, rfl⟩, _⟩ := ha
      simp only [NFactor.dims, List.mem_append, List.mem_singleton] at hx
      rcases hx with hx | rfl
      · have := hone f hf
        match hg : f.given, this with
        | [], _ => rw [hg] at hx; simp at hx
        | [z], _ => rw [hg] at hx; simp at hx; subst hx; right; simp
      · exact .inl rfl

/-- Observing more variables that go in the same order otherwise. -/
theorem biggestTable_more (hn : n.Valid) {evidence evidence' : List (String × String)}
    {query : List String} {order order' : List Nat} (ho : n.TakesOut evidence query order)
    (ho' : n.TakesOut evidence' query order') (hsub : evidence.map Prod.fst ⊆ evidence'.map Prod.fst)
    (hord : List.Sublist order' order) : n.biggestTable evidence' order' ≤ n.biggestTable evidence order := by
  refine max_le_max (le_refl _) (biggest_sublist (width_pos hn) hord ?_ ?_ ?_)
  · intro s hs
    obtain ⟨t, ht, rfl⟩ := Multiset.mem_map.1 hs
    refine ⟨_, Multiset.mem_map.2 ⟨t, ht, rfl⟩, sdiff_subset_sdiff (Subset.refl _) ?_⟩
    intro a ha
    simp only [List.mem_toFinset, List.mem_map] at ha ⊢
    obtain ⟨e, he, rfl⟩ := ha
    obtain ⟨e', he', h⟩ := List.mem_map.1 (hsub (List.mem_map_of_mem he))
    exact ⟨e', he', by rw [h]⟩
  · intro s hs a ha hao
    obtain ⟨t, ht, rfl⟩ := Multiset.mem_map.1 hs
    obtain ⟨v, h1, h2, h3⟩ := (ho.mem a).1 hao
    refine (ho'.mem a).2 ⟨v, h1, ?_, h3⟩
    intro h
    obtain ⟨e, he, e1⟩ := List.mem_map.1 h
    refine (mem_sdiff.1 ha).2 (List.mem_toFinset.2 (List.mem_map.2 ⟨e, he, ?_⟩))
    rw [e1, place_eq hn h1]
  · exact ho.sorted.imp (fun {i j} h => by
      rintro rfl
      rcases h with h | h <;> omega)

end Bbn
