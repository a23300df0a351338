import Verif.Props.NetSameWorth

/-!
# C161: a single decision, in both modes of `SolvePolicies`
-/

set_option autoImplicit false

namespace Bbn

open Finset

variable {α : Type} [Field α] [LinearOrder α] [IsStrictOrderedRing α]

/-- The policy of a single decision, whether it is solved stepwise or not. -/
theorem one_policy (sch : NSched α) {n : Net α} (hn : n.Valid) (hs : n.Solvable) {d : String} (hd : n.decisions = [d])
    (hm : n.Matters [d] d) (hnn : ∀ f ∈ n.chanceTables, ∀ x ∈ f.tab, 0 ≤ x) (stepwise : Bool) :
    ∃ tables m, n.solvePolicies sch stepwise = (.ok tables, m) ∧
      ∀ w : World, (∀ v ∈ n.variables, w v.name < v.outcomes.length) →
        (n.chanceTables.map (fun f => n.prob f w)).prod ≠ 0 → ∀ k < n.count d, n.byTables tables d (w.set d k) =
          let best := bestOutcomes (n.count d) (fun c => n.worth [d] (w.set d c))
          if k ∈ best then 1 / (best.length : α) else 0 := by
  obtain ⟨tables, m, e, t, h1, h2, h3, _, h5⟩ := C150_together sch hn hs (by rw [hd]; simp) hnn
    (fun e he => by
      rw [hd] at he ⊢
      obtain rfl := List.mem_singleton.1 he
      exact hm) (stepwise := stepwise) (fun _ => by rw [hd]; rfl)
  rw [hd] at h2
  obtain rfl := List.mem_singleton.1 h2
  obtain ⟨tables', m', g1, g2, _⟩ := solvePolicies_net sch hn (fun _ => hs.toFeasible) stepwise
  rw [h1] at g1
  obtain ⟨e1, -⟩ := Prod.mk.inj g1
  obtain rfl := Except.ok.inj e1
  refine ⟨tables, m, h1, fun w hw h0 k hk => ?_⟩
  have hfind : tables.find? (fun x => x.1 = e) = some (e, t) := by
    cases hf : tables.find? (fun x => x.1 = e) with
    | none =>
      have := List.find?_eq_none.1 hf _ h3
      simp at this
    | some y =>
      have hy : y.1 = e := by simpa using List.find?_some hf
      rw [List.inj_on_of_nodup_map g2 (List.mem_of_find?_eq_some hf) h3 hy]
  have := h5 w hw h0 k hk
  rw [hd] at this
  unfold Net.byTables
  rw [hfind]
  exact this

/-- **C161, a single decision.** With a single decision, the same holds in both modes of `SolvePolicies`, also if the two
networks are solved in different modes. -/
theorem C161_one (sch sch' : NSched α) {n n' : Net α} (hn : n.Valid) (hn' : n'.Valid) (hs : n.Solvable)
    (hs' : n'.Solvable) (hv : n.SameVars n') (hi : n.SameInfo n') {d : String} (hd : n.decisions = [d])
    (hm : n.Matters [d] d ∧ n'.Matters [d] d)
    (hnn : ∀ f ∈ n.chanceTables, ∀ x ∈ f.tab, 0 ≤ x) (hnn' : ∀ f ∈ n'.chanceTables, ∀ x ∈ f.tab, 0 ≤ x)
    {a c : α} (ha : 0 < a) (hc : 0 < c)
    (hj : ∀ w, n.Allowed w → (n'.chanceTables.map (fun f => n'.prob f w)).prod =
      c * (n.chanceTables.map (fun f => n.prob f w)).prod)
    (hu : ∀ w, n.Allowed w → n'.totalIn w = a * n.totalIn w) (stepwise stepwise' : Bool) :
    ∃ tables m tables' m', n.solvePolicies sch stepwise = (.ok tables, m) ∧
      n'.solvePolicies sch' stepwise' = (.ok tables', m') ∧
      ∀ w : World, (∀ v ∈ n.variables, w v.name < v.outcomes.length) →
        (n.chanceTables.map (fun f => n.prob f w)).prod ≠ 0 →
        ∀ k < n.count d, n'.byTables tables' d (w.set d k) = n.byTables tables d (w.set d k) := by
  have hd' : n'.decisions = [d] := by rw [SameVars.decisions hv, hd]
  obtain ⟨tables, m, a1, a2⟩ := one_policy sch hn hs hd hm.1 hnn stepwise
  obtain ⟨tables', m', b1, b2⟩ := one_policy sch' hn' hs' hd' hm.2 hnn' stepwise'
  refine ⟨tables, m, tables', m', a1, b1, fun w hw h0 k hk => ?_⟩
  have hdk := mem_decisions.1 (show d ∈ n.decisions by rw [hd]; simp)
  obtain ⟨dv, hdv, hdn, _⟩ := isKind_mem.1 hdk
  have hcount : n'.count d = n.count d := SameVars.count hv hn hn' ⟨dv, hdv, hdn⟩
  have allowed : ∀ {w}, n.FitsAll w → n.Allowed w := fun h => h.state
  rw [a2 w hw h0 k hk, b2 w ((SameVars.fitsAll hv w).2 hw) (by rw [hj w (allowed hw)]; exact mul_ne_zero hc.ne' h0) k
    (by rw [hcount]; exact hk), hcount]
  have hnd : ((n.unseen [d]).map NVar.name).Nodup := hn.names.sublist (List.filter_sublist.map _)
  have hbare : (n'.unseen [d]).map NVar.bare = (n.unseen [d]).map NVar.bare := by
    unfold Net.unseen
    refine SameVars.filter hv (fun v v' e1 e2 => ?_)
    rw [e1, e2]
    refine and_congr_right (fun _ => not_congr ?_)
    unfold Net.Known
    simpa using or_congr_right (a := v'.name = d) (hi d hdk v'.name)
  have w2 : ∀ k < n.count d, n'.worth [d] (w.set d k) = (c * a) * n.worth [d] (w.set d k) + 0 := by
    intro k hk
    unfold Net.worth
    rw [← sumWorlds_bare, hbare, sumWorlds_bare, add_zero, ← sumWorlds_mul]
    refine sumWorlds_congr _ _ hnd (fun w' h1 h2 => ?_)
    have hf : n.FitsAll w' := by
      intro v hv
      by_cases hu : v.name ∈ (n.unseen [d]).map NVar.name
      · obtain ⟨u, hu1, hu2⟩ := List.mem_map.1 hu
        have := name_unique hn (List.mem_filter.1 hu1).1 hv hu2
        exact this ▸ h1 u hu1
      · rw [h2 _ hu]
        unfold World.set
        split_ifs with e
        · rw [← count_eq hn hv, e]; exact hk
        · exact hw v hv
    rw [hj w' (allowed hf), hu w' (allowed hf)]
    ring
  rw [bestOutcomes_congr w2, bestOutcomes_affine (mul_pos hc ha)]

open Ex in
/-- The hypotheses of `C161_one` are met: the umbrella network written down in two ways and solved in two modes. -/
example (sch sch' : NSched ℚ) : ∃ tables m tables' m', umb.solvePolicies sch true = (.ok tables, m) ∧
    umbBack.solvePolicies sch' false = (.ok tables', m') ∧
    ∀ w : World, (∀ v ∈ umb.variables, w v.name < v.outcomes.length) →
      (umb.chanceTables.map (fun f => umb.prob f w)).prod ≠ 0 →
      ∀ k < umb.count "Umbrella",
        umbBack.byTables tables' "Umbrella" (w.set "Umbrella" k) = umb.byTables tables "Umbrella" (w.set "Umbrella" k) :=
  C161_one sch sch' umb_valid umbBack_valid umb_solvable umbBack_solvable rfl umbBack_info (by decide)
    (umbBack_matters _ (by decide)) (by decide +kernel) (by decide +kernel) two_pos one_pos
    (fun w hw => by simpa [Net.joint] using umbBack_joint w hw) umbBack_total true false

end Bbn
