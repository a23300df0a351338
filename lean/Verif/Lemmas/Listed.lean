import Verif.Lemmas.Topo

/-!
# Decisions listed after the decisions they depend on keep the listed order
-/

set_option autoImplicit false

namespace Bbn

variable {α : Type}

/-- A visited decision is left alone. -/
theorem topoRec_seen (sch : Sched α) {dec : List Var} {deps : List (Var × List Var)} {fuel i : Nat} {vis : List Bool}
    {res : List Var} {t : Nat} (h : vis[i]? = some true) :
    topoRec sch dec deps (fuel + 1) i (vis, res, t) = .ok (vis, res, t) := by
  unfold topoRec
  rw [goGet_eq.2 h]
  rfl

theorem topoParents_seen {dec : List Var} (hd : dec.Nodup) {call : Nat → TopoState → Except Fault TopoState} {st : TopoState}
    {k : Nat} (hcall : ∀ i < k, call i st = .ok st) (ps : List Var)
    (hps : ∀ p ∈ ps, p.nodeType = .decision → p ∈ dec.take k) : topoParents dec call ps st = .ok st := by
  induction ps with
  | nil => rfl
  | cons p ps ih =>
    unfold topoParents
    have ih := ih (fun q hq => hps q (by simp [hq]))
    by_cases hp : p.nodeType = .decision
    · rw [if_neg (by simp [hp])]
      obtain ⟨i, hi, e⟩ := List.mem_iff_getElem.1 (hps p (by simp) hp)
      have hlt : i < k := by simp at hi; omega
      have hg : dec[i]? = some p := by
        rw [List.getElem_take] at e
        rw [← e]; exact List.getElem?_eq_getElem _
      rw [slicesIndex_of_getElem? hd hg]
      show (call i st).bind _ = _
      rw [hcall i hlt]
      exact ih
    · rw [if_pos hp]; exact ih

theorem topoEntries_seen {dec : List Var} (hd : dec.Nodup) {call : Nat → TopoState → Except Fault TopoState} {st : TopoState}
    {k : Nat} (hcall : ∀ i < k, call i st = .ok st) {v : Var} (es : List (Var × List Var))
    (hes : ∀ p, DecEdge es p v → p ∈ dec.take k) : topoEntries dec call v es st = .ok st := by
  induction es with
  | nil => rfl
  | cons e es ih =>
    unfold topoEntries
    have ih := ih (fun p ⟨x, hx, h⟩ => hes p ⟨x, by simp [hx], h⟩)
    by_cases he : e.1.id = v.id
    · rw [if_pos he, topoParents_seen hd hcall e.2 (fun p hp hpd => hes p ⟨e, by simp, he, hp, hpd⟩), ok_bind]
      exact ih
    · rw [if_neg he]; exact ih

/-- Decisions that are listed after all decisions they depend on are not rearranged. -/
theorem sortTopological_listed (sch : Sched α) {dec : List Var} (hd : dec.Nodup) {deps : List (Var × List Var)}
    (ho : TopoOrdered deps dec) (t : Nat) : ∃ t', sortTopological sch dec deps t = .ok (dec, t') := by
  have loop : ∀ k ≤ dec.length, ∃ vis t', (List.range k).foldlM
      (fun (st : TopoState) i => topoRec sch dec deps (dec.length + 1) i st) (List.replicate dec.length false, [], t) =
        .ok (vis, dec.take k, t') ∧ vis.length = dec.length ∧ ∀ i < dec.length, vis[i]? = some (decide (i < k)) := by
    intro k
    induction k with
    | zero =>
      intro _
      exact ⟨_, t, rfl, by simp, fun i hi => by simp [hi]⟩
    | succ k ih =>
      intro hk
      obtain ⟨vis, t1, h1, h2, h3⟩ := ih (by omega)
      have hlt : k < dec.length := hk
      have hnew : ∀ i < dec.length, (vis.set k true)[i]? = some (decide (i < k + 1)) := by
        intro i hi
        rw [List.getElem?_set]
        by_cases e : k = i
        · subst e; simp [h2, hi]
        · rw [if_neg e, h3 i hi]
          congr 1
          rw [decide_eq_decide]; omega
      refine ⟨vis.set k true, t1 + 1, ?_, by simpa using h2, hnew⟩
      rw [List.range_succ, List.foldlM_append, h1, ok_bind, List.foldlM_cons]
      have hstep : topoRec sch dec deps (dec.length + 1) k (vis, dec.take k, t1) =
          .ok (vis.set k true, dec.take (k + 1), t1 + 1) := by
        unfold topoRec
        rw [goGet_eq.2 (h3 k hlt), ok_bind]
        simp only [Nat.lt_irrefl, decide_false, Bool.false_eq_true, if_false]
        rw [goSet_ok (by rw [h2]; exact hlt), ok_bind, goGet_eq.2 (List.getElem?_eq_getElem hlt), ok_bind]
        rw [topoEntries_seen hd (k := k) ?_ _ ?_, ok_bind]
        · simp only [List.take_succ_eq_append_getElem hlt]
          rfl
        · intro i hi
          obtain ⟨m, hm⟩ : ∃ m, dec.length = m + 1 := ⟨dec.length - 1, by omega⟩
          conv_lhs => rw [hm]
          exact topoRec_seen sch (by rw [hnew i (by omega)]; simp; omega)
        · rintro p ⟨x, hx, h⟩
          refine ho (dec.take k) dec[k] (dec.drop (k + 1)) ?_ p ⟨x, (sch.dep_perm t1 deps).subset hx, h⟩
          rw [List.cons_getElem_drop_succ, List.take_append_drop]
      rw [hstep, ok_bind]
      rfl
  obtain ⟨vis, t', h1, _, _⟩ := loop dec.length (le_refl _)
  refine ⟨t', ?_⟩
  unfold sortTopological
  rw [h1, ok_bind, List.take_length]
  rfl

end Bbn
