import Verif.Lemmas.Topo

/-!
# The order of the decisions does not depend on the map order
-/

set_option autoImplicit false

namespace Bbn

variable {α : Type}

/-- The result without the tick. -/
def noTick (r : Except Fault TopoState) : Except Fault (List Bool × List Var) := r.map (fun s => (s.1, s.2.1))

theorem noTick_ok {v : List Bool} {r : List Var} {t : Nat} : noTick (.ok (v, r, t)) = .ok (v, r) := rfl

theorem topoParents_det {dec : List Var} {c1 c2 : Nat → TopoState → Except Fault TopoState}
    (hc : ∀ i v r t1 t2, noTick (c1 i (v, r, t1)) = noTick (c2 i (v, r, t2))) (ps : List Var) :
    ∀ v r t1 t2, noTick (topoParents dec c1 ps (v, r, t1)) = noTick (topoParents dec c2 ps (v, r, t2)) := by
  induction ps with
  | nil => intro v r t1 t2; rfl
  | cons p ps ih =>
    intro v r t1 t2
    unfold topoParents
    split
    · exact ih v r t1 t2
    · cases slicesIndex p dec with
      | none => rfl
      | some idx =>
        dsimp only
        have h := hc idx v r t1 t2
        cases h1 : c1 idx (v, r, t1) with
        | error e =>
          cases h2 : c2 idx (v, r, t2) with
          | error e2 => rw [h1, h2] at h; rw [err_bind, err_bind]; exact h
          | ok s2 => rw [h1, h2] at h; simp [noTick, Except.map] at h
        | ok s1 =>
          cases h2 : c2 idx (v, r, t2) with
          | error e2 => rw [h1, h2] at h; simp [noTick, Except.map] at h
          | ok s2 =>
            obtain ⟨v1, r1, t1'⟩ := s1
            obtain ⟨v2, r2, t2'⟩ := s2
            rw [h1, h2, noTick_ok, noTick_ok] at h
            simp only [Except.ok.injEq, Prod.mk.injEq] at h
            obtain ⟨rfl, rfl⟩ := h
            rw [ok_bind, ok_bind]
            exact ih v1 r1 t1' t2'

theorem topoEntries_find {dec : List Var} {call : Nat → TopoState → Except Fault TopoState} {v : Var}
    (es : List (Var × List Var)) (hn : (es.map (fun e => e.1.id)).Nodup) :
    ∀ st, topoEntries dec call v es st =
      match es.find? (fun e => e.1.id = v.id) with
      | none => .ok st
      | some e => topoParents dec call e.2 st := by
  induction es with
  | nil => intro st; rfl
  | cons e es ih =>
    intro st
    simp only [List.map_cons, List.nodup_cons] at hn
    unfold topoEntries
    by_cases h : e.1.id = v.id
    · rw [if_pos h, List.find?_cons_of_pos (by simpa using h)]
      dsimp only
      have hnone : es.find? (fun e => e.1.id = v.id) = none := by
        rw [List.find?_eq_none]
        intro x hx hxe
        simp only [decide_eq_true_eq] at hxe
        exact hn.1 (List.mem_map.2 ⟨x, hx, hxe.trans h.symm⟩)
      cases hp : topoParents dec call e.2 st with
      | error e => rfl
      | ok s => rw [ok_bind, ih hn.2, hnone]
    · rw [if_neg h, List.find?_cons_of_neg (by simpa using h), ih hn.2]

theorem find?_perm_unique {β : Type} {p : β → Bool} {as bs : List β} (h : as.Perm bs)
    (hu : ∀ a ∈ as, ∀ b ∈ as, p a = true → p b = true → a = b) : as.find? p = bs.find? p := by
  cases ha : as.find? p with
  | none =>
    rw [List.find?_eq_none] at ha
    symm
    rw [List.find?_eq_none]
    intro x hx; exact ha x (h.symm.subset hx)
  | some a =>
    cases hb : bs.find? p with
    | none =>
      rw [List.find?_eq_none] at hb
      exact absurd (List.find?_some ha) (hb a (h.subset (List.mem_of_find?_eq_some ha)))
    | some b =>
      rw [hu a (List.mem_of_find?_eq_some ha) b (h.symm.subset (List.mem_of_find?_eq_some hb)) (List.find?_some ha)
        (List.find?_some hb)]

theorem topoRec_det (s1 s2 : Sched α) {dec : List Var} {deps : List (Var × List Var)}
    (hn : (deps.map (fun e => e.1.id)).Nodup) (fuel : Nat) :
    ∀ i v r t1 t2, noTick (topoRec s1 dec deps fuel i (v, r, t1)) = noTick (topoRec s2 dec deps fuel i (v, r, t2)) := by
  induction fuel with
  | zero => intro i v r t1 t2; unfold topoRec; rfl
  | succ fuel ih =>
    intro i v r t1 t2
    unfold topoRec
    cases goGet v i with
    | error e => rw [err_bind, err_bind]
    | ok seen =>
      simp only [ok_bind]
      cases seen with
      | true => simp only [if_true]; rfl
      | false =>
        simp only [Bool.false_eq_true, if_false]
        cases goSet v i true with
        | error e => rw [err_bind, err_bind]
        | ok v' =>
          simp only [ok_bind]
          cases goGet dec i with
          | error e => rw [err_bind, err_bind]
          | ok d =>
            simp only [ok_bind]
            have hperm : ∀ (s : Sched α) t, ((s.dep t deps).map (fun e => e.1.id)).Nodup :=
              fun s t => (((s.dep_perm t deps).map _).nodup_iff).2 hn
            have hfind : ∀ (s : Sched α) t, (s.dep t deps).find? (fun e => e.1.id = d.id) =
                deps.find? (fun e => e.1.id = d.id) := by
              intro s t
              apply find?_perm_unique (s.dep_perm t deps)
              intro a ha b hb ha2 hb2
              simp only [decide_eq_true_eq] at ha2 hb2
              exact List.inj_on_of_nodup_map (hperm s t) ha hb (ha2.trans hb2.symm)
            rw [topoEntries_find _ (hperm s1 t1), topoEntries_find _ (hperm s2 t2), hfind, hfind]
            cases deps.find? (fun e => e.1.id = d.id) with
            | none => dsimp only; rw [ok_bind, ok_bind]; rfl
            | some e =>
              dsimp only
              have h := topoParents_det (dec := dec) (c1 := topoRec s1 dec deps fuel) (c2 := topoRec s2 dec deps fuel) ih
                e.2 v' r (t1 + 1) (t2 + 1)
              cases h1 : topoParents dec (topoRec s1 dec deps fuel) e.2 (v', r, t1 + 1) with
              | error e1 =>
                cases h2 : topoParents dec (topoRec s2 dec deps fuel) e.2 (v', r, t2 + 1) with
                | error e2 => rw [h1, h2] at h; rw [err_bind, err_bind]; exact h
                | ok x2 => rw [h1, h2] at h; simp [noTick, Except.map] at h
              | ok x1 =>
                cases h2 : topoParents dec (topoRec s2 dec deps fuel) e.2 (v', r, t2 + 1) with
                | error e2 => rw [h1, h2] at h; simp [noTick, Except.map] at h
                | ok x2 =>
                  obtain ⟨a1, b1, c1⟩ := x1
                  obtain ⟨a2, b2, c2⟩ := x2
                  rw [h1, h2, noTick_ok, noTick_ok] at h
                  simp only [Except.ok.injEq, Prod.mk.injEq] at h
                  obtain ⟨rfl, rfl⟩ := h
                  rw [ok_bind, ok_bind]; rfl

/-- The order of the decisions is the same for all map orders. -/
theorem sortTopological_det (s1 s2 : Sched α) {dec : List Var} {deps : List (Var × List Var)}
    (hn : (deps.map (fun e => e.1.id)).Nodup) (t1 t2 : Nat) :
    (sortTopological s1 dec deps t1).map Prod.fst = (sortTopological s2 dec deps t2).map Prod.fst := by
  unfold sortTopological
  have loop : ∀ (is : List Nat) v r t1 t2,
      noTick (is.foldlM (fun (st : TopoState) i => topoRec s1 dec deps (dec.length + 1) i st) (v, r, t1)) =
        noTick (is.foldlM (fun (st : TopoState) i => topoRec s2 dec deps (dec.length + 1) i st) (v, r, t2)) := by
    intro is
    induction is with
    | nil => intro v r t1 t2; rfl
    | cons i is ih =>
      intro v r t1 t2
      have h := topoRec_det s1 s2 (dec := dec) hn (dec.length + 1) i v r t1 t2
      rw [List.foldlM_cons, List.foldlM_cons]
      cases h1 : topoRec s1 dec deps (dec.length + 1) i (v, r, t1) with
      | error e1 =>
        cases h2 : topoRec s2 dec deps (dec.length + 1) i (v, r, t2) with
        | error e2 => rw [h1, h2] at h; rw [err_bind, err_bind]; exact h
        | ok x2 => rw [h1, h2] at h; simp [noTick, Except.map] at h
      | ok x1 =>
        cases h2 : topoRec s2 dec deps (dec.length + 1) i (v, r, t2) with
        | error e2 => rw [h1, h2] at h; simp [noTick, Except.map] at h
        | ok x2 =>
          obtain ⟨a1, b1, c1⟩ := x1
          obtain ⟨a2, b2, c2⟩ := x2
          rw [h1, h2, noTick_ok, noTick_ok] at h
          simp only [Except.ok.injEq, Prod.mk.injEq] at h
          obtain ⟨rfl, rfl⟩ := h
          rw [ok_bind, ok_bind]
          exact ih _ _ _ _
  have h := loop (List.range dec.length) (List.replicate dec.length false) [] t1 t2
  revert h
  generalize (List.range dec.length).foldlM (fun (st : TopoState) i => topoRec s1 dec deps (dec.length + 1) i st)
    (List.replicate dec.length false, [], t1) = x1
  generalize (List.range dec.length).foldlM (fun (st : TopoState) i => topoRec s2 dec deps (dec.length + 1) i st)
    (List.replicate dec.length false, [], t2) = x2
  intro h
  cases x1 with
  | error e1 =>
    cases x2 with
    | error e2 => simpa [noTick, Except.map] using h
    | ok x2 => simp [noTick, Except.map] at h
  | ok x1 =>
    cases x2 with
    | error e2 => simp [noTick, Except.map] at h
    | ok x2 =>
      obtain ⟨a1, b1, c1⟩ := x1
      obtain ⟨a2, b2, c2⟩ := x2
      rw [noTick_ok, noTick_ok] at h
      simp only [Except.ok.injEq, Prod.mk.injEq] at h
      obtain ⟨rfl, rfl⟩ := h
      rfl

end Bbn
