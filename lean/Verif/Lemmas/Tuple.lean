import Verif.Lemmas.Loop
import Mathlib.Data.List.InsertIdx
import Mathlib.Data.List.Nodup

/-!
# Lemmas on removing and inserting one position of a tuple
-/

set_option autoImplicit false

namespace Bbn

theorem inRange_eraseIdx {vs : List Var} {t : List Nat} (h : InRange vs t) (p : Nat) :
    InRange (vs.eraseIdx p) (t.eraseIdx p) := by
  induction h generalizing p with
  | nil => simp [InRange]
  | @cons v i vs t hi ht ih =>
    cases p with
    | zero => exact ht
    | succ p => simpa using inRange_cons.2 ⟨hi, ih p⟩

theorem inRange_insertIdx {vs : List Var} {t : List Nat} {p c : Nat} {w : Var} (hp : vs[p]? = some w)
    (h : InRange (vs.eraseIdx p) t) (hc : c < w.outcomes) : InRange vs (t.insertIdx p c) := by
  induction vs generalizing p t with
  | nil => simp at hp
  | cons v vs ih =>
    cases p with
    | zero =>
      simp at hp; subst hp
      simpa using inRange_cons.2 ⟨hc, by simpa using h⟩
    | succ p =>
      simp at hp
      cases t with
      | nil => simp [InRange] at h
      | cons i t =>
        simp only [List.eraseIdx_cons_succ] at h
        have h' := inRange_cons.1 h
        simpa using inRange_cons.2 ⟨h'.1, ih hp h'.2⟩

theorem insertIdx_eraseIdx_self {t : List Nat} {p c : Nat} (h : t[p]? = some c) :
    (t.eraseIdx p).insertIdx p c = t := by
  induction t generalizing p with
  | nil => simp at h
  | cons i t ih =>
    cases p with
    | zero => simp at h; simp [h]
    | succ p => simp at h; simpa using ih h

theorem eraseIdx_insertIdx_self {t : List Nat} {p c : Nat} (h : p ≤ t.length) :
    (t.insertIdx p c).eraseIdx p = t := by
  induction t generalizing p with
  | nil => simp at h; subst h; rfl
  | cons i t ih =>
    cases p with
    | zero => simp
    | succ p => simp at h; simp [ih h]

theorem getElem?_insertIdx_eq {t : List Nat} {p c : Nat} (h : p ≤ t.length) :
    (t.insertIdx p c)[p]? = some c := by
  induction t generalizing p with
  | nil => simp at h; subst h; rfl
  | cons i t ih =>
    cases p with
    | zero => simp
    | succ p => simp at h; simpa using ih h

theorem length_eraseIdx_le {vs : List Var} {t : List Nat} {p : Nat} {w : Var} (hp : vs[p]? = some w)
    (h : t.length = (vs.eraseIdx p).length) : p ≤ t.length := by
  have hlt := (List.getElem?_eq_some_iff.1 hp).1
  rw [h, List.length_eraseIdx_of_lt hlt]; omega

theorem insertIdx_eq_iff {vs : List Var} {t t' : List Nat} {p c : Nat} {w : Var} (hp : vs[p]? = some w)
    (h : t.length = vs.length) (h' : t'.length = (vs.eraseIdx p).length) :
    t'.insertIdx p c = t ↔ t' = t.eraseIdx p ∧ t[p]? = some c := by
  have hle := length_eraseIdx_le hp h'
  constructor
  · rintro rfl
    exact ⟨(eraseIdx_insertIdx_self hle).symm, getElem?_insertIdx_eq hle⟩
  · rintro ⟨rfl, e⟩
    exact insertIdx_eraseIdx_self e

theorem lastIdx_none {id : Nat} {vs : List Var} : lastIdx id vs = none ↔ id ∉ vs.map Var.id := by
  induction vs with
  | nil => simp [lastIdx]
  | cons v vs ih =>
    unfold lastIdx
    rcases h : lastIdx id vs with _ | i
    · have := ih.1 h
      by_cases hv : v.id = id
      · simp [hv]
      · have hv' : ¬ id = v.id := fun e => hv e.symm
        rw [List.map_cons, List.mem_cons]; simp only [hv, if_false, hv', false_or]
        simpa using this
    · have : ¬ id ∉ vs.map Var.id := fun hn => by rw [ih.2 hn] at h; simp at h
      simp only [List.map_cons, List.mem_cons, not_or]
      simp only [reduceCtorEq, false_iff]; exact fun h => this h.2

theorem firstIdx_none {id : Nat} {vs : List Var} : firstIdx id vs = none ↔ id ∉ vs.map Var.id := by
  induction vs with
  | nil => simp [firstIdx]
  | cons v vs ih =>
    unfold firstIdx
    by_cases hv : v.id = id
    · simp [hv]
    · have hv' : ¬ id = v.id := fun e => hv e.symm
      simp only [hv, if_false, Option.map_eq_none_iff, ih, List.map_cons, List.mem_cons, hv', false_or]

theorem lastIdx_some {id : Nat} {vs : List Var} {p : Nat} (h : lastIdx id vs = some p) :
    ∃ w, vs[p]? = some w ∧ w.id = id := by
  induction vs generalizing p with
  | nil => simp [lastIdx] at h
  | cons v vs ih =>
    unfold lastIdx at h
    rcases h' : lastIdx id vs with _ | i
    · rw [h'] at h
      by_cases hv : v.id = id
      · simp [hv] at h; subst h; exact ⟨v, by simp, hv⟩
      · simp [hv] at h
    · rw [h'] at h; simp at h; subst h; simpa using ih h'

theorem firstIdx_some {id : Nat} {vs : List Var} {p : Nat} (h : firstIdx id vs = some p) :
    ∃ w, vs[p]? = some w ∧ w.id = id := by
  induction vs generalizing p with
  | nil => simp [firstIdx] at h
  | cons v vs ih =>
    unfold firstIdx at h
    by_cases hv : v.id = id
    · simp [hv] at h; subst h; exact ⟨v, by simp, hv⟩
    · simp [hv] at h; obtain ⟨i, hi, rfl⟩ := h; simpa using ih hi

theorem mem_ids_lastIdx {id : Nat} {vs : List Var} (h : id ∈ vs.map Var.id) : ∃ p, lastIdx id vs = some p := by
  rcases h' : lastIdx id vs with _ | p
  · exact absurd h (lastIdx_none.1 h')
  · exact ⟨p, rfl⟩

theorem mem_ids_firstIdx {id : Nat} {vs : List Var} (h : id ∈ vs.map Var.id) : ∃ p, firstIdx id vs = some p := by
  rcases h' : firstIdx id vs with _ | p
  · exact absurd h (firstIdx_none.1 h')
  · exact ⟨p, rfl⟩

theorem otherVars_eq_eraseIdx {vs : List Var} (hn : (vs.map Var.id).Nodup) {p : Nat} {w : Var}
    (hp : vs[p]? = some w) : otherVars w.id vs = vs.eraseIdx p := by
  induction vs generalizing p with
  | nil => simp at hp
  | cons v vs ih =>
    simp only [List.map_cons, List.nodup_cons] at hn
    cases p with
    | zero =>
      simp at hp; subst hp
      simp only [otherVars, List.eraseIdx_cons_zero, ne_eq, not_true_eq_false, decide_false, Bool.false_eq_true,
        not_false_eq_true, List.filter_cons_of_neg]
      rw [List.filter_eq_self]
      intro u hu
      have : u.id ≠ v.id := fun e => hn.1 (e ▸ List.mem_map_of_mem hu)
      simpa using this
    | succ p =>
      simp at hp
      have : v.id ≠ w.id := fun e => hn.1 (e ▸ List.mem_map_of_mem (List.mem_of_getElem? hp))
      simp only [List.eraseIdx_cons_succ, ← ih hn.2 hp]
      simp [otherVars, this]

theorem mem_otherVars {id : Nat} {vs : List Var} {v : Var} : v ∈ otherVars id vs ↔ v ∈ vs ∧ v.id ≠ id := by
  simp [otherVars]

theorem otherVars_nodup {id : Nat} {vs : List Var} (h : (vs.map Var.id).Nodup) :
    ((otherVars id vs).map Var.id).Nodup :=
  h.sublist (List.Sublist.map _ List.filter_sublist)

/-- Changing the variable at position `p` inserts the new outcome there. -/
theorem tupleOf_upd {vs : List Var} (hn : (vs.map Var.id).Nodup) {p : Nat} {w : Var} (hp : vs[p]? = some w)
    (σ : Assignment) (c : Nat) : tupleOf vs (σ.upd w.id c) = (tupleOf (vs.eraseIdx p) σ).insertIdx p c := by
  induction vs generalizing p with
  | nil => simp at hp
  | cons v vs ih =>
    simp only [List.map_cons, List.nodup_cons] at hn
    cases p with
    | zero =>
      simp at hp; subst hp
      have : tupleOf vs (σ.upd v.id c) = tupleOf vs σ := by
        apply tupleOf_congr
        intro u hu
        have : u.id ≠ v.id := fun e => hn.1 (e ▸ List.mem_map_of_mem hu)
        simp [Assignment.upd, this]
      simp only [List.eraseIdx_cons_zero, List.insertIdx_zero, ← this]
      simp [tupleOf, Assignment.upd]
    | succ p =>
      simp at hp
      have hne : v.id ≠ w.id := fun e => hn.1 (e ▸ List.mem_map_of_mem (List.mem_of_getElem? hp))
      have := ih hn.2 hp
      simp only [List.eraseIdx_cons_succ]
      show (σ.upd w.id c) v.id :: tupleOf vs (σ.upd w.id c) = (σ v.id :: tupleOf (vs.eraseIdx p) σ).insertIdx (p + 1) c
      rw [this]; simp [Assignment.upd, hne]

theorem fits_upd {vs : List Var} {σ : Assignment} {i c : Nat} (h : Fits σ (otherVars i vs))
    (hc : ∀ v ∈ vs, v.id = i → c < v.outcomes) : Fits (σ.upd i c) vs := by
  intro v hv
  by_cases e : v.id = i
  · simp [Assignment.upd, e, hc v hv e]
  · simp only [Assignment.upd, e, if_false]; exact h v (mem_otherVars.2 ⟨hv, e⟩)

theorem upd_upd_same (σ : Assignment) (i a b : Nat) : (σ.upd i a).upd i b = σ.upd i b := by
  funext j; simp only [Assignment.upd]; split <;> rfl

theorem upd_comm (σ : Assignment) {i j : Nat} (h : i ≠ j) (a b : Nat) :
    (σ.upd i a).upd j b = (σ.upd j b).upd i a := by
  funext k; simp only [Assignment.upd]
  split <;> split <;> simp_all

theorem upd_self (σ : Assignment) (i : Nat) : σ.upd i (σ i) = σ := by
  funext k; simp only [Assignment.upd]; split <;> simp_all

end Bbn
