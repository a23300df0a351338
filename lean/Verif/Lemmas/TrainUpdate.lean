import Verif.Lemmas.Training
import Verif.Spec.Training
import Mathlib.Algebra.Field.Defs
import Mathlib.Algebra.BigOperators.Group.List.Basic
import Mathlib.Data.Nat.Cast.Defs

/-!
# What `updateNetwork` writes
-/

set_option autoImplicit false

namespace Bbn

variable {α : Type}

theorem updateCells_spec [Zero α] [Div α] [NatCast α] (data : List (List α)) (cnt j cols : Nat) (hj : j < data.length)
    (hrow : (data.getD j []).length = cols) :
    ∀ (ks : List Nat) (tab : List α), (∀ k ∈ ks, k < cols) → (j + 1) * cols ≤ tab.length →
    ∃ tab', updateCells data cnt j cols ks tab = .ok tab' ∧ tab'.length = tab.length ∧
      ∀ x, tab'.getD x 0 = if ∃ k ∈ ks, x = j * cols + k then (data.getD j []).getD (x - j * cols) 0 / (cnt : α)
        else tab.getD x 0 := by
  intro ks
  induction ks with
  | nil =>
    intro tab _ _
    exact ⟨tab, rfl, rfl, fun x => by simp⟩
  | cons k ks ih =>
    intro tab hk hl
    have hk0 := hk k (by simp)
    have hlt : j * cols + k < tab.length := by rw [Nat.succ_mul] at hl; omega
    unfold updateCells
    rw [goGet_getD [] hj, ok_bind, goGet_getD 0 (by rw [hrow]; exact hk0), ok_bind]
    unfold goSet
    rw [if_pos hlt, ok_bind]
    obtain ⟨tab', e, hlen, hval⟩ := ih (tab.set (j * cols + k) ((data.getD j []).getD k 0 / (cnt : α)))
      (fun k' h => hk k' (by simp [h])) (by rw [List.length_set]; exact hl)
    refine ⟨tab', e, by rw [hlen, List.length_set], fun x => ?_⟩
    rw [hval, getD_set' _ _ _ _ _ hlt]
    by_cases hx : j * cols + k = x
    · rw [if_pos hx, if_pos (⟨k, by simp, hx.symm⟩ : ∃ k' ∈ k :: ks, x = j * cols + k')]
      have : x - j * cols = k := by omega
      rw [this]
      split <;> rfl
    · rw [if_neg hx]
      by_cases h2 : ∃ k' ∈ ks, x = j * cols + k'
      · rw [if_pos h2, if_pos]
        obtain ⟨k', h3, h4⟩ := h2
        exact ⟨k', by simp [h3], h4⟩
      · rw [if_neg h2, if_neg]
        rintro ⟨k', h3, h4⟩
        rcases List.mem_cons.1 h3 with rfl | h3
        · exact hx h4.symm
        · exact h2 ⟨k', h3, h4⟩

/-- The value `updateNetwork` writes. -/
def newEntry [Zero α] [Div α] [NatCast α] (data : List (List α)) (counter : List Nat) (cols x : Nat) : α :=
  (data.getD (x / cols) []).getD (x % cols) 0 / (counter.getD (x / cols) 0 : α)

theorem updateRows_spec [Zero α] [Div α] [NatCast α] (data : List (List α)) (counter : List Nat) (cols rows : Nat)
    (hc : 0 < cols) (hd : data.length = rows) (hcl : counter.length = rows)
    (hrow : ∀ j < rows, (data.getD j []).length = cols) :
    ∀ (js : List Nat) (tab : List α), (∀ j ∈ js, j < rows) → rows * cols ≤ tab.length →
    ∃ tab' e, updateRows data counter cols js tab = .ok (tab', e) ∧ tab'.length = tab.length ∧
      (e = none ↔ ∀ j ∈ js, counter.getD j 0 ≠ 0) ∧
      (∀ x, tab'.getD x 0 = tab.getD x 0 ∨ x / cols ∈ js ∧ tab'.getD x 0 = newEntry data counter cols x) ∧
      (e = none → ∀ x, x / cols ∈ js → tab'.getD x 0 = newEntry data counter cols x) := by
  intro js
  induction js with
  | nil =>
    intro tab _ _
    exact ⟨tab, none, rfl, rfl, by simp, fun x => .inl rfl, by simp⟩
  | cons j js ih =>
    intro tab hj hl
    have hj0 := hj j (by simp)
    unfold updateRows
    rw [goGet_getD 0 (by rw [hcl]; exact hj0), ok_bind]
    by_cases h0 : counter.getD j 0 = 0
    · rw [if_pos h0]
      refine ⟨tab, some _, rfl, rfl, ?_, fun x => .inl rfl, fun h => by cases h⟩
      refine ⟨fun h => (by cases h), fun h => absurd h0 (h j (by simp))⟩
    · rw [if_neg h0]
      obtain ⟨tab1, e1, hlen1, hval1⟩ := updateCells_spec data (counter.getD j 0) j cols (by rw [hd]; exact hj0)
        (hrow j hj0) (List.range cols) tab (by simp)
        (Nat.le_trans (Nat.mul_le_mul_right _ hj0) hl)
      rw [e1, ok_bind]
      obtain ⟨tab', e, e2, hlen, hnone, hval, hdone⟩ := ih tab1 (fun j' h => hj j' (by simp [h])) (by rw [hlen1]; exact hl)
      have hcell : ∀ x, tab1.getD x 0 = if x / cols = j then newEntry data counter cols x else tab.getD x 0 := by
        intro x
        rw [hval1]
        have : (∃ k ∈ List.range cols, x = j * cols + k) ↔ x / cols = j := by
          constructor
          · rintro ⟨k, hk, rfl⟩
            rw [List.mem_range] at hk
            rw [Nat.mul_comm, Nat.mul_add_div hc, Nat.div_eq_of_lt hk, Nat.add_zero]
          · rintro rfl
            refine ⟨x % cols, List.mem_range.2 (Nat.mod_lt _ hc), ?_⟩
            rw [Nat.mul_comm]; exact (Nat.div_add_mod x cols).symm
        by_cases hx : x / cols = j
        · rw [if_pos (this.2 hx), if_pos hx]
          unfold newEntry
          have hm : x - j * cols = x % cols := by
            have := Nat.div_add_mod x cols
            rw [hx, Nat.mul_comm] at this
            omega
          rw [hx, hm]
        · rw [if_neg (fun h => hx (this.1 h)), if_neg hx]
      refine ⟨tab', e, e2, by rw [hlen, hlen1], ?_, ?_, ?_⟩
      · rw [hnone]
        constructor
        · intro h j' hj'
          rcases List.mem_cons.1 hj' with rfl | hj'
          · exact h0
          · exact h j' hj'
        · exact fun h j' hj' => h j' (by simp [hj'])
      · intro x
        rcases hval x with h | ⟨h, h'⟩
        · rw [h, hcell]
          by_cases hx : x / cols = j
          · rw [if_pos hx]; exact .inr ⟨by simp [hx], rfl⟩
          · rw [if_neg hx]; exact .inl rfl
        · exact .inr ⟨by simp [h], h'⟩
      · intro he x hx
        rcases List.mem_cons.1 hx with hx | hx
        · rcases hval x with h | ⟨_, h'⟩
          · rw [h, hcell, if_pos hx]
          · exact h'
        · exact hdone he x hx

theorem SameTables.refl (fs : List (NFactor α)) : SameTables fs fs :=
  ⟨rfl, fun _ f h => ⟨f.table, h, rfl⟩⟩

theorem SameTables.trans {fs fs' fs'' : List (NFactor α)} (h : SameTables fs fs') (h' : SameTables fs' fs'') :
    SameTables fs fs'' := by
  refine ⟨h'.1.trans h.1, fun p f hf => ?_⟩
  obtain ⟨tb, h1, h2⟩ := h.2 p f hf
  obtain ⟨tb', h3, h4⟩ := h'.2 p _ h1
  exact ⟨tb', h3, h4.trans h2⟩

theorem SameTables.set {fs : List (NFactor α)} {p : Nat} {f : NFactor α} (hf : fs[p]? = some f) {tb : Option (List α)}
    (h : tb.map List.length = f.table.map List.length) : SameTables fs (fs.set p { f with table := tb }) := by
  refine ⟨by simp, fun q g hg => ?_⟩
  rw [List.getElem?_set]
  by_cases e : p = q
  · subst e
    have hp := (List.getElem?_eq_some_iff.1 hf).1
    rw [hf] at hg
    injection hg with hg
    subst hg
    rw [if_pos rfl, if_pos hp]
    exact ⟨tb, rfl, h⟩
  · rw [if_neg e]
    exact ⟨g.table, hg, rfl⟩

/-- A variable with its table and what the trainer has for it. -/
structure NodeFits (t : Trainer α) (fs : List (NFactor α)) (v : NVar) (i : Nat) : Prop where
  own : ∃ p f, v.factor = some p ∧ fs[p]? = some f ∧ 0 < f.columns ∧ i < t.data.length ∧ i < t.counter.length ∧
    (t.data.getD i []).length = f.tab.length / f.columns ∧
    (t.counter.getD i []).length = f.tab.length / f.columns ∧
    ∀ j < f.tab.length / f.columns, ((t.data.getD i []).getD j []).length = f.columns

theorem tab_length {f : NFactor α} {tb : Option (List α)} (h : tb.map List.length = f.table.map List.length) :
    ({ f with table := tb } : NFactor α).tab.length = f.tab.length := by
  unfold NFactor.tab
  dsimp only
  cases tb <;> cases e : f.table <;> simp_all

theorem NodeFits.mono {t : Trainer α} {fs fs' : List (NFactor α)} {v : NVar} {i : Nat} (h : NodeFits t fs v i)
    (hs : SameTables fs fs') : NodeFits t fs' v i := by
  obtain ⟨p, f, h1, h2, h3, h4, h5, h6, h7, h8⟩ := h.own
  obtain ⟨tb, h9, h10⟩ := hs.2 p f h2
  refine ⟨p, { f with table := tb }, h1, h9, h3, h4, h5, ?_, ?_, ?_⟩
  · rw [tab_length h10]; exact h6
  · rw [tab_length h10]; exact h7
  · intro j hj
    rw [tab_length h10] at hj
    exact h8 j hj

/-- The entries of the table at position `p` for the variable at position `i` are those of the trainer. -/
def Written [Zero α] [Div α] [NatCast α] (t : Trainer α) (fs' : List (NFactor α)) (v : NVar) (i : Nat) : Prop :=
  ∀ p f, v.factor = some p → fs'[p]? = some f → ∀ x, x / f.columns < f.tab.length / f.columns →
    f.tab.getD x 0 = newEntry (t.data.getD i []) (t.counter.getD i []) f.columns x

theorem updateNodes_spec [Zero α] [Div α] [NatCast α] (t : Trainer α) :
    ∀ (L : List (NVar × Nat)) (fs : List (NFactor α)), (∀ e ∈ L, NodeFits t fs e.1 e.2) →
      (L.map (fun e => e.1.factor)).Nodup →
    ∃ fs' e, updateNodes t L fs = .ok (fs', e) ∧ SameTables fs fs' ∧
      (∀ p, (∀ x ∈ L, x.1.factor ≠ some p) → fs'[p]? = fs[p]?) ∧
      (e = none ↔ ∀ x ∈ L, ∀ p f, x.1.factor = some p → fs[p]? = some f → ∀ j < f.tab.length / f.columns,
        t.cnt x.2 j ≠ 0) ∧
      (e = none → ∀ x ∈ L, Written t fs' x.1 x.2) ∧
      (e ≠ none → ∃ L1 a L2, L = L1 ++ a :: L2 ∧
        (∃ p f, a.1.factor = some p ∧ fs[p]? = some f ∧ ∃ j < f.tab.length / f.columns, t.cnt a.2 j = 0) ∧
        (∀ x ∈ L1, Written t fs' x.1 x.2) ∧ ∀ x ∈ L2, ∀ p, x.1.factor = some p → fs'[p]? = fs[p]?) := by
  intro L
  induction L with
  | nil =>
    intro fs _ _
    exact ⟨fs, none, rfl, .refl fs, fun _ _ => rfl, by simp, by simp, by simp⟩
  | cons a L ih =>
    intro fs hfit hnd
    obtain ⟨v, i⟩ := a
    obtain ⟨p, f, h1, h2, h3, h4, h5, h6, h7, h8⟩ := (hfit (v, i) (by simp)).own
    dsimp only at h1
    have hp := (List.getElem?_eq_some_iff.1 h2).1
    unfold updateNodes
    rw [goGet_getD [] h4, ok_bind]
    simp only [h1]
    rw [goGet_eq.2 h2, ok_bind, if_neg (by omega), goGet_getD [] h5, ok_bind]
    obtain ⟨tab', e, e2, hlen, hnone, hval, hdone⟩ := updateRows_spec (t.data.getD i []) (t.counter.getD i []) f.columns
      (f.tab.length / f.columns) h3 h6 h7 h8 (List.range (f.tab.length / f.columns)) f.tab (by simp)
      (Nat.div_mul_le_self _ _)
    rw [e2, ok_bind]
    dsimp only
    set fs1 := fs.set p { f with table := f.table.map (fun _ => tab') } with hfs1
    have hlen' : (f.table.map (fun _ => tab')).map List.length = f.table.map List.length := by
      unfold NFactor.tab at hlen
      cases e : f.table with
      | none => rfl
      | some tb => rw [e] at hlen; simpa using hlen
    have hsame : SameTables fs fs1 := SameTables.set h2 hlen'
    have htab1 : ({ f with table := f.table.map (fun _ => tab') } : NFactor α).tab = tab' := by
      unfold NFactor.tab at hlen ⊢
      cases e : f.table with
      | none =>
        rw [e] at hlen
        have : tab' = [] := by simpa using hlen
        simp [this]
      | some tb => simp
    have hat : fs1[p]? = some { f with table := f.table.map (fun _ => tab') } := by
      rw [hfs1, List.getElem?_set, if_pos rfl, if_pos hp]
    have hother : ∀ q, q ≠ p → fs1[q]? = fs[q]? := by
      intro q hq
      rw [hfs1, List.getElem?_set, if_neg (fun h => hq h.symm)]
    have hzero : (∀ j ∈ List.range (f.tab.length / f.columns), (t.counter.getD i []).getD j 0 ≠ 0) ↔
        ∀ j < f.tab.length / f.columns, t.cnt i j ≠ 0 := by
      simp [Trainer.cnt]
    cases e with
    | some m =>
      dsimp only
      refine ⟨fs1, some m, rfl, hsame, ?_, ?_, fun h => (by cases h), fun _ => ⟨[], (v, i), L, rfl, ?_, by simp, ?_⟩⟩
      · intro q hq
        refine hother q ?_
        rintro rfl
        exact hq (v, i) (by simp) h1
      · refine ⟨fun h => (by cases h), fun h => ?_⟩
        exfalso
        have := hnone.2 (hzero.2 (fun j hj => h (v, i) (by simp) p f h1 h2 j hj))
        cases this
      · refine ⟨p, f, h1, h2, ?_⟩
        by_contra hno
        have := hnone.2 (hzero.2 (fun j hj hc => hno ⟨j, hj, hc⟩))
        cases this
      · intro x hx q hq
        refine hother q ?_
        rintro rfl
        rw [List.map_cons, List.nodup_cons] at hnd
        exact hnd.1 (List.mem_map.2 ⟨x, hx, by rw [hq, h1]⟩)
    | none =>
      dsimp only
      rw [List.map_cons, List.nodup_cons] at hnd
      have hdiff : ∀ x ∈ L, x.1.factor ≠ some p := by
        intro x hx hxp
        apply hnd.1
        rw [List.mem_map]
        exact ⟨x, hx, by rw [hxp, h1]⟩
      obtain ⟨fs', e', e3, hs', hun, hn', hw, herr⟩ := ih fs1 (fun e he => (hfit e (by simp [he])).mono hsame) hnd.2
      have hfirst : Written t fs' v i := by
        intro q g hq hg y hy
        rw [h1] at hq
        injection hq with hq
        subst hq
        rw [hun p hdiff, hat] at hg
        injection hg with hg
        subst hg
        rw [htab1] at hy ⊢
        dsimp only at hy ⊢
        rw [hlen] at hy
        exact hdone rfl y (List.mem_range.2 hy)
      refine ⟨fs', e', e3, hsame.trans hs', ?_, ?_, ?_, ?_⟩
      · intro q hq
        rw [hun q (fun x hx => hq x (by simp [hx]))]
        refine hother q ?_
        rintro rfl
        exact hq (v, i) (by simp) h1
      · rw [hn']
        constructor
        · intro h x hx q g hq hg j hj
          rcases List.mem_cons.1 hx with rfl | hx
          · dsimp only at hq ⊢
            rw [h1] at hq
            injection hq with hq
            subst hq
            rw [h2] at hg
            injection hg with hg
            subst hg
            exact hzero.1 (hnone.1 rfl) j hj
          · refine h x hx q g hq ?_ j hj
            rw [hother q (by rintro rfl; exact hdiff x hx hq)]
            exact hg
        · intro h x hx q g hq hg j hj
          rw [hother q (by rintro rfl; exact hdiff x hx hq)] at hg
          exact h x (by simp [hx]) q g hq hg j hj
      · intro he x hx
        rcases List.mem_cons.1 hx with rfl | hx
        · exact hfirst
        · exact hw he x hx
      · intro he
        obtain ⟨L1, a, L2, rfl, ⟨q, g, hq, hg, hj⟩, hL1, hL2⟩ := herr he
        refine ⟨(v, i) :: L1, a, L2, rfl, ⟨q, g, hq, ?_, hj⟩, ?_, ?_⟩
        · rw [← hother q (by rintro rfl; exact hdiff a (by simp) hq)]
          exact hg
        · intro x hx
          rcases List.mem_cons.1 hx with rfl | hx
          · exact hfirst
          · exact hL1 x hx
        · intro x hx r hr
          rw [hL2 x hx r hr]
          exact hother r (by rintro rfl; exact hdiff x (by simp [hx]) hr)

end Bbn
