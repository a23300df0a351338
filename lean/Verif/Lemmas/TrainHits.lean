import Verif.Lemmas.TrainUpdate
import Verif.Spec.Training
import Verif.Props.NetCalls

/-!
# What a fitting sample adds
-/

set_option autoImplicit false

namespace Bbn

variable {α : Type}

theorem rowMajor_lt : ∀ (l : List (Nat × Nat)), (∀ d ∈ l, d.2 < d.1) → rowMajor l < (l.map Prod.fst).prod := by
  intro l
  induction l with
  | nil => intro _; simp [rowMajor]
  | cons d l ih =>
    intro h
    have h1 := h d (by simp)
    have h2 := ih (fun x hx => h x (by simp [hx]))
    simp only [rowMajor, List.map_cons, List.prod_cons]
    calc d.2 * (l.map Prod.fst).prod + rowMajor l < d.2 * (l.map Prod.fst).prod + (l.map Prod.fst).prod := by omega
      _ = (d.2 + 1) * (l.map Prod.fst).prod := by ring
      _ ≤ d.1 * (l.map Prod.fst).prod := Nat.mul_le_mul_right _ h1

theorem rowMajor_inj (c : String → Nat) (a b : String → Nat) : ∀ (l : List String), (∀ g ∈ l, a g < c g) →
    (∀ g ∈ l, b g < c g) → rowMajor (l.map (fun g => (c g, a g))) = rowMajor (l.map (fun g => (c g, b g))) →
    ∀ g ∈ l, a g = b g := by
  intro l
  induction l with
  | nil => simp
  | cons g l ih =>
    intro ha hb h
    have la := rowMajor_lt (l.map (fun g => (c g, a g))) (by simpa using fun x hx => ha x (by simp [hx]))
    have lb := rowMajor_lt (l.map (fun g => (c g, b g))) (by simpa using fun x hx => hb x (by simp [hx]))
    simp only [List.map_cons, rowMajor, List.map_map] at h la lb
    have e1 : (Prod.fst ∘ fun g => (c g, a g)) = c := rfl
    have e2 : (Prod.fst ∘ fun g => (c g, b g)) = c := rfl
    rw [e1] at h la
    rw [e2] at h lb
    have hpos : 0 < (l.map c).prod := by omega
    have hdiv := congrArg (· / (l.map c).prod) h
    rw [Nat.mul_comm, Nat.mul_add_div hpos, Nat.div_eq_of_lt la, Nat.mul_comm, Nat.mul_add_div hpos,
      Nat.div_eq_of_lt lb] at hdiv
    have hg : a g = b g := by omega
    rw [hg] at h
    intro x hx
    rcases List.mem_cons.1 hx with rfl | hx
    · exact hg
    · exact ih (fun y hy => ha y (by simp [hy])) (fun y hy => hb y (by simp [hy])) (by omega) x hx

section
variable {n : Net α}

theorem position_at (h : (n.variables.map NVar.name).Nodup) {i : Nat} {v : NVar} (hv : n.variables[i]? = some v) :
    n.position v.name = i := by
  obtain ⟨hi, he⟩ := List.getElem?_eq_some_iff.1 hv
  unfold Net.position
  rw [List.findIdx_eq hi]
  refine ⟨by simp [he], fun j hj => ?_⟩
  have hne := (List.nodup_iff_injective_get.1 h)
  simp only [decide_eq_false_iff_not]
  intro hc
  have hjl : j < n.variables.length := by omega
  have := @hne ⟨j, by simpa using hjl⟩ ⟨i, by simpa using hi⟩ (by simp [hc, he])
  simp only [Fin.mk.injEq] at this
  omega

theorem position_known {g : String} (h : ∃ u ∈ n.variables, u.name = g) :
    ∃ v, n.variables[n.position g]? = some v ∧ v.name = g := by
  have hlt : n.position g < n.variables.length := by
    unfold Net.position
    rw [List.findIdx_lt_length]
    simpa using h
  refine ⟨n.variables[n.position g], by simp [hlt], ?_⟩
  have := List.findIdx_getElem (xs := n.variables) (p := fun v : NVar => v.name = g) (w := hlt)
  rw [decide_eq_true_eq] at this
  exact this

theorem nodeIndex_known (h : (n.variables.map NVar.name).Nodup) {g : String} (hg : ∃ u ∈ n.variables, u.name = g) :
    nodeIndex n.variables g = some (n.position g) := by
  unfold nodeIndex
  cases e : n.variables.zipIdx.reverse.find? (fun p => p.1.name = g) with
  | none =>
    exfalso
    rw [List.find?_eq_none] at e
    obtain ⟨v, hv, hvn⟩ := position_known hg
    have := e (v, n.position g) (by rw [List.mem_reverse, List.mem_zipIdx_iff_getElem?]; exact hv)
    simp [hvn] at this
  | some p =>
    have h1 := List.mem_of_find?_eq_some e
    have h2 := List.find?_some e
    rw [List.mem_reverse, List.mem_zipIdx_iff_getElem?] at h1
    simp only [decide_eq_true_eq] at h2
    rw [Option.map_some, ← position_at h h1, h2]

theorem count_at (h : (n.variables.map NVar.name).Nodup) {v : NVar} (hv : v ∈ n.variables) :
    n.count v.name = v.outcomes.length := by
  unfold Net.count outcomeCount
  cases e : n.variables.find? (fun u => u.name = v.name) with
  | none =>
    rw [List.find?_eq_none] at e
    exact absurd (e v hv) (by simp)
  | some u =>
    have h1 := List.mem_of_find?_eq_some e
    have h2 := List.find?_some e
    simp only [decide_eq_true_eq] at h2
    rw [List.inj_on_of_nodup_map h h1 hv h2]
    rfl

end

theorem own_mem {n : Net α} (hn : n.Trainable) {v : NVar} (hv : v ∈ n.variables) {p : Nat} {f : NFactor α}
    (hp : v.factor = some p) (hf : n.factors[p]? = some f) : f ∈ n.factors ∧ f.forVar = v.name ∧
    f.outcomes = f.given.map n.count ∧ f.columns = v.outcomes.length := by
  obtain ⟨q, g, h1, h2, h3⟩ := hn.linked v hv
  rw [hp] at h1
  injection h1 with h1
  subst h1
  rw [hf] at h2
  injection h2 with h2
  subst h2
  exact ⟨List.mem_of_getElem? hf, h3⟩

/-- The sizes of the trainer's slices for the network. -/
structure Fit (n : Net α) (S : List (List Nat) × List Nat × List (List Nat)) : Prop where
  data : S.1.length = n.variables.length
  counter : S.2.1.length = n.variables.length
  own : ∀ (i : Nat) (v : NVar) (p : Nat) (f : NFactor α), n.variables[i]? = some v → v.factor = some p →
    n.factors[p]? = some f →
    S.1[i]? = some (List.replicate (f.tab.length / v.outcomes.length) v.outcomes.length) ∧
    S.2.1[i]? = some (f.tab.length / v.outcomes.length) ∧ S.2.2[i]? = some (f.given.map n.position)

/-- The row of a table to which the sample belongs. -/
def Sample.row (n : Net α) (s : Sample α) (given : List String) : Option Nat :=
  if ∀ g ∈ given, s.known n g ≠ none then
    some (rowMajor (given.map (fun g => (n.count g, (s.known n g).getD 0))))
  else none

/-- What the sample adds for the variable. -/
def Sample.hit [One α] (n : Net α) (given : List String) (v : NVar) (i : Nat) (s : Sample α) : Option (Delta α) :=
  if v.nodeType = .decision then none else
    match s.row n given with
    | none => none
    | some r =>
      if v.nodeType = .utility then (s.gain n v.name).map (fun u => ⟨i, r, 0, u, 2⟩)
      else (s.known n v.name).map (fun k => ⟨i, r, k, 1, 1⟩)

theorem known_value {n : Net α} {s : Sample α} (hs : s.OK n) {g : String} (hg : ∃ u ∈ n.variables, u.name = g) :
    ∃ k, s.values[n.position g]? = some k ∧ s.known n g = if k < 0 then none else some k.toNat := by
  obtain ⟨v, hv, _⟩ := position_known hg
  have hlt := (List.getElem?_eq_some_iff.1 hv).1
  rw [← hs.values] at hlt
  refine ⟨s.values[n.position g], by simp [hlt], ?_⟩
  unfold Sample.known
  simp [hlt]

theorem known_lt {n : Net α} (hn : (n.variables.map NVar.name).Nodup) {s : Sample α} (hs : s.OK n) {g : String}
    (hg : ∃ u ∈ n.variables, u.name = g) {k : Nat} (hk : s.known n g = some k) : k < n.count g := by
  obtain ⟨x, hx, e⟩ := known_value hs hg
  obtain ⟨v, hv, hvn⟩ := position_known hg
  have h1 := hs.range _ v x hv hx
  rw [← hvn, count_at hn (List.mem_of_getElem? hv)]
  rw [e] at hk
  split at hk
  · cases hk
  · injection hk with hk
    omega

theorem row_lt {n : Net α} (hn : (n.variables.map NVar.name).Nodup) {s : Sample α} (hs : s.OK n)
    {given : List String} (hg : ∀ g ∈ given, ∃ u ∈ n.variables, u.name = g) {r : Nat} (h : s.row n given = some r) :
    r < (given.map n.count).prod := by
  unfold Sample.row at h
  split at h
  · rename_i hk
    injection h with h
    subst h
    have := rowMajor_lt (given.map (fun g => (n.count g, (s.known n g).getD 0))) ?_
    · rw [List.map_map] at this
      exact this
    · intro d hd
      rw [List.mem_map] at hd
      obtain ⟨g, hgm, rfl⟩ := hd
      cases e : s.known n g with
      | none => exact absurd e (hk g hgm)
      | some k => exact known_lt hn hs (hg g hgm) e
  · cases h

theorem row_iff {n : Net α} (hn : (n.variables.map NVar.name).Nodup) {s : Sample α} (hs : s.OK n)
    {given : List String} (hg : ∀ g ∈ given, ∃ u ∈ n.variables, u.name = g) {w : World}
    (hw : ∀ g ∈ given, w g < n.count g) :
    s.row n given = some (rowMajor (given.map (fun g => (n.count g, w g)))) ↔ s.InRow n given w := by
  unfold Sample.row Sample.InRow
  constructor
  · intro h
    split at h
    · rename_i hk
      injection h with h
      intro g hgm
      have := rowMajor_inj n.count (fun g => (s.known n g).getD 0) w given ?_ hw h g hgm
      · cases e : s.known n g with
        | none => exact absurd e (hk g hgm)
        | some k => rw [e] at this; rw [← this]; rfl
      · intro x hx
        cases e : s.known n x with
        | none => exact absurd e (hk x hx)
        | some k => exact known_lt hn hs (hg x hx) e
    · cases h
  · intro h
    rw [if_pos (fun g hgm => by rw [h g hgm]; simp)]
    congr 2
    apply List.map_congr_left
    intro g hgm
    rw [h g hgm]
    rfl

theorem rowIndex_sample {n : Net α} {s : Sample α} (hs : s.OK n) {f : NFactor α}
    (hg : ∀ g ∈ f.given, ∃ u ∈ n.variables, u.name = g) (hf : f.outcomes = f.given.map n.count) :
    ∃ own, (f.given.map n.position).mapM (goGet s.values) = .ok own ∧
      f.rowIndex own = .ok ((s.row n f.given).map Int.ofNat) := by
  have hval : ∀ g ∈ f.given, goGet s.values (n.position g) = .ok (s.values.getD (n.position g) 0) := by
    intro g hgm
    obtain ⟨k, hk, _⟩ := known_value hs (hg g hgm)
    rw [goGet_getD 0 (List.getElem?_eq_some_iff.1 hk).1]
  refine ⟨f.given.map (fun g => s.values.getD (n.position g) 0), ?_, ?_⟩
  · generalize f.given = l at hval
    induction l with
    | nil => rfl
    | cons g l ih =>
      rw [List.map_cons, List.mapM_cons, hval g (by simp), ok_bind, ih (fun x hx => hval x (by simp [hx])), ok_bind]
      rfl
  · unfold NFactor.rowIndex
    rw [hf, if_neg (by simp)]
    congr 1
    have hzip : (f.given.map (fun g => s.values.getD (n.position g) 0)).zip (f.given.map n.count) =
        f.given.map (fun g => (s.values.getD (n.position g) 0, n.count g)) := by
      rw [List.zip_map']
    rw [hzip]
    have hkn : ∀ g ∈ f.given, s.known n g =
        if s.values.getD (n.position g) 0 < 0 then none else some (s.values.getD (n.position g) 0).toNat := by
      intro g hgm
      obtain ⟨k, hk, e⟩ := known_value hs (hg g hgm)
      rw [e]
      have : s.values.getD (n.position g) 0 = k := by simp [List.getD, hk]
      rw [this]
    unfold Sample.row
    by_cases hall : ∀ g ∈ f.given, s.known n g ≠ none
    · rw [if_pos hall, rowIndexLoop_spec]
      · rw [List.reverse_reverse, List.map_map, Option.map_some]
        have : (f.given.map ((fun p : Int × Nat => (p.2, p.1.toNat)) ∘ fun g => (s.values.getD (n.position g) 0, n.count g))) =
            f.given.map (fun g => (n.count g, (s.known n g).getD 0)) := by
          apply List.map_congr_left
          intro g hgm
          have h1 := hkn g hgm
          have h2 := hall g hgm
          rw [h1] at h2 ⊢
          split
          · rename_i hc; rw [if_pos hc] at h2; exact absurd rfl h2
          · rfl
        rw [this]
        simp
      · intro p hp
        rw [List.mem_reverse, List.mem_map] at hp
        obtain ⟨g, hgm, rfl⟩ := hp
        have h1 := hkn g hgm
        have h2 := hall g hgm
        rw [h1] at h2
        dsimp only
        by_contra hc
        rw [if_pos (by omega)] at h2
        exact h2 rfl
    · rw [if_neg hall, rowIndexLoop_missing]
      · rfl
      · have hall' : ∃ g ∈ f.given, s.known n g = none := by
          by_contra hc
          exact hall (fun g hgm he => hc ⟨g, hgm, he⟩)
        obtain ⟨g, hgm, he⟩ := hall'
        refine ⟨_, List.mem_reverse.2 (List.mem_map.2 ⟨g, hgm, rfl⟩), ?_⟩
        dsimp only
        rw [hkn g hgm] at he
        split at he
        · assumption
        · cases he

theorem plan_hit [One α] {n : Net α} (hn : n.Trainable) {S : List (List Nat) × List Nat × List (List Nat)}
    (hS : Fit n S) {s : Sample α} (hs : s.OK n) {i : Nat} {v : NVar} {p : Nat} {f : NFactor α}
    (hv : n.variables[i]? = some v) (hp : v.factor = some p) (hf : n.factors[p]? = some f) :
    addPlan n S.2.2 s v i = .ok (s.hit n f.given v i) := by
  unfold addPlan Sample.hit
  by_cases hd : v.nodeType = .decision
  · rw [if_pos hd, if_pos hd]
  rw [if_neg hd, if_neg hd]
  have hvm := List.mem_of_getElem? hv
  obtain ⟨hfm, hfor, hout, hcol⟩ := own_mem hn hvm hp hf
  have hpar := hn.parents v hvm f hfm hfor
  rw [goGet_eq.2 (hS.own i v p f hv hp hf).2.2, ok_bind]
  obtain ⟨own, e1, e2⟩ := rowIndex_sample hs hpar hout
  rw [e1, ok_bind]
  have e3 : readUtilities s.utility (f.given.map n.position) = .ok () := by
    unfold readUtilities
    cases hu : s.utility with
    | none => rfl
    | some u =>
      have hlen := hs.utility u hu
      have : ∃ us, (f.given.map n.position).mapM (goGet u) = .ok us := by
        refine ⟨(f.given.map n.position).map (fun j => u.getD j none), mapM_ok ?_⟩
        intro j hj
        rw [List.mem_map] at hj
        obtain ⟨g, hgm, rfl⟩ := hj
        obtain ⟨x, hx, _⟩ := position_known (hpar g hgm)
        exact goGet_getD none (by rw [hlen]; exact (List.getElem?_eq_some_iff.1 hx).1)
      obtain ⟨us, e⟩ := this
      dsimp only
      rw [e, ok_bind]
      rfl
  rw [e3, ok_bind]
  have e4 : derefFactor n.factors v = .ok f := by
    unfold derefFactor
    rw [hp]
    exact goGet_eq.2 hf
  rw [e4, ok_bind, e2, ok_bind]
  have hpos := position_at hn.names hv
  have hi := (List.getElem?_eq_some_iff.1 hv).1
  cases s.row n f.given with
  | none => rfl
  | some r =>
    dsimp only [Option.map_some]
    by_cases hu : v.nodeType = .utility
    · rw [if_pos hu, if_pos hu]
      have hne := hs.utilities ⟨v, hvm, hu⟩
      unfold Sample.gain
      cases hut : s.utility with
      | none => exact absurd hut hne
      | some u =>
        have hlen := hs.utility u hut
        dsimp only [Option.getD_some]
        rw [hpos, goGet_getD none (by omega), ok_bind]
        have : u[i]? = some (u.getD i none) := by
          rw [getD_eq _ _ _ (by omega)]
          simp [show i < u.length by omega]
        rw [this]
        cases u.getD i none with
        | none => rfl
        | some x => rfl
    · rw [if_neg hu, if_neg hu]
      obtain ⟨k, hk, e⟩ := known_value hs ⟨v, hvm, rfl⟩
      rw [e]
      rw [hpos] at hk
      rw [goGet_eq.2 hk, ok_bind]
      by_cases hneg : k < 0
      · rw [if_pos hneg, if_pos hneg]; rfl
      · rw [if_neg hneg, if_neg hneg]; rfl

theorem prod_dims {n : Net α} (f : NFactor α) : (f.dims.map n.count).prod = (f.given.map n.count).prod * n.count f.forVar := by
  unfold NFactor.dims
  simp

theorem rows_eq {n : Net α} (hn : n.Trainable) {v : NVar} (hv : v ∈ n.variables) (hd : v.nodeType ≠ .decision)
    {p : Nat} {f : NFactor α} (hp : v.factor = some p) (hf : n.factors[p]? = some f) :
    f.tab.length / v.outcomes.length = (f.given.map n.count).prod := by
  obtain ⟨hfm, hfor, _, _⟩ := own_mem hn hv hp hf
  rw [hn.size v hv hd f hfm hfor, prod_dims, hfor, count_at hn.names hv, Nat.mul_div_cancel _ (hn.outcomes v hv)]

theorem hit_fits [One α] {n : Net α} (hn : n.Trainable) {S : List (List Nat) × List Nat × List (List Nat)}
    (hS : Fit n S) {s : Sample α} (hs : s.OK n) {i : Nat} {v : NVar} {p : Nat} {f : NFactor α}
    (hv : n.variables[i]? = some v) (hp : v.factor = some p) (hf : n.factors[p]? = some f) {d : Delta α}
    (h : s.hit n f.given v i = some d) : d.fits S ∧ d.i = i := by
  have hvm := List.mem_of_getElem? hv
  obtain ⟨hfm, hfor, hout, hcol⟩ := own_mem hn hvm hp hf
  have hpar := hn.parents v hvm f hfm hfor
  unfold Sample.hit at h
  split at h
  · cases h
  rename_i hd
  have hrows := rows_eq hn hvm hd hp hf
  obtain ⟨s1, s2, _⟩ := hS.own i v p f hv hp hf
  cases hr : s.row n f.given with
  | none => rw [hr] at h; cases h
  | some r =>
    rw [hr] at h
    dsimp only at h
    have hrl := row_lt hn.names hs hpar hr
    have hfits : ∀ k x c, k < v.outcomes.length → (⟨i, r, k, x, c⟩ : Delta α).fits S := by
      intro k x c hk
      unfold Delta.fits
      dsimp only
      simp only [List.getD, s1, s2, Option.getD_some]
      rw [hrows]
      simp [hrl, hk]
    split at h
    · cases hg : s.gain n v.name with
      | none => rw [hg] at h; cases h
      | some u =>
        rw [hg] at h
        injection h with h
        subst h
        exact ⟨hfits _ _ _ (hn.outcomes v hvm), rfl⟩
    · cases hk : s.known n v.name with
      | none => rw [hk] at h; cases h
      | some k =>
        rw [hk] at h
        injection h with h
        subst h
        refine ⟨hfits _ _ _ ?_, rfl⟩
        rw [← count_at hn.names hvm]
        exact known_lt hn.names hs ⟨v, hvm, rfl⟩ hk

end Bbn
