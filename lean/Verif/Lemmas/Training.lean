import Verif.Model.Training
import Verif.Lemmas.Loop
import Mathlib.Algebra.BigOperators.Group.List.Basic

/-!
# Calls of a trainer add up

What a call of `addSample` adds to the sums and counters does not depend on what they were before. So a sequence of
calls adds the sum of what each adds.
-/

set_option autoImplicit false

namespace Bbn

variable {α : Type}

/-- The sum for variable `i`, row `j`, column `k`. -/
def Trainer.at [Zero α] (t : Trainer α) (i j k : Nat) : α := ((t.data.getD i []).getD j []).getD k 0

/-- The counter for variable `i`, row `j`. -/
def Trainer.cnt (t : Trainer α) (i j : Nat) : Nat := (t.counter.getD i []).getD j 0

/-- All lengths, and the positions of the parents. -/
def Trainer.shape (t : Trainer α) : List (List Nat) × List Nat × List (List Nat) :=
  (t.data.map (List.map List.length), t.counter.map List.length, t.indices)

theorem getD_eq {β : Type} (l : List β) (i : Nat) (d : β) (h : i < l.length) : l.getD i d = l[i] := by
  simp [List.getD, h]

theorem list_ext_getD {β : Type} (d : β) {l l' : List β} (hl : l.length = l'.length)
    (h : ∀ i < l.length, l.getD i d = l'.getD i d) : l = l' := by
  apply List.ext_getElem hl
  intro i h1 h2
  have := h i h1
  rwa [getD_eq _ _ _ h1, getD_eq _ _ _ h2] at this

theorem getD_len {β : Type} (l : List β) (i : Nat) (d : β) (h : l.length ≤ i) : l.getD i d = d := by
  simp [List.getD, h]

theorem getD_map_length {β : Type} (l : List (List β)) (i : Nat) : (l.map List.length).getD i 0 = (l.getD i []).length := by
  induction l generalizing i with
  | nil => simp
  | cons x l ih => cases i <;> simp_all

theorem getD_map_map_length {β : Type} (l : List (List (List β))) (i : Nat) :
    (l.map (List.map List.length)).getD i [] = (l.getD i []).map List.length := by
  induction l generalizing i with
  | nil => simp
  | cons x l ih => cases i <;> simp_all

theorem Trainer.ext_shape [Zero α] {t t' : Trainer α} (hs : t.shape = t'.shape)
    (ha : ∀ i j k, t.at i j k = t'.at i j k) (hc : ∀ i j, t.cnt i j = t'.cnt i j) : t = t' := by
  obtain ⟨d, c, x⟩ := t
  obtain ⟨d', c', x'⟩ := t'
  unfold Trainer.shape at hs
  simp only [Prod.mk.injEq] at hs
  obtain ⟨h1, h2, h3⟩ := hs
  unfold Trainer.at at ha
  unfold Trainer.cnt at hc
  dsimp only at ha hc
  subst h3
  congr 1
  · have hl : d.length = d'.length := by simpa using congrArg List.length h1
    apply list_ext_getD [] hl
    intro i _
    have hi := congrArg (fun l => l.getD i []) h1
    simp only [getD_map_map_length] at hi
    have hli : (d.getD i []).length = (d'.getD i []).length := by simpa using congrArg List.length hi
    apply list_ext_getD [] hli
    intro j _
    have hj := congrArg (fun l => l.getD j 0) hi
    simp only [getD_map_length] at hj
    exact list_ext_getD 0 hj (fun k _ => ha i j k)
  · have hl : c.length = c'.length := by simpa using congrArg List.length h2
    apply list_ext_getD [] hl
    intro i _
    have hi := congrArg (fun l => l.getD i 0) h2
    simp only [getD_map_length] at hi
    exact list_ext_getD 0 hi (fun k _ => hc i k)

/-- For trainers of shape `S` the call `f` succeeds exactly if `P`, keeps the shape, and adds `δ` to the sums and `γ`
to the counters. -/
def Adds [AddCommMonoid α] (f : Trainer α → Except Fault (Trainer α)) (S : List (List Nat) × List Nat × List (List Nat))
    (P : Prop) (δ : Nat → Nat → Nat → α) (γ : Nat → Nat → Nat) : Prop :=
  ∀ t, t.shape = S → (P → ∃ t', f t = .ok t') ∧ ∀ t', f t = .ok t' → P ∧ t'.shape = S ∧
    (∀ i j k, t'.at i j k = t.at i j k + δ i j k) ∧ ∀ i j, t'.cnt i j = t.cnt i j + γ i j

theorem Adds.foldlM [AddCommMonoid α] {ι : Type} {S : List (List Nat) × List Nat × List (List Nat)}
    (op : Trainer α → ι → Except Fault (Trainer α)) (P : ι → Prop) (δ : ι → Nat → Nat → Nat → α)
    (γ : ι → Nat → Nat → Nat) : ∀ (l : List ι), (∀ a ∈ l, Adds (fun t => op t a) S (P a) (δ a) (γ a)) →
    Adds (fun t => l.foldlM op t) S (∀ a ∈ l, P a) (fun i j k => (l.map (fun a => δ a i j k)).sum)
      (fun i j => (l.map (fun a => γ a i j)).sum) := by
  intro l
  induction l with
  | nil =>
    intro _ t ht
    refine ⟨fun _ => ⟨t, rfl⟩, fun t' h => ?_⟩
    obtain rfl : t = t' := by injection h
    simp [ht]
  | cons a l ih =>
    intro h t ht
    have h1 := h a (by simp) t ht
    have h2 := ih (fun b hb => h b (by simp [hb]))
    dsimp only
    rw [List.foldlM_cons]
    constructor
    · intro hP
      obtain ⟨t1, e1⟩ := h1.1 (hP a (by simp))
      dsimp only at e1
      rw [e1, ok_bind]
      exact (h2 t1 (h1.2 t1 e1).2.1).1 (fun b hb => hP b (by simp [hb]))
    · intro t' e
      dsimp only at h1
      cases e1 : op t a with
      | error x => rw [e1, err_bind] at e; cases e
      | ok t1 =>
        rw [e1, ok_bind] at e
        obtain ⟨p1, s1, d1, c1⟩ := h1.2 t1 e1
        obtain ⟨p2, s2, d2, c2⟩ := (h2 t1 s1).2 t' e
        refine ⟨?_, s2, ?_, ?_⟩
        · intro b hb
          rcases List.mem_cons.1 hb with rfl | hb
          · exact p1
          · exact p2 b hb
        · intro i j k
          rw [d2, d1, List.map_cons, List.sum_cons, add_assoc]
        · intro i j
          rw [c2, c1, List.map_cons, List.sum_cons, Nat.add_assoc]

/-- Calls that add up can be reordered. -/
theorem Adds.perm [AddCommMonoid α] {ι : Type} {S : List (List Nat) × List Nat × List (List Nat)}
    {op : Trainer α → ι → Except Fault (Trainer α)} {P : ι → Prop} {δ : ι → Nat → Nat → Nat → α}
    {γ : ι → Nat → Nat → Nat} (h : ∀ a, Adds (fun t => op t a) S (P a) (δ a) (γ a)) {l l' : List ι} (hp : l.Perm l')
    {t t' : Trainer α} (hS : t.shape = S) (e : l.foldlM op t = .ok t') : l'.foldlM op t = .ok t' := by
  obtain ⟨p, s, d, c⟩ := (Adds.foldlM op P δ γ l (fun a _ => h a) t hS).2 t' e
  have h2 := Adds.foldlM op P δ γ l' (fun a _ => h a) t hS
  obtain ⟨t2, e2⟩ := h2.1 (fun a ha => p a (hp.mem_iff.2 ha))
  obtain ⟨_, s2, d2, c2⟩ := h2.2 t2 e2
  dsimp only at e2
  rw [e2]
  congr 1
  apply Trainer.ext_shape
  · rw [s2, s]
  · intro i j k
    rw [d2, d]
    congr 1
    exact ((hp.map _).sum_eq).symm
  · intro i j
    rw [c2, c]
    congr 1
    exact ((hp.map _).sum_eq).symm

/-- What a call adds for one variable: `x` to the sum in variable `i`, row `r`, column `k`, and `c` to the counter. -/
structure Delta (α : Type) where
  i : Nat
  r : Nat
  k : Nat
  x : α
  c : Nat

def Delta.sums [Zero α] : Option (Delta α) → Nat → Nat → Nat → α
  | none, _, _, _ => 0
  | some d, i, j, k => if d.i = i ∧ d.r = j ∧ d.k = k then d.x else 0

def Delta.counts : Option (Delta α) → Nat → Nat → Nat
  | none, _, _ => 0
  | some d, i, j => if d.i = i ∧ d.r = j then d.c else 0

/-- The addition stays within the slices. -/
def Delta.fits (S : List (List Nat) × List Nat × List (List Nat)) (d : Delta α) : Prop :=
  d.k < (S.1.getD d.i []).getD d.r 0 ∧ d.r < S.2.1.getD d.i 0

/-- `training.go:76-115`, up to the additions. -/
def addPlan [One α] (n : Net α) (indices : List (List Nat)) (s : Sample α) (v : NVar) (i : Nat) :
    Except Fault (Option (Delta α)) :=
  if v.nodeType = .decision then .ok none else do
    let indices ← goGet indices i
    let own ← indices.mapM (goGet s.values)
    let _ ← readUtilities s.utility indices
    let f ← derefFactor n.factors v
    match ← f.rowIndex own with
    | none => return none
    | some idx =>
      if v.nodeType = .utility then
        match ← goGet (s.utility.getD []) i with
        | none => return none
        | some u => return some ⟨i, idx.toNat, 0, u, 2⟩
      else do
        let k ← goGet s.values i
        if k < 0 then return none else return some ⟨i, idx.toNat, k.toNat, 1, 1⟩

theorem goGetI_nat {β : Type} (l : List β) (r : Nat) : goGetI l (r : Int) = goGet l r := by
  unfold goGetI
  rw [if_neg (by omega), Int.toNat_natCast]

theorem goSetI_nat {β : Type} (l : List β) (r : Nat) (x : β) : goSetI l (r : Int) x = goSet l r x := by
  unfold goSetI
  rw [if_neg (by omega), Int.toNat_natCast]

theorem goGet_getD {β : Type} (d : β) {l : List β} {i : Nat} (h : i < l.length) : goGet l i = .ok (l.getD i d) := by
  rw [goGet_eq, getD_eq _ _ _ h]
  simp

theorem goGet_lt' {β : Type} {l : List β} {i : Nat} {x : β} (h : goGet l i = .ok x) : i < l.length ∧ ∀ d, l.getD i d = x := by
  rw [goGet_eq] at h
  obtain ⟨h1, h2⟩ := List.getElem?_eq_some_iff.1 h
  exact ⟨h1, fun d => by rw [getD_eq _ _ _ h1, h2]⟩

theorem getD_set' {β : Type} (l : List β) (i j : Nat) (x d : β) (h : i < l.length) :
    (l.set i x).getD j d = if i = j then x else l.getD j d := by
  simp only [List.getD, List.getElem?_set]
  split
  · rename_i h1
    subst h1
    simp
  · rfl

theorem addAt_ok [Add α] [Zero α] (data : List (List (List α))) (i r k : Nat) (x : α)
    (hk : k < ((data.map (List.map List.length)).getD i []).getD r 0) :
    ∃ data', addAt data i r k x = .ok data' := by
  rw [getD_map_map_length, getD_map_length] at hk
  have hr : r < (data.getD i []).length := by
    by_contra hc
    rw [getD_len (data.getD i []) _ _ (by omega)] at hk
    simp at hk
  have hi : i < data.length := by
    by_contra hc
    rw [getD_len data _ _ (by omega)] at hr
    simp at hr
  unfold addAt
  rw [goGet_getD [] hi, ok_bind, goGetI_nat, goGet_getD [] hr, ok_bind, goGetI_nat, goGet_getD 0 hk, ok_bind]
  rw [goSetI_nat]
  unfold goSet
  rw [if_pos hk, ok_bind, goSetI_nat]
  unfold goSet
  rw [if_pos hr, ok_bind, if_pos hi]
  exact ⟨_, rfl⟩

theorem goSet_inv {β : Type} {l l' : List β} {i : Nat} {x : β} (h : goSet l i x = .ok l') : i < l.length ∧ l' = l.set i x := by
  unfold goSet at h
  split at h
  · rename_i h1
    injection h with h
    exact ⟨h1, h.symm⟩
  · cases h

theorem bind_inv {ε β γ : Type} {x : Except ε β} {f : β → Except ε γ} {c : γ} (h : (x >>= f) = .ok c) :
    ∃ b, x = .ok b ∧ f b = .ok c := by
  cases x with
  | error e => cases h
  | ok b => exact ⟨b, rfl, h⟩

theorem map_set_length {β : Type} (l : List (List β)) (i : Nat) (x : List β) (h : i < l.length) (hx : x.length = (l.getD i []).length) :
    (l.set i x).map List.length = l.map List.length := by
  apply List.ext_getElem (by simp)
  intro j h1 h2
  simp only [List.getElem_map, List.getElem_set]
  split
  · rename_i e
    subst e
    rw [hx, getD_eq _ _ _ h]
  · rfl

theorem addAt_inv [Add α] [Zero α] {data data' : List (List (List α))} {i r k : Nat} {x : α}
    (h : addAt data i r k x = .ok data') :
    k < ((data.map (List.map List.length)).getD i []).getD r 0 ∧
    data'.map (List.map List.length) = data.map (List.map List.length) ∧
    ∀ i' j' k', ((data'.getD i' []).getD j' []).getD k' 0 =
      if i = i' ∧ r = j' ∧ k = k' then ((data.getD i' []).getD j' []).getD k' 0 + x
      else ((data.getD i' []).getD j' []).getD k' 0 := by
  unfold addAt at h
  obtain ⟨d, e1, h⟩ := bind_inv h
  rw [goGetI_nat] at h
  obtain ⟨row, e2, h⟩ := bind_inv h
  rw [goGetI_nat] at h
  obtain ⟨y, e3, h⟩ := bind_inv h
  rw [goSetI_nat] at h
  obtain ⟨row', e4, h⟩ := bind_inv h
  rw [goSetI_nat] at h
  obtain ⟨d', e5, h⟩ := bind_inv h
  obtain ⟨l1, g1⟩ := goGet_lt' e1
  obtain ⟨l2, g2⟩ := goGet_lt' e2
  obtain ⟨l3, g3⟩ := goGet_lt' e3
  obtain ⟨_, rfl⟩ := goSet_inv e4
  obtain ⟨_, rfl⟩ := goSet_inv e5
  obtain ⟨_, rfl⟩ := goSet_inv h
  refine ⟨?_, ?_, ?_⟩
  · rw [getD_map_map_length, g1, getD_map_length, g2]; exact l3
  · apply List.ext_getElem (by simp)
    intro j h1 h2
    simp only [List.getElem_map, List.getElem_set]
    split
    · rename_i e
      subst e
      rw [map_set_length _ _ _ l2 (by rw [g2]; simp)]
      rw [← g1 [], getD_eq _ _ _ l1]
    · rfl
  · intro i' j' k'
    rw [getD_set' _ _ _ _ _ l1]
    by_cases ei : i = i'
    · subst ei
      rw [if_pos rfl, getD_set' _ _ _ _ _ l2, g1]
      by_cases ej : r = j'
      · subst ej
        rw [if_pos rfl, getD_set' _ _ _ _ _ l3, g2]
        by_cases ek : k = k'
        · subst ek
          rw [if_pos rfl, if_pos ⟨rfl, rfl, rfl⟩, g3]
        · rw [if_neg ek, if_neg (by tauto)]
      · rw [if_neg ej, if_neg (by tauto)]
    · rw [if_neg ei, if_neg (by tauto)]

theorem incAt_ok (c : List (List Nat)) (i r : Nat) (hr : r < (c.map List.length).getD i 0) :
    ∃ c', incAt c i r = .ok c' := by
  rw [getD_map_length] at hr
  have hi : i < c.length := by
    by_contra hc
    rw [getD_len c _ _ (by omega)] at hr
    simp at hr
  unfold incAt
  rw [goGet_getD [] hi, ok_bind, goGetI_nat, goGet_getD 0 hr, ok_bind, goSetI_nat]
  unfold goSet
  rw [if_pos hr, ok_bind, if_pos hi]
  exact ⟨_, rfl⟩

theorem incAt_inv {c c' : List (List Nat)} {i r : Nat} (h : incAt c i r = .ok c') :
    r < (c.map List.length).getD i 0 ∧ c'.map List.length = c.map List.length ∧
    ∀ i' j', (c'.getD i' []).getD j' 0 = if i = i' ∧ r = j' then (c.getD i' []).getD j' 0 + 1 else (c.getD i' []).getD j' 0 := by
  unfold incAt at h
  obtain ⟨d, e1, h⟩ := bind_inv h
  rw [goGetI_nat] at h
  obtain ⟨y, e2, h⟩ := bind_inv h
  rw [goSetI_nat] at h
  obtain ⟨d', e5, h⟩ := bind_inv h
  obtain ⟨l1, g1⟩ := goGet_lt' e1
  obtain ⟨l2, g2⟩ := goGet_lt' e2
  obtain ⟨_, rfl⟩ := goSet_inv e5
  obtain ⟨_, rfl⟩ := goSet_inv h
  refine ⟨?_, ?_, ?_⟩
  · rw [getD_map_length, g1]; exact l2
  · exact map_set_length _ _ _ l1 (by rw [g1]; simp)
  · intro i' j'
    rw [getD_set' _ _ _ _ _ l1]
    by_cases ei : i = i'
    · subst ei
      rw [if_pos rfl, getD_set' _ _ _ _ _ l2, g1]
      by_cases ej : r = j'
      · subst ej
        rw [if_pos rfl, if_pos ⟨rfl, rfl⟩, g2]
      · rw [if_neg ej, if_neg (by tauto)]
    · rw [if_neg ei, if_neg (by tauto)]

theorem rowIndexLoop_nonneg : ∀ (l : List (Int × Nat)) (idx stride r : Int), 0 ≤ idx → 0 ≤ stride →
    rowIndexLoop l idx stride = some r → 0 ≤ r := by
  intro l
  induction l with
  | nil =>
    intro idx stride r h1 _ h
    unfold rowIndexLoop at h
    injection h with h
    omega
  | cons p l ih =>
    intro idx stride r h1 h2 h
    obtain ⟨i, m⟩ := p
    unfold rowIndexLoop at h
    split at h
    · cases h
    · rename_i hi
      exact ih _ _ _ (Int.add_nonneg h1 (Int.mul_nonneg (by omega) h2)) (Int.mul_nonneg h2 (by omega)) h

theorem addNode_none [Add α] [One α] {n : Net α} {s : Sample α} {t : Trainer α} {v : NVar} {i : Nat}
    (h : addPlan n t.indices s v i = .ok none) : addNode n s t v i = .ok t := by
  unfold addPlan at h
  unfold addNode
  split at h
  · rw [if_pos (by assumption)]
  rename_i hd
  rw [if_neg hd]
  obtain ⟨idx, e1, h⟩ := bind_inv h
  obtain ⟨own, e2, h⟩ := bind_inv h
  obtain ⟨u, e3, h⟩ := bind_inv h
  obtain ⟨f, e4, h⟩ := bind_inv h
  obtain ⟨r, e5, h⟩ := bind_inv h
  rw [e1, ok_bind, e2, ok_bind, e3, ok_bind, e4, ok_bind, e5, ok_bind]
  cases r with
  | none => rfl
  | some r =>
    dsimp only at h ⊢
    split at h
    · rename_i hu
      rw [if_pos hu]
      obtain ⟨x, e6, h⟩ := bind_inv h
      rw [e6, ok_bind]
      cases x with
      | none => rfl
      | some x => cases h
    · rename_i hu
      rw [if_neg hu]
      obtain ⟨x, e6, h⟩ := bind_inv h
      rw [e6, ok_bind]
      split at h
      · rw [if_pos (by assumption)]; rfl
      · cases h

theorem addNode_error [Add α] [One α] {n : Net α} {s : Sample α} {t : Trainer α} {v : NVar} {i : Nat} {e : Fault}
    (h : addPlan n t.indices s v i = .error e) : addNode n s t v i = .error e := by
  unfold addPlan at h
  unfold addNode
  split at h
  · cases h
  rename_i hd
  rw [if_neg hd]
  cases e1 : goGet t.indices i with
  | error x => rw [e1, err_bind] at h; rw [err_bind]; injection h with h; rw [h]
  | ok idx =>
  rw [e1, ok_bind] at h; rw [ok_bind]
  cases e2 : idx.mapM (goGet s.values) with
  | error x => rw [e2, err_bind] at h; rw [err_bind]; injection h with h; rw [h]
  | ok own =>
  rw [e2, ok_bind] at h; rw [ok_bind]
  cases e3 : readUtilities s.utility idx with
  | error x => rw [e3, err_bind] at h; rw [err_bind]; injection h with h; rw [h]
  | ok u =>
  rw [e3, ok_bind] at h; rw [ok_bind]
  cases e4 : derefFactor n.factors v with
  | error x => rw [e4, err_bind] at h; rw [err_bind]; injection h with h; rw [h]
  | ok f =>
  rw [e4, ok_bind] at h; rw [ok_bind]
  cases e5 : f.rowIndex own with
  | error x => rw [e5, err_bind] at h; rw [err_bind]; injection h with h; rw [h]
  | ok r =>
  rw [e5, ok_bind] at h; rw [ok_bind]
  cases r with
  | none => cases h
  | some r =>
    dsimp only at h ⊢
    split at h
    · rename_i hu
      rw [if_pos hu]
      cases e6 : goGet (s.utility.getD []) i with
      | error x => rw [e6, err_bind] at h; rw [err_bind]; injection h with h; rw [h]
      | ok x =>
        rw [e6, ok_bind] at h
        cases x with
        | none => cases h
        | some x => cases h
    · rename_i hu
      rw [if_neg hu]
      cases e6 : goGet s.values i with
      | error x => rw [e6, err_bind] at h; rw [err_bind]; injection h with h; rw [h]
      | ok x =>
        rw [e6, ok_bind] at h
        split at h <;> cases h

/-- The additions of `addNode`. -/
def Trainer.put [Add α] (t : Trainer α) (d : Delta α) : Except Fault (Trainer α) := do
  let data ← addAt t.data d.i d.r d.k d.x
  let counter ← incAt t.counter d.i d.r
  if d.c = 2 then do
    let counter ← incAt counter d.i d.r
    return { t with
      data := data
      counter := counter }
  else return { t with
      data := data
      counter := counter }

theorem addNode_some [Add α] [One α] {n : Net α} {s : Sample α} {t : Trainer α} {v : NVar} {i : Nat} {d : Delta α}
    (h : addPlan n t.indices s v i = .ok (some d)) : addNode n s t v i = t.put d ∧ (d.c = 1 ∨ d.c = 2) ∧ d.i = i := by
  unfold addPlan at h
  unfold addNode
  split at h
  · cases h
  rename_i hd
  rw [if_neg hd]
  obtain ⟨idx, e1, h⟩ := bind_inv h
  obtain ⟨own, e2, h⟩ := bind_inv h
  obtain ⟨u, e3, h⟩ := bind_inv h
  obtain ⟨f, e4, h⟩ := bind_inv h
  obtain ⟨r, e5, h⟩ := bind_inv h
  rw [e1, ok_bind, e2, ok_bind, e3, ok_bind, e4, ok_bind, e5, ok_bind]
  cases r with
  | none => cases h
  | some r =>
    have hr : ((r.toNat : Nat) : Int) = r := by
      apply Int.toNat_of_nonneg
      unfold NFactor.rowIndex at e5
      split at e5
      · cases e5
      · injection e5 with e5
        exact rowIndexLoop_nonneg _ _ _ _ (by omega) (by omega) e5
    dsimp only at h ⊢
    split at h
    · rename_i hu
      rw [if_pos hu]
      obtain ⟨x, e6, h⟩ := bind_inv h
      rw [e6, ok_bind]
      cases x with
      | none => cases h
      | some x =>
        dsimp only at h
        injection h with h
        injection h with h
        subst h
        refine ⟨?_, .inr rfl, rfl⟩
        unfold Trainer.put
        dsimp only
        rw [hr]
        rfl
    · rename_i hu
      rw [if_neg hu]
      obtain ⟨x, e6, h⟩ := bind_inv h
      rw [e6, ok_bind]
      split at h
      · cases h
      · rename_i hx
        rw [if_neg hx]
        injection h with h
        injection h with h
        subst h
        refine ⟨?_, .inl rfl, rfl⟩
        unfold Trainer.put
        dsimp only
        rw [hr, Int.toNat_of_nonneg (by omega)]
        rfl

theorem put_adds [AddCommMonoid α] (S : List (List Nat) × List Nat × List (List Nat)) (d : Delta α)
    (hc : d.c = 1 ∨ d.c = 2) :
    Adds (fun t => t.put d) S (d.fits S) (Delta.sums (some d)) (Delta.counts (some d)) := by
  intro t ht
  subst ht
  unfold Delta.fits Trainer.shape
  dsimp only
  constructor
  · rintro ⟨h1, h2⟩
    obtain ⟨d', e1⟩ := addAt_ok t.data d.i d.r d.k d.x h1
    obtain ⟨c', e2⟩ := incAt_ok t.counter d.i d.r h2
    unfold Trainer.put
    rw [e1, ok_bind, e2, ok_bind]
    split
    · obtain ⟨_, l2, _⟩ := incAt_inv e2
      obtain ⟨c'', e3⟩ := incAt_ok c' d.i d.r (by rw [l2]; exact h2)
      rw [e3, ok_bind]
      exact ⟨_, rfl⟩
    · exact ⟨_, rfl⟩
  · intro t' h
    unfold Trainer.put at h
    obtain ⟨d', e1, h⟩ := bind_inv h
    obtain ⟨c', e2, h⟩ := bind_inv h
    obtain ⟨f1, s1, a1⟩ := addAt_inv e1
    obtain ⟨f2, s2, a2⟩ := incAt_inv e2
    have hat : ∀ i j k, ((d'.getD i []).getD j []).getD k 0 = t.at i j k + Delta.sums (some d) i j k := by
      intro i j k
      rw [a1]
      unfold Trainer.at Delta.sums
      dsimp only
      split
      · rfl
      · rw [add_zero]
    split at h
    · rename_i h2
      obtain ⟨c'', e3, h⟩ := bind_inv h
      injection h with h
      subst h
      obtain ⟨f3, s3, a3⟩ := incAt_inv e3
      refine ⟨⟨f1, f2⟩, ?_, hat, ?_⟩
      · dsimp only; rw [s1, s3, s2]
      · intro i j
        unfold Trainer.cnt Delta.counts
        dsimp only
        rw [a3, a2]
        split <;> omega
    · rename_i h2
      injection h with h
      subst h
      refine ⟨⟨f1, f2⟩, ?_, hat, ?_⟩
      · dsimp only; rw [s1, s2]
      · intro i j
        unfold Trainer.cnt Delta.counts
        dsimp only
        rw [a2]
        split <;> omega

/-- What the plan adds. -/
def Delta.sumsOf [Zero α] (p : Except Fault (Option (Delta α))) (i j k : Nat) : α :=
  match p with
  | .ok d => Delta.sums d i j k
  | .error _ => 0

def Delta.countsOf (p : Except Fault (Option (Delta α))) (i j : Nat) : Nat :=
  match p with
  | .ok d => Delta.counts d i j
  | .error _ => 0

def Delta.FitsOf (S : List (List Nat) × List Nat × List (List Nat)) (p : Except Fault (Option (Delta α))) : Prop :=
  ∃ o, p = .ok o ∧ ∀ d, o = some d → d.fits S

theorem addNode_adds [AddCommMonoid α] [One α] (n : Net α) (s : Sample α)
    (S : List (List Nat) × List Nat × List (List Nat)) (v : NVar) (i : Nat) :
    Adds (fun t => addNode n s t v i) S (Delta.FitsOf S (addPlan n S.2.2 s v i))
      (Delta.sumsOf (addPlan n S.2.2 s v i)) (Delta.countsOf (addPlan n S.2.2 s v i)) := by
  intro t ht
  have hi : t.indices = S.2.2 := by rw [← ht]; rfl
  unfold Delta.FitsOf
  cases e : addPlan n S.2.2 s v i with
  | error x =>
    have e' : addNode n s t v i = .error x := addNode_error (by rw [hi, e])
    dsimp only
    rw [e']
    refine ⟨fun ⟨o, h, _⟩ => (by cases h), fun t' h => (by cases h)⟩
  | ok o =>
    cases o with
    | none =>
      have e' := addNode_none (t := t) (by rw [hi, e])
      dsimp only
      rw [e']
      refine ⟨fun _ => ⟨t, rfl⟩, fun t' h => ?_⟩
      injection h with h
      subst h
      refine ⟨⟨none, rfl, by simp⟩, ht, fun i j k => ?_, fun i j => ?_⟩
      · simp [Delta.sumsOf, Delta.sums]
      · simp [Delta.countsOf, Delta.counts]
    | some d =>
      obtain ⟨e', hc, _⟩ := addNode_some (t := t) (n := n) (s := s) (v := v) (i := i) (d := d) (by rw [hi, e])
      dsimp only
      rw [e']
      have := put_adds S d hc t ht
      refine ⟨fun ⟨o, h1, h2⟩ => this.1 (h2 d (by injection h1 with h1; exact h1.symm)), fun t' h => ?_⟩
      obtain ⟨q1, q2, q3, q4⟩ := this.2 t' h
      exact ⟨⟨some d, rfl, fun d' h => by injection h with h; subst h; exact q1⟩, q2, q3, q4⟩

theorem addSample_adds [AddCommMonoid α] [One α] (n : Net α) (S : List (List Nat) × List Nat × List (List Nat))
    (s : Sample α) :
    Adds (fun t => addSample n t s) S (∀ p ∈ n.variables.zipIdx, Delta.FitsOf S (addPlan n S.2.2 s p.1 p.2))
      (fun i j k => (n.variables.zipIdx.map (fun p => Delta.sumsOf (addPlan n S.2.2 s p.1 p.2) i j k)).sum)
      (fun i j => (n.variables.zipIdx.map (fun p => Delta.countsOf (addPlan n S.2.2 s p.1 p.2) i j)).sum) :=
  Adds.foldlM (fun t (p : NVar × Nat) => addNode n s t p.1 p.2)
    (fun p => Delta.FitsOf S (addPlan n S.2.2 s p.1 p.2)) (fun p => Delta.sumsOf (addPlan n S.2.2 s p.1 p.2))
    (fun p => Delta.countsOf (addPlan n S.2.2 s p.1 p.2)) n.variables.zipIdx
    (fun p _ => addNode_adds n s S p.1 p.2)

end Bbn
