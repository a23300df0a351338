import Verif.Model.Variables
import Verif.Lemmas.Index
import Verif.Spec.Value

/-!
# Lemmas on assignments and on the odometer loops
-/

set_option autoImplicit false

namespace Bbn

variable {α : Type _}

theorem ok_bind {ε : Type _} {β γ : Type _} (x : β) (f : β → Except ε γ) : (Except.ok x >>= f) = f x := rfl

theorem err_bind {ε : Type _} {β γ : Type _} (e : ε) (f : β → Except ε γ) :
    ((Except.error e : Except ε β) >>= f) = .error e := rfl

theorem tupleOf_length (vs : List Var) (σ : Assignment) : (tupleOf vs σ).length = vs.length := by
  simp [tupleOf]

theorem tupleOf_inRange {vs : List Var} {σ : Assignment} (h : Fits σ vs) : InRange vs (tupleOf vs σ) := by
  induction vs with
  | nil => exact inRange_nil
  | cons v vs ih =>
    exact inRange_cons.2 ⟨h v (by simp), ih (fun w hw => h w (by simp [hw]))⟩

theorem fits_of_inRange {vs : List Var} {σ : Assignment} (h : InRange vs (tupleOf vs σ)) : Fits σ vs := by
  induction vs with
  | nil => simp [Fits]
  | cons v vs ih =>
    have h' := inRange_cons.1 (show InRange (v :: vs) (σ v.id :: tupleOf vs σ) from h)
    intro w hw
    rcases List.mem_cons.1 hw with rfl | hw
    · exact h'.1
    · exact ih h'.2 w hw

/-- The assignment that reads the outcomes off a tuple. -/
def assignOf : List Var → List Nat → Assignment
  | v :: vs, i :: t => fun j => if j = v.id then i else assignOf vs t j
  | _, _ => fun _ => 0

theorem tupleOf_congr {vs : List Var} {σ τ : Assignment} (h : ∀ v ∈ vs, σ v.id = τ v.id) :
    tupleOf vs σ = tupleOf vs τ := List.map_congr_left h

theorem tupleOf_assignOf {vs : List Var} {t : List Nat} (hn : (vs.map Var.id).Nodup)
    (h : t.length = vs.length) : tupleOf vs (assignOf vs t) = t := by
  induction vs generalizing t with
  | nil => simp at h; subst h; rfl
  | cons v vs ih =>
    cases t with
    | nil => simp at h
    | cons i t =>
      simp only [List.map_cons, List.nodup_cons] at hn
      have e : tupleOf vs (assignOf (v :: vs) (i :: t)) = tupleOf vs (assignOf vs t) := by
        apply tupleOf_congr
        intro w hw
        have : w.id ≠ v.id := fun e => hn.1 (e ▸ List.mem_map_of_mem hw)
        simp [assignOf, this]
      show assignOf (v :: vs) (i :: t) v.id :: tupleOf vs (assignOf (v :: vs) (i :: t)) = _
      rw [e, ih hn.2 (by simpa using h)]
      simp [assignOf]

theorem Fits.mono {σ : Assignment} {vs ws : List Var} (h : Fits σ ws) (hs : ∀ v ∈ vs, v ∈ ws) : Fits σ vs :=
  fun v hv => h v (hs v hv)

theorem Factor.val_congr [Zero α] (f : Factor α) {σ τ : Assignment} (h : ∀ v ∈ f.vars, σ v.id = τ v.id) :
    f.val σ = f.val τ := by
  simp only [Factor.val, tupleOf_congr h]

theorem goGet_eq {β : Type _} {l : List β} {i : Nat} {x : β} : goGet l i = .ok x ↔ l[i]? = some x := by
  unfold goGet
  cases l[i]? <;> simp

theorem goGet_lt {β : Type _} [Inhabited β] {l : List β} {i : Nat} (h : i < l.length) :
    goGet l i = .ok l[i] := by
  rw [goGet_eq]; exact List.getElem?_eq_getElem h

theorem getN_tupleOf [Zero α] {f : Factor α} (hf : f.data.length = size f.vars) {σ : Assignment} (hσ : Fits σ f.vars) :
    f.getN (tupleOf f.vars σ) = .ok (f.val σ) := by
  have hlt := flatIndex_lt (tupleOf_inRange hσ)
  unfold Factor.getN
  rw [varsIndex_ok (tupleOf_length _ _)]
  show goGet f.data _ = _
  rw [goGet_eq, Factor.val, List.getD_eq_getElem?_getD, List.getElem?_eq_getElem (by omega)]
  rfl

/-- What the spec calls the value of a factor is what `Factor.Get` returns. -/
theorem val_eq_get [Zero α] {f : Factor α} (hf : f.WF) {σ : Assignment} (hσ : Fits σ f.vars) :
    f.get ((tupleOf f.vars σ).map Nat.cast) = .ok (f.val σ) := by
  have hlt := flatIndex_lt (tupleOf_inRange hσ)
  have e : varsIndex f.vars ((tupleOf f.vars σ).map (Nat.cast : Nat → Int)) =
      .ok (flatIndex (R := Nat) f.vars (tupleOf f.vars σ) : Int) := by
    unfold varsIndex; rw [flatIndex_cast]; simp [tupleOf_length]
  unfold Factor.get
  rw [e, ok_bind]
  have hl : flatIndex f.vars (tupleOf f.vars σ) < f.data.length := by rw [hf.len]; exact hlt
  simp only [goGetI, Int.toNat_natCast]
  rw [if_neg (by omega), goGet_eq, Factor.val, List.getD_eq_getElem?_getD, List.getElem?_eq_getElem hl]
  rfl

/-- Two well-formed factors over the same variables with equal values have equal data. -/
theorem data_ext [Zero α] {f g : Factor α} (hf : f.WF) (hg : g.data.length = size g.vars) (hv : f.vars = g.vars)
    (h : ∀ σ, Fits σ f.vars → f.val σ = g.val σ) : f.data = g.data := by
  apply List.ext_getElem?
  intro k
  by_cases hk : k < size f.vars
  · have hr := outcomesOf_inRange hk
    have ht := tupleOf_assignOf hf.nodup (outcomesOf_length f.vars k)
    have := h (assignOf f.vars (outcomesOf f.vars k)) (fits_of_inRange (by rw [ht]; exact hr))
    simp only [Factor.val] at this
    rw [← hv, ht, flatIndex_outcomesOf hk, List.getD_eq_getElem?_getD, List.getD_eq_getElem?_getD] at this
    have h1 : k < f.data.length := by rw [hf.len]; exact hk
    have h2 : k < g.data.length := by rw [hg, ← hv]; exact hk
    rw [List.getElem?_eq_getElem h1, List.getElem?_eq_getElem h2] at this ⊢
    simpa using this
  · rw [List.getElem?_eq_none (by rw [hf.len]; omega), List.getElem?_eq_none (by rw [hg, ← hv]; omega)]

/-- The odometer loop visits the digits of `k, k+1, ...`. -/
theorem odoBuild_eq {vars : List Var} {g : List Nat → Except Fault α} {h : List Nat → α} :
    ∀ (n k : Nat), k + n ≤ size vars → (∀ j, k ≤ j → j < k + n → g (outcomesOf vars j) = .ok (h (outcomesOf vars j))) →
      odoBuild vars g n (outcomesOf vars k) = .ok ((List.range' k n).map (fun j => h (outcomesOf vars j)))
  | 0, k, _, _ => rfl
  | n + 1, k, hk, hg => by
    have hlt : k < size vars := by omega
    rw [odoBuild, increment_outcomesOf hlt, hg k (by omega) (by omega)]
    have ih := odoBuild_eq (vars := vars) (g := g) (h := h) n (k + 1) (by omega)
      (fun j h1 h2 => hg j (by omega) (by omega))
    show (odoBuild vars g n (outcomesOf vars (k + 1)) >>= fun xs => pure (h (outcomesOf vars k) :: xs)) = _
    rw [ih]
    rfl

/-- A full run of the odometer loop from all zeros. -/
theorem odoBuild_full {vars : List Var} {g : List Nat → Except Fault α} {h : List Nat → α}
    (hg : ∀ t, InRange vars t → g t = .ok (h t)) :
    odoBuild vars g (size vars) (List.replicate vars.length 0) =
      .ok ((List.range (size vars)).map (fun j => h (outcomesOf vars j))) := by
  rw [← outcomesOf_zero, odoBuild_eq (h := h) (size vars) 0 (by omega)
    (fun j _ hj => hg _ (outcomesOf_inRange (by omega))), ← List.range_eq_range']

/-- Entry of the list built by a full run. -/
theorem getD_odo [Zero α] {vars : List Var} {h : List Nat → α} {t : List Nat} (ht : InRange vars t) :
    ((List.range (size vars)).map (fun j => h (outcomesOf vars j))).getD (flatIndex vars t) 0 = h t := by
  have := flatIndex_lt ht
  rw [List.getD_eq_getElem?_getD, List.getElem?_map, List.getElem?_range this]
  simp [outcomesOf_flatIndex ht]

end Bbn
