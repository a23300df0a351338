import Verif.Lemmas.TuiShown

/-!
# Moving the nodes of a network changes no answer

Two networks that differ only in the positions of the variables (and in what is kept from the last call) have the same
worlds, weights and utilities.
-/

set_option autoImplicit false

namespace Bbn

open Finset

variable {α : Type}

/-- The variable without its position. -/
def NVar.still (v : NVar) : NVar := { v with position := (0, 0) }

/-- The network without the positions of the nodes and without what is kept from the last call. -/
def Net.still (n : Net α) : Net α := { n with «variables» := n.variables.map NVar.still, vs := none, names := [] }

/-- The same network up to positions and what is kept from the last call. -/
def Net.Moved (n m : Net α) : Prop := m.still = n.still

theorem Net.Moved.refl (n : Net α) : n.Moved n := rfl

theorem Net.Moved.trans {a b c : Net α} (h : a.Moved b) (h' : b.Moved c) : a.Moved c := Eq.trans h' h

theorem Net.Moved.symm {a b : Net α} (h : a.Moved b) : b.Moved a := Eq.symm h

theorem Net.SameCore.moved {n m : Net α} (h : n.SameCore m) : n.Moved m := by
  obtain ⟨_, _, rfl⟩ := h; rfl

section still

variable (n : Net α)

theorem still_vars : n.still.variables = n.variables.map NVar.still := rfl

theorem still_count (s : String) : n.still.count s = n.count s := by
  unfold Net.count outcomeCount
  rw [still_vars, List.find?_map]
  cases hf : n.variables.find? ((fun v => decide (v.name = s)) ∘ NVar.still) with
  | none =>
    have : n.variables.find? (fun v => decide (v.name = s)) = none := hf
    rw [this]; rfl
  | some v =>
    have : n.variables.find? (fun v => decide (v.name = s)) = some v := hf
    rw [this]; rfl

theorem still_counts : n.still.count = n.count := funext (still_count n)

theorem still_entry [Zero α] (f : NFactor α) (w : World) : n.still.entry f w = n.entry f w := by
  unfold Net.entry; rw [still_counts]

theorem still_rowSum [AddCommMonoid α] (f : NFactor α) (w : World) : n.still.rowSum f w = n.rowSum f w := by
  unfold Net.rowSum; simp only [still_count, still_entry]

theorem still_prob [Field α] [DecidableEq α] (f : NFactor α) (w : World) : n.still.prob f w = n.prob f w := by
  unfold Net.prob; simp only [still_rowSum, still_entry]

theorem still_isKind (t : NodeType) (s : String) : n.still.isKind t s = n.isKind t s := by
  unfold Net.isKind; rw [still_vars, List.any_map]; rfl

theorem still_chanceTables : n.still.chanceTables = n.chanceTables := by
  unfold Net.chanceTables; simp only [still_isKind]; rfl

theorem still_get (i : Nat) : n.still.variables[i]? = (n.variables[i]?).map NVar.still := by
  rw [still_vars, List.getElem?_map]

theorem still_ids (w : World) : n.still.ids w = n.ids w := by
  funext i
  unfold Net.ids
  rw [still_get]
  cases n.variables[i]? <;> rfl

theorem still_stateVars : n.still.stateVars = n.stateVars.map NVar.still := by
  unfold Net.stateVars; rw [still_vars, List.filter_map]; rfl

theorem still_joint [Field α] [DecidableEq α] (ps : List (String × Factor α)) (w : World) :
    n.still.joint ps w = n.joint ps w := by
  unfold Net.joint; simp only [still_chanceTables, still_prob, still_ids]

theorem still_active (evidence : List (String × String)) (ign : Bool) : n.still.active evidence ign = n.active evidence ign := rfl

theorem still_agrees (evidence : List (String × String)) (w : World) : n.still.Agrees evidence w ↔ n.Agrees evidence w := by
  unfold Net.Agrees
  rw [still_vars]
  simp only [List.forall_mem_map]
  rfl

theorem sumWorlds_still [AddCommMonoid α] : ∀ (l : List NVar) (F : World → α) (w : World),
    sumWorlds (l.map NVar.still) F w = sumWorlds l F w := by
  intro l
  induction l with
  | nil => intro F w; rfl
  | cons v l ih => intro F w; simp only [List.map_cons, sumWorlds, ih]; rfl

theorem still_total [Field α] [DecidableEq α] (ps : List (String × Factor α)) (F : World → α) :
    n.still.total ps F = n.total ps F := by
  unfold Net.total; simp only [still_stateVars, sumWorlds_still, still_joint]

theorem still_mass [Field α] [DecidableEq α] (ps : List (String × Factor α)) (P Q : World → Prop) [DecidablePred P]
    [DecidablePred Q] (h : ∀ w, P w ↔ Q w) : n.still.mass ps P = n.mass ps Q := by
  unfold Net.mass; simp only [still_total, h]

theorem still_totalName : n.still.totalName = n.totalName := by
  unfold Net.totalName
  show (match n.totalUtility with | none => "" | some i => ((n.still.variables[i]?).map NVar.name).getD "") = _
  cases n.totalUtility with
  | none => rfl
  | some i =>
    dsimp only
    rw [still_get, Option.map_map]
    rfl

theorem still_weight [Zero α] [One α] (s : String) : n.still.weight s = n.weight s := by
  unfold Net.weight; rw [still_totalName]; rfl

theorem still_utilityVars : n.still.utilityVars = n.utilityVars.map NVar.still := by
  unfold Net.utilityVars; rw [still_vars, List.filter_map, still_totalName]; rfl

theorem still_utilityIn [AddCommMonoid α] (s : String) (w : World) : n.still.utilityIn s w = n.utilityIn s w := by
  unfold Net.utilityIn; simp only [still_entry]; rfl

theorem still_totalIn [Semiring α] (w : World) : n.still.totalIn w = n.totalIn w := by
  unfold Net.totalIn
  rw [still_utilityVars, List.map_map]
  simp only [still_weight, still_utilityIn]
  rfl

theorem still_asked [Semiring α] (u : String) (w : World) : n.still.asked u w = n.asked u w := by
  unfold Net.asked; simp only [still_totalIn, still_utilityIn]

theorem still_posterior [Field α] [DecidableEq α] (evidence : List (String × String)) (ign : Bool) (q : String) :
    n.still.posterior evidence ign q = n.posterior evidence ign q := by
  unfold Net.posterior
  rw [still_count, still_active]
  apply List.map_congr_left
  intro k _
  rw [still_mass n _ _ (n.Agrees evidence) (still_agrees n evidence),
    still_mass n _ _ (fun w => n.Agrees evidence w ∧ w q = k) (fun w => and_congr_left' (still_agrees n evidence w))]

theorem still_expected [Field α] [DecidableEq α] (evidence : List (String × String)) (ign : Bool) (u : String) :
    n.still.expected evidence ign u = n.expected evidence ign u := by
  unfold Net.expected
  rw [still_active, still_mass n _ _ (n.Agrees evidence) (still_agrees n evidence), still_total]
  simp only [still_agrees, still_asked]

theorem still_hasPolicy (s : String) : n.still.hasPolicy s = n.hasPolicy s := rfl

theorem still_allSolved : n.still.AllSolved ↔ n.AllSolved := by
  unfold Net.AllSolved
  rw [still_vars]
  simp only [List.forall_mem_map]
  rfl

theorem still_evidenceOK (evidence : List (String × String)) : n.still.EvidenceOK evidence ↔ n.EvidenceOK evidence := by
  constructor
  · rintro ⟨h1, h2⟩
    refine ⟨h1, fun e he => ?_⟩
    obtain ⟨v, hv, h⟩ := h2 e he
    obtain ⟨x, hx, rfl⟩ := List.mem_map.1 hv
    exact ⟨x, hx, h⟩
  · rintro ⟨h1, h2⟩
    refine ⟨h1, fun e he => ?_⟩
    obtain ⟨v, hv, h⟩ := h2 e he
    exact ⟨v.still, List.mem_map_of_mem hv, h⟩

theorem still_totalOK : n.still.TotalOK ↔ n.TotalOK := by
  unfold Net.TotalOK
  rw [still_totalName, still_utilityVars, still_count]
  simp only [List.mem_map, exists_exists_and_eq_and]
  rfl

theorem still_names : n.still.variables.map NVar.name = n.variables.map NVar.name := by
  rw [still_vars, List.map_map]; rfl

theorem still_exists {P : NVar → Prop} (hP : ∀ v : NVar, P v.still ↔ P v) :
    (∃ v ∈ n.still.variables, P v) ↔ ∃ v ∈ n.variables, P v := by
  rw [still_vars]
  simp only [List.mem_map, exists_exists_and_eq_and, hP]

theorem still_forall {P : NVar → Prop} (hP : ∀ v : NVar, P v.still ↔ P v) :
    (∀ v ∈ n.still.variables, P v) ↔ ∀ v ∈ n.variables, P v := by
  rw [still_vars]
  simp only [List.forall_mem_map, hP]

theorem still_getP {i : Nat} {P : NVar → Prop} (hP : ∀ v : NVar, P v.still ↔ P v) :
    (∃ v, n.still.variables[i]? = some v ∧ P v) ↔ ∃ v, n.variables[i]? = some v ∧ P v := by
  rw [still_get]
  cases h : n.variables[i]? with
  | none => simp
  | some v => simp [hP]

theorem still_valid : n.still.Valid ↔ n.Valid := by
  have hw : (∀ i, n.totalUtility = some i → ∃ v j f, n.still.variables[i]? = some v ∧ v.nodeType = .utility ∧
        v.factor = some j ∧ n.factors[j]? = some f ∧ f.forVar = v.name ∧ f.given.length ≤ f.tab.length ∧
        ∀ u ∈ n.still.variables, u.nodeType = .utility → u.name ≠ v.name → u.name ∈ f.given) ↔
      (∀ i, n.totalUtility = some i → ∃ v j f, n.variables[i]? = some v ∧ v.nodeType = .utility ∧
        v.factor = some j ∧ n.factors[j]? = some f ∧ f.forVar = v.name ∧ f.given.length ≤ f.tab.length ∧
        ∀ u ∈ n.variables, u.nodeType = .utility → u.name ≠ v.name → u.name ∈ f.given) := by
    refine forall_congr' fun i => imp_congr_right fun _ => ?_
    simp only [exists_and_left]
    refine Iff.trans (exists_congr fun v => and_congr Iff.rfl (and_congr Iff.rfl (exists_congr fun j =>
      and_congr Iff.rfl (exists_congr fun f => and_congr Iff.rfl (and_congr Iff.rfl (and_congr Iff.rfl
        (still_forall n (P := fun u => u.nodeType = .utility → u.name ≠ v.name → u.name ∈ f.given) (fun _ => Iff.rfl))))))))
      (still_getP n (fun _ => Iff.rfl))
  constructor
  · rintro ⟨a1, a2, a3, a4, a5, a6, a7, a8, a9, a10, a11, a12⟩
    rw [still_totalName] at a9 a10 a11
    rw [still_counts] at a10
    simp only [still_isKind] at a10
    refine ⟨still_names n ▸ a1, (still_forall n (fun _ => Iff.rfl)).1 a2, by simpa [still_vars] using a3,
      (still_forall n (fun _ => Iff.rfl)).1 a4, a5,
      (still_forall n (P := fun v => v.nodeType ≠ .decision → ∃ f ∈ n.factors, f.forVar = v.name) (fun _ => Iff.rfl)).1 a6,
      fun f hf => (still_exists n (P := fun v => v.name = f.forVar) (fun _ => Iff.rfl)).1 (a7 f hf), a8,
      fun f hf ht g hg => (still_exists n (P := fun v => v.name = g ∧ v.nodeType ≠ .utility) (fun _ => Iff.rfl)).1 (a9 f hf ht g hg),
      a10, (still_forall n (P := fun v => v.nodeType = .utility → v.name ≠ n.totalName → v.outcomes.length = 1)
        (fun _ => Iff.rfl)).1 a11, hw.1 a12⟩
  · rintro ⟨a1, a2, a3, a4, a5, a6, a7, a8, a9, a10, a11, a12⟩
    refine ⟨(still_names n).symm ▸ a1, (still_forall n (fun _ => Iff.rfl)).2 a2, by simpa [still_vars] using a3,
      (still_forall n (fun _ => Iff.rfl)).2 a4, a5,
      (still_forall n (P := fun v => v.nodeType ≠ .decision → ∃ f ∈ n.factors, f.forVar = v.name) (fun _ => Iff.rfl)).2 a6,
      fun f hf => (still_exists n (P := fun v => v.name = f.forVar) (fun _ => Iff.rfl)).2 (a7 f hf), a8, ?_, ?_, ?_,
      hw.2 a12⟩
    · rw [still_totalName]
      exact fun f hf ht g hg =>
        (still_exists n (P := fun v => v.name = g ∧ v.nodeType ≠ .utility) (fun _ => Iff.rfl)).2 (a9 f hf ht g hg)
    · rw [still_totalName, still_counts]
      simp only [still_isKind]
      exact a10
    · rw [still_totalName]
      exact (still_forall n (P := fun v => v.nodeType = .utility → v.name ≠ n.totalName → v.outcomes.length = 1)
        (fun _ => Iff.rfl)).2 a11

theorem still_policiesOK : n.still.PoliciesOK ↔ n.PoliciesOK := by
  have hd : ∀ p : String × Factor α, (∃ i v, n.still.variables[i]? = some v ∧ v.name = p.1 ∧ v.nodeType = .decision ∧
      ∃ w ∈ p.2.vars, w.id = i) ↔ ∃ i v, n.variables[i]? = some v ∧ v.name = p.1 ∧ v.nodeType = .decision ∧
      ∃ w ∈ p.2.vars, w.id = i := fun p => exists_congr fun i => still_getP n (fun _ => Iff.rfl)
  have hv : ∀ w : Var, (∃ v, n.still.variables[w.id]? = some v ∧ v.nodeType ≠ .utility ∧
      w.index = n.solverIndex w.id ∧ w.outcomes = v.outcomes.length ∧
      (w.nodeType = v.nodeType ∨ w.nodeType = .chance ∧ n.hasPolicy v.name)) ↔
      ∃ v, n.variables[w.id]? = some v ∧ v.nodeType ≠ .utility ∧
      w.index = n.solverIndex w.id ∧ w.outcomes = v.outcomes.length ∧
      (w.nodeType = v.nodeType ∨ w.nodeType = .chance ∧ n.hasPolicy v.name) := fun w => still_getP n (fun _ => Iff.rfl)
  constructor
  · rintro ⟨a1, a2, a3, a4⟩
    exact ⟨a1, a2, fun p hp => (hd p).1 (a3 p hp), fun p hp w hw => (hv w).1 (a4 p hp w hw)⟩
  · rintro ⟨a1, a2, a3, a4⟩
    exact ⟨a1, a2, fun p hp => (hd p).2 (a3 p hp), fun p hp w hw => (hv w).2 (a4 p hp w hw)⟩

end still

section moved

variable {n m : Net α} (h : n.Moved m)
include h

theorem Net.Moved.valid : m.Valid ↔ n.Valid := by rw [← still_valid m, ← still_valid n, show m.still = n.still from h]
theorem Net.Moved.policiesOK : m.PoliciesOK ↔ n.PoliciesOK := by
  rw [← still_policiesOK m, ← still_policiesOK n, show m.still = n.still from h]
theorem Net.Moved.allSolved : m.AllSolved ↔ n.AllSolved := by
  rw [← still_allSolved m, ← still_allSolved n, show m.still = n.still from h]
theorem Net.Moved.totalOK : m.TotalOK ↔ n.TotalOK := by
  rw [← still_totalOK m, ← still_totalOK n, show m.still = n.still from h]
theorem Net.Moved.evidenceOK (evidence : List (String × String)) : m.EvidenceOK evidence ↔ n.EvidenceOK evidence := by
  rw [← still_evidenceOK m, ← still_evidenceOK n, show m.still = n.still from h]
theorem Net.Moved.posterior [Field α] [DecidableEq α] (evidence : List (String × String)) (ign : Bool) (q : String) :
    m.posterior evidence ign q = n.posterior evidence ign q := by
  rw [← still_posterior m, ← still_posterior n, show m.still = n.still from h]
theorem Net.Moved.expected [Field α] [DecidableEq α] (evidence : List (String × String)) (ign : Bool) (u : String) :
    m.expected evidence ign u = n.expected evidence ign u := by
  rw [← still_expected m, ← still_expected n, show m.still = n.still from h]
theorem Net.Moved.mass [Field α] [DecidableEq α] (evidence : List (String × String)) (ign : Bool) :
    m.mass (m.active evidence ign) (m.Agrees evidence) = n.mass (n.active evidence ign) (n.Agrees evidence) := by
  have e1 := still_mass m (m.active evidence ign) _ (m.Agrees evidence) (still_agrees m evidence)
  have e2 := still_mass n (n.active evidence ign) _ (n.Agrees evidence) (still_agrees n evidence)
  have e3 : m.active evidence ign = n.active evidence ign := by
    rw [← still_active m, ← still_active n, show m.still = n.still from h]
  rw [← e1, ← e2, e3]
  simp only [show m.still = n.still from h]
theorem Net.Moved.weight [Zero α] [One α] (s : String) : m.weight s = n.weight s := by
  rw [← still_weight m, ← still_weight n, show m.still = n.still from h]
theorem Net.Moved.totalName : m.totalName = n.totalName := by
  rw [← still_totalName m, ← still_totalName n, show m.still = n.still from h]
theorem Net.Moved.count (s : String) : m.count s = n.count s := by
  rw [← still_count m, ← still_count n, show m.still = n.still from h]
theorem Net.Moved.totalUtility : m.totalUtility = n.totalUtility := by
  have := congrArg Net.totalUtility (show m.still = n.still from h); exact this
theorem Net.Moved.factors : m.factors = n.factors := by
  have := congrArg Net.factors (show m.still = n.still from h); exact this
theorem Net.Moved.vars : m.variables.map NVar.still = n.variables.map NVar.still := by
  have := congrArg Net.variables (show m.still = n.still from h); exact this
theorem Net.Moved.stateVars : m.stateVars.map NVar.still = n.stateVars.map NVar.still := by
  rw [← still_stateVars m, ← still_stateVars n, show m.still = n.still from h]
theorem Net.Moved.utilityVars : m.utilityVars.map NVar.still = n.utilityVars.map NVar.still := by
  rw [← still_utilityVars m, ← still_utilityVars n, show m.still = n.still from h]

end moved

end Bbn
