import Verif.Props.Ops

/-!
# C19-C21: identifiers and malformed calls
-/

set_option autoImplicit false

namespace Bbn

variable {α : Type}

/-- A call of one of the factor-creating methods of `Variables`. Its factor arguments are arbitrary. -/
inductive Call (α : Type) where
  | createFactor (vars : List Var) (data : Option (List α))
  | restrict (f : Factor α) (v : Var) (obs : Int)
  | sumOut (f : Factor α) (v : Var)
  | policy (f : Factor α) (v : Var)
  | rearrange (f : Factor α) (vars : List Var)
  | product (fs : List (Factor α))
  | sum (fs : List (Factor α))
  | marginal (f : Factor α) (v : Var)
  | normalize (f : Factor α)
  | normalizeFor (f : Factor α) (v : Var)
  | invert (f : Factor α)

/-- Runs a call. -/
def Call.run [Field α] [LinearOrder α] (s : Vs) : Call α → Except Fault (Factor α × Vs)
  | .createFactor vars data => s.createFactor vars data
  | .restrict f v obs => s.restrict f v obs
  | .sumOut f v => s.sumOut f v
  | .policy f v => s.policy f v
  | .rearrange f vars => s.rearrange f vars
  | .product fs => s.product fs
  | .sum fs => s.sum fs
  | .marginal f v => s.marginal f v
  | .normalize f => s.normalize f
  | .normalizeFor f v => s.normalizeFor f v
  | .invert f => s.invert f

/-- Runs a history of calls on one instance and collects the IDs of the returned factors. A call that panics
(and is recovered from) returns no factor; the flag says whether the counter had already moved. -/
def runCalls [Field α] [LinearOrder α] : Vs → List (Call α × Bool) → List Nat × Vs
  | s, [] => ([], s)
  | s, (c, moved) :: cs =>
    match c.run s with
    | .ok (f, s') =>
      let (ids, t) := runCalls s' cs
      (f.id :: ids, t)
    | .error _ => runCalls { s with factorCounter := s.factorCounter + moved.toNat } cs

theorem createFactor_id [Zero α] {s : Vs} {vars : List Var} {d : Option (List α)} {f : Factor α} {s' : Vs}
    (h : s.createFactor vars d = .ok (f, s')) : f.id = s.factorCounter ∧ s'.factorCounter = s.factorCounter + 1 := by
  unfold Vs.createFactor at h
  cases d with
  | none => simp at h; obtain ⟨rfl, rfl⟩ := h; simp
  | some d =>
    simp only at h
    split at h
    · simp at h
    · simp at h; obtain ⟨rfl, rfl⟩ := h; simp

/-- The shape shared by all operations: create a factor, then compute its data. -/
theorem create_then {s : Vs} {vars : List Var} [Zero α] {d : Option (List α)} {k : Factor α × Vs → Except Fault (Factor α × Vs)}
    {f : Factor α} {s' : Vs} (h : (s.createFactor vars d >>= k) = .ok (f, s'))
    (hk : ∀ g t f' t', k (g, t) = .ok (f', t') → f'.id = g.id ∧ t'.factorCounter = t.factorCounter) :
    f.id = s.factorCounter ∧ s'.factorCounter = s.factorCounter + 1 := by
  obtain ⟨⟨g, t⟩, h1, h2⟩ := bind_ok h
  obtain ⟨e1, e2⟩ := createFactor_id h1
  obtain ⟨e3, e4⟩ := hk _ _ _ _ h2
  exact ⟨e3.trans e1, e4.trans e2⟩

theorem map_data_id {g : Factor α} {t : Vs} {x : Except Fault (List α)} {f' : Factor α} {t' : Vs}
    (h : (x >>= fun d => (return ({ g with data := d }, t) : Except Fault (Factor α × Vs))) = .ok (f', t')) :
    f'.id = g.id ∧ t'.factorCounter = t.factorCounter := by
  obtain ⟨d, _, h2⟩ := bind_ok h
  simp [pure, Except.pure] at h2
  obtain ⟨rfl, rfl⟩ := h2; simp

theorem rearrange_id [Zero α] {s : Vs} {g : Factor α} {vars : List Var} {f : Factor α} {s' : Vs}
    (h : s.rearrange g vars = .ok (f, s')) : f.id = s.factorCounter ∧ s'.factorCounter = s.factorCounter + 1 := by
  unfold Vs.rearrange at h
  split at h
  · simp at h
  · obtain ⟨ix, _, h2⟩ := bind_ok h
    split at h2
    · exact createFactor_id h2
    · exact create_then h2 (fun _ _ _ _ hk => map_data_id hk)

theorem Call.run_id [Field α] [LinearOrder α] {s : Vs} {c : Call α} {f : Factor α} {s' : Vs}
    (h : c.run s = .ok (f, s')) : f.id = s.factorCounter ∧ s'.factorCounter = s.factorCounter + 1 := by
  cases c with
  | createFactor vars data => exact createFactor_id h
  | restrict f v obs =>
    simp only [Call.run, Vs.restrict] at h
    split at h
    · simp at h
    · split at h
      · simp at h
      · exact create_then h (fun _ _ _ _ hk => map_data_id hk)
  | sumOut f v =>
    simp only [Call.run, Vs.sumOut] at h
    split at h
    · simp at h
    · exact create_then h (fun _ _ _ _ hk => map_data_id hk)
  | policy f v =>
    simp only [Call.run, Vs.policy] at h
    split at h
    · simp at h
    · obtain ⟨w, _, h2⟩ := bind_ok h
      refine create_then h2 (fun _ _ _ _ hk => ?_)
      simp only at hk
      split at hk
      · simp at hk
      · exact map_data_id hk
  | rearrange f vars => exact rearrange_id h
  | product fs =>
    simp only [Call.run, Vs.product] at h
    split at h
    · exact createFactor_id h
    · exact create_then h (fun _ _ _ _ hk => map_data_id hk)
  | sum fs =>
    simp only [Call.run, Vs.sum] at h
    split at h
    · exact createFactor_id h
    · exact create_then h (fun _ _ _ _ hk => map_data_id hk)
  | marginal f v =>
    simp only [Call.run, Vs.marginal] at h
    split at h
    · simp at h
    · exact create_then h (fun _ _ _ _ hk => map_data_id hk)
  | normalize f =>
    simp only [Call.run, Vs.normalize] at h
    refine create_then h (fun _ _ _ _ hk => ?_)
    simp [pure, Except.pure] at hk; obtain ⟨rfl, rfl⟩ := hk; simp
  | normalizeFor f v =>
    simp only [Call.run, Vs.normalizeFor] at h
    split at h
    · simp at h
    · obtain ⟨w, _, h2⟩ := bind_ok h
      obtain ⟨⟨g, t⟩, h3, h4⟩ := bind_ok h2
      obtain ⟨e1, e2⟩ := rearrange_id h3
      simp only at h4
      split at h4
      · simp at h4
      · simp [pure, Except.pure] at h4; obtain ⟨rfl, rfl⟩ := h4; exact ⟨e1, e2⟩
  | invert f =>
    simp only [Call.run, Vs.invert] at h
    refine create_then h (fun _ _ _ _ hk => ?_)
    simp [pure, Except.pure] at hk; obtain ⟨rfl, rfl⟩ := hk; simp

/-- **C19.** In every history of factor-creating calls on one `Variables` instance, with any arguments and with
any panics in between, the returned factors have pairwise distinct IDs, and none that was used before. -/
theorem C19_ids_unique [Field α] [LinearOrder α] (s : Vs) (cs : List (Call α × Bool)) :
    (runCalls s cs).1.Nodup ∧ ∀ i ∈ (runCalls s cs).1, s.factorCounter ≤ i := by
  induction cs generalizing s with
  | nil => simp [runCalls]
  | cons c cs ih =>
    obtain ⟨c, b⟩ := c
    simp only [runCalls]
    cases h : c.run s with
    | error e =>
      obtain ⟨h1, h2⟩ := ih { s with factorCounter := s.factorCounter + b.toNat }
      refine ⟨h1, fun i hi => ?_⟩
      have := h2 i hi
      simp only at this
      omega
    | ok r =>
      obtain ⟨f, s'⟩ := r
      obtain ⟨e1, e2⟩ := Call.run_id h
      obtain ⟨h1, h2⟩ := ih s'
      simp only [List.nodup_cons, List.mem_cons]
      refine ⟨⟨fun hin => ?_, h1⟩, ?_⟩
      · have := h2 _ hin; omega
      · rintro i (rfl | hi)
        · omega
        · have := h2 i hi; omega

example : (runCalls Vs.new [(.createFactor [Ex.xA] (some [1, 2]), false), (.createFactor [Ex.xA] (some [1]), true),
    (.sumOut Ex.fAB Ex.xB, false), (.product [Ex.fA, Ex.fAB], true)] : List Nat × Vs).1 = [0, 2, 3] := by
  decide +kernel

/-- **C20, indices.** `Index`, `Get` and `Set` panic for a wrong number of indices, and do not panic for the
right number of in-range indices. -/
theorem C20_index_calls (f : Factor α) (hlen : f.data.length = size f.vars) (x : α) :
    (∀ is : List Int, is.length ≠ f.vars.length →
      Panics (f.index is) ∧ Panics (f.get is) ∧ Panics (f.set is x)) ∧
    (∀ t, InRange f.vars t → (∃ k, f.index (ints t) = .ok k) ∧ (∃ y, f.get (ints t) = .ok y) ∧
      ∃ g, f.set (ints t) x = .ok g) := by
  refine ⟨fun is h => ⟨⟨"wrong number of indices", ?_⟩, ⟨"wrong number of indices", ?_⟩,
    ⟨"wrong number of indices", ?_⟩⟩, fun t ht => ?_⟩
  · simp [Factor.index, varsIndex, h]
  · simp [Factor.get, varsIndex, h, err_bind]
  · simp [Factor.set, varsIndex, h, err_bind]
  · have hlt : flatIndex f.vars t < f.data.length := by rw [hlen]; exact flatIndex_lt ht
    have hix := varsIndex_ints (vs := f.vars) (t := t) ht.length
    refine ⟨⟨_, hix⟩, ⟨f.data[flatIndex f.vars t], ?_⟩,
      ⟨{ f with data := f.data.set (flatIndex f.vars t) x }, ?_⟩⟩
    · unfold Factor.get
      rw [hix, ok_bind, goGetI, if_neg (by omega), Int.toNat_natCast, goGet, List.getElem?_eq_getElem hlt]
    · unfold Factor.set
      rw [hix, ok_bind, goSetI, if_neg (by omega), Int.toNat_natCast, goSet, if_pos hlt, ok_bind]; rfl

/-- **C20, `CreateFactor`** panics exactly for a wrong data length. -/
theorem C20_createFactor [Zero α] (s : Vs) (vars : List Var) (d : List α) :
    (Panics (s.createFactor vars (some d)) ↔ d.length ≠ size vars) ∧
    (d.length = size vars →
      ∃ f s', s.createFactor vars (some d) = .ok (f, s') ∧ f.vars = vars ∧ f.data = d) := by
  unfold Vs.createFactor Panics
  constructor
  · constructor
    · rintro ⟨m, h⟩
      by_contra hc
      simp [hc] at h
    · intro h
      exact ⟨"wrong data length for factor", by simp only [ne_eq, h, not_false_iff, if_true]⟩
  · intro h
    exact ⟨_, _, by simp only [h, ne_eq, not_true, if_false]; rfl, rfl, rfl⟩

/-- **C20, `Restrict`** on a factor panics exactly if the observation is out of range or the variable is not in the
factor. -/
theorem C20_restrict [Zero α] (s : Vs) (f : Factor α) (hf : f.WF) (v : Var) (obs : Int)
    (hv : v ∈ f.vars ∨ v.id ∉ f.vars.map Var.id) :
    Panics (s.restrict f v obs) ↔ (obs < 0 ∨ (v.outcomes : Int) ≤ obs) ∨ v ∉ f.vars := by
  constructor
  · rintro ⟨m, h⟩
    by_contra hc
    push Not at hc
    obtain ⟨g, hg, _⟩ := restrict_spec s f hf v hc.2 obs.toNat (by omega)
    rw [show ((obs.toNat : Nat) : Int) = obs by omega] at hg
    rw [hg] at h; simp at h
  · rintro (h | h)
    · exact ⟨_, by unfold Vs.restrict; rw [if_pos h]⟩
    · have hnot : v.id ∉ f.vars.map Var.id := hv.resolve_left h
      unfold Vs.restrict
      by_cases ho : obs < 0 ∨ (v.outcomes : Int) ≤ obs
      · exact ⟨_, by rw [if_pos ho]⟩
      · exact ⟨_, by rw [if_neg ho, lastIdx_none.2 hnot]⟩

/-- **C20, operations on one variable** panic exactly if the variable is not in the factor. -/
theorem C20_variable_calls [Field α] [LinearOrder α] (s : Vs) (f : Factor α) (hf : f.WF) (v : Var)
    (hv : v ∈ f.vars ∨ v.id ∉ f.vars.map Var.id) (hpos : 0 < v.outcomes) :
    (Panics (s.sumOut f v) ↔ v ∉ f.vars) ∧ (Panics (s.policy f v) ↔ v ∉ f.vars) ∧
    (Panics (s.marginal f v) ↔ v ∉ f.vars) ∧ (Panics (s.normalizeFor f v) ↔ v ∉ f.vars) := by
  have key : ∀ r : Except Fault (Factor α × Vs), (v ∈ f.vars → ∃ g, r = .ok g) →
      (v.id ∉ f.vars.map Var.id → Panics r) → (Panics r ↔ v ∉ f.vars) := by
    intro r h1 h2
    constructor
    · rintro ⟨m, h⟩ hin
      obtain ⟨g, hg⟩ := h1 hin
      rw [hg] at h; simp at h
    · exact fun h => h2 (hv.resolve_left h)
  refine ⟨key _ ?_ ?_, key _ ?_ ?_, key _ ?_ ?_, key _ ?_ ?_⟩
  · intro h; obtain ⟨g, hg, _⟩ := sumOut_spec s f hf v v h rfl; exact ⟨_, hg⟩
  · intro h; exact ⟨_, by unfold Vs.sumOut; rw [lastIdx_none.2 h]⟩
  · intro h; obtain ⟨g, hg, _⟩ := policy_spec s f hf v v h rfl hpos; exact ⟨_, hg⟩
  · intro h; exact ⟨_, by unfold Vs.policy; rw [lastIdx_none.2 h]⟩
  · intro h; obtain ⟨g, hg, _⟩ := marginal_spec s f hf v h; exact ⟨_, hg⟩
  · intro h; exact ⟨_, by unfold Vs.marginal; rw [firstIdx_none.2 h]⟩
  · intro h; obtain ⟨g, hg, _⟩ := normalizeFor_spec s f hf v h hpos; exact ⟨_, hg⟩
  · intro h; exact ⟨_, by unfold Vs.normalizeFor; rw [firstIdx_none.2 h]⟩

example : Panics (Ex.vs3.restrict Ex.fAB Ex.xB 3) ∧ ¬ Panics (Ex.vs3.restrict Ex.fAB Ex.xB 2) ∧
    Panics (Ex.vs3.sumOut Ex.fAB Ex.xC) := by
  refine ⟨(C20_restrict _ _ Ex.fAB_wf _ _ (by decide)).2 (by decide),
    fun h => ((C20_restrict _ _ Ex.fAB_wf _ _ (by decide)).1 h).elim (by decide) (by decide),
    (C20_variable_calls _ _ Ex.fAB_wf _ (by decide) (by decide)).1.2 (by decide)⟩

/-- A history of `AddVariable` calls (ID, node type, number of outcomes). -/
def addVars : Vs → List (Nat × NodeType × Nat) → Except Fault Vs
  | s, [] => .ok s
  | s, (id, t, n) :: rest => do
    let (_, s') ← s.addVariable id t n
    addVars s' rest

theorem addVars_new (l : List (Nat × NodeType × Nat)) (s : Vs) (hs : s.ids = []) :
    ∃ s', addVars s l = .ok s' ∧ s'.ids = [] ∧ s'.variables.map Var.id = s.variables.map Var.id ++ l.map (·.1) := by
  induction l generalizing s with
  | nil => exact ⟨s, rfl, hs, by simp⟩
  | cons a l ih =>
    obtain ⟨id, t, n⟩ := a
    have h1 : s.addVariable id t n = .ok (⟨id, s.variables.length % 65536, n, t⟩,
        { s with «variables» := s.variables ++ [⟨id, s.variables.length % 65536, n, t⟩] }) := by
      simp [Vs.addVariable, hs]
    obtain ⟨s', h2, h3, h4⟩ := ih
      { s with «variables» := s.variables ++ [⟨id, s.variables.length % 65536, n, t⟩] } hs
    refine ⟨s', ?_, h3, ?_⟩
    · rw [addVars, h1, ok_bind]; exact h2
    · rw [h4]; simp

/-- **C21, refuted.** No history of `AddVariable` calls on a fresh instance ever panics, whatever IDs it uses; so a
reused ID is accepted and two different variables share it. -/
theorem C21_reused_id_refuted :
    (∀ l, ∃ s, addVars Vs.new l = .ok s) ∧
    ∃ s v w, addVars Vs.new [(7, .chance, 2), (7, .decision, 3)] = .ok s ∧ s.variables = [v, w] ∧
      v.id = w.id ∧ v.outcomes ≠ w.outcomes := by
  refine ⟨fun l => ?_, ?_⟩
  · obtain ⟨s, h, _⟩ := addVars_new l Vs.new rfl
    exact ⟨s, h⟩
  · exact ⟨⟨0, [⟨7, 0, 2, .chance⟩, ⟨7, 1, 3, .decision⟩], []⟩, _, _, by decide, rfl, by decide, by decide⟩

/-- **C21, what does hold.** If the caller uses distinct IDs, the variables of the instance have distinct IDs and
keep the order of the calls. Missing: the panic for a reused ID. -/
theorem C21_distinct_ids_partial (l : List (Nat × NodeType × Nat)) (hl : (l.map (·.1)).Nodup) :
    ∃ s, addVars Vs.new l = .ok s ∧ s.variables.map Var.id = l.map (·.1) ∧ (s.variables.map Var.id).Nodup := by
  obtain ⟨s, h, _, h2⟩ := addVars_new l Vs.new rfl
  have h3 : s.variables.map Var.id = l.map (·.1) := by rw [h2]; rfl
  exact ⟨s, h, h3, h3 ▸ hl⟩

end Bbn
