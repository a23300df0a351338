import Verif.Spec.Network
import Verif.Lemmas.Solve

/-!
# The solver variables of a network
-/

set_option autoImplicit false

namespace Bbn

variable {α : Type}

theorem mapGet_some {κ β : Type} [DecidableEq κ] {m : List (κ × β)} {k : κ} {x : β} (h : mapGet m k = some x) :
    (k, x) ∈ m := by
  unfold mapGet at h
  obtain ⟨e, he, rfl⟩ := Option.map_eq_some_iff.1 h
  have h1 := List.mem_of_find?_eq_some he
  have h2 : e.1 = k := by simpa using List.find?_some he
  rw [← h2]; exact h1

theorem mapGet_none {κ β : Type} [DecidableEq κ] {m : List (κ × β)} {k : κ} :
    mapGet m k = none ↔ k ∉ m.map Prod.fst := by
  unfold mapGet
  rw [Option.map_eq_none_iff, List.find?_eq_none, List.mem_map]
  simp only [decide_eq_true_eq, not_exists, not_and]

theorem mapGet_mem {κ β : Type} [DecidableEq κ] {m : List (κ × β)} (hn : (m.map Prod.fst).Nodup) {k : κ} {x : β} :
    mapGet m k = some x ↔ (k, x) ∈ m := by
  refine ⟨mapGet_some, fun h => ?_⟩
  cases hg : mapGet m k with
  | none => exact absurd (List.mem_map_of_mem (f := Prod.fst) h) (mapGet_none.1 hg)
  | some y =>
    have := List.inj_on_of_nodup_map hn (mapGet_some hg) h rfl
    simp at this; rw [this]

theorem mapGet_isSome {κ β : Type} [DecidableEq κ] {m : List (κ × β)} {k : κ} :
    (mapGet m k).isSome = true ↔ k ∈ m.map Prod.fst := by
  rw [Option.isSome_iff_ne_none, ne_eq, mapGet_none, not_not]

theorem mapGet_perm {κ β : Type} [DecidableEq κ] {m m' : List (κ × β)} (hp : m.Perm m')
    (hn : (m.map Prod.fst).Nodup) (k : κ) : mapGet m k = mapGet m' k := by
  have hn' : (m'.map Prod.fst).Nodup := (hp.map _).nodup_iff.1 hn
  ext x
  rw [mapGet_mem hn, mapGet_mem hn', hp.mem_iff]

theorem mapSet_new {κ β : Type} [DecidableEq κ] {m : List (κ × β)} {k : κ} {x : β} (h : k ∉ m.map Prod.fst) :
    mapSet m k x = m ++ [(k, x)] := by
  unfold mapSet
  rw [List.filter_eq_self.2]
  intro e he
  simp only [decide_not, Bool.not_eq_true', decide_eq_false_iff_not]
  rintro rfl
  exact h (List.mem_map_of_mem he)

theorem mapSet_keys {κ β : Type} [DecidableEq κ] {m : List (κ × β)} {k : κ} {x : β} (h : (m.map Prod.fst).Nodup) :
    ((mapSet m k x).map Prod.fst).Nodup := by
  unfold mapSet
  rw [List.map_append, List.nodup_append]
  refine ⟨h.sublist (List.filter_sublist.map _), by simp, ?_⟩
  rintro a ha b hb rfl
  simp only [List.map_cons, List.map_nil, List.mem_singleton] at hb
  obtain ⟨e, he, hk⟩ := List.mem_map.1 ha
  have := (List.mem_filter.1 he).2
  simp [hk, hb] at this

theorem mapGet_mapSet {κ β : Type} [DecidableEq κ] (m : List (κ × β)) (k : κ) (x : β) (k' : κ) :
    mapGet (mapSet m k x) k' = if k' = k then some x else mapGet m k' := by
  unfold mapGet mapSet
  rw [List.find?_append]
  split_ifs with h
  · subst h
    have : (m.filter (fun e => e.1 ≠ k')).find? (fun e => e.1 = k') = none := by
      rw [List.find?_eq_none]
      intro e he
      have := (List.mem_filter.1 he).2
      simpa using this
    rw [this]; simp
  · rw [List.find?_filter]
    have : (fun e : κ × β => decide (decide (e.1 ≠ k) = true ∧ decide (e.1 = k') = true)) = (fun e => decide (e.1 = k')) := by
      funext e
      rw [decide_eq_decide]
      simp only [ne_eq, decide_not, Bool.not_eq_true', decide_eq_false_iff_not, decide_eq_true_eq, and_iff_right_iff_imp]
      rintro rfl; exact h
    simp only [this]
    cases m.find? (fun e => decide (e.1 = k')) with
    | some e => rfl
    | none =>
      have h' : ¬ k = k' := fun e => h e.symm
      simp [h']

theorem mem_mapSet {κ β : Type} [DecidableEq κ] {m : List (κ × β)} {k : κ} {x : β} {e : κ × β} :
    e ∈ mapSet m k x ↔ (e ∈ m ∧ e.1 ≠ k) ∨ e = (k, x) := by
  simp [mapSet]

/-- The solver variable for the variable `v` at position `i`. -/
def Net.solverVar (n : Net α) (i : Nat) (v : NVar) : Var := ⟨i, n.solverIndex i, v.outcomes.length, n.solverType v⟩

/-- The solver variables in order. -/
def Net.solverVars (n : Net α) : Nat → List NVar → List (NVar × Var)
  | _, [] => []
  | i, v :: l => if some i = n.totalUtility then n.solverVars (i + 1) l
    else (v, n.solverVar i v) :: n.solverVars (i + 1) l

/-- `varIDs`. -/
def Net.varIDs (n : Net α) : Nat → List NVar → List (NVar × Var)
  | _, [] => []
  | i, v :: l => (if some i = n.totalUtility then zeroVariable else (v, n.solverVar i v)) :: n.varIDs (i + 1) l

theorem Net.solverIndex_succ (n : Net α) (i : Nat) :
    n.solverIndex (i + 1) = if some i = n.totalUtility then n.solverIndex i else n.solverIndex i + 1 := by
  unfold Net.solverIndex
  rw [List.range_succ, List.filter_append, List.length_append]
  split_ifs with h <;> simp [h]

theorem Net.solverIndex_le (n : Net α) (i : Nat) : n.solverIndex i ≤ i := by
  unfold Net.solverIndex
  exact (List.length_filter_le _ _).trans (by simp)

theorem addVariables_spec (n : Net α) : ∀ (l : List NVar) (i : Nat) (vs : Vs), vs.ids = [] →
    vs.variables.length = n.solverIndex i → i + l.length ≤ 65536 → (∀ v ∈ l, v.outcomes.length < 65536) →
    n.addVariables i l vs =
      .ok (n.varIDs i l, { vs with «variables» := vs.variables ++ (n.solverVars i l).map Prod.snd }) := by
  intro l
  induction l with
  | nil => intro i vs _ _ _ _; simp [Net.addVariables, Net.varIDs, Net.solverVars]
  | cons v l ih =>
    intro i vs hids hlen hle hout
    have hsucc := n.solverIndex_succ i
    unfold Net.addVariables Net.varIDs Net.solverVars
    by_cases ht : some i = n.totalUtility
    · rw [if_pos ht] at hsucc
      rw [if_pos ht, if_pos ht, if_pos ht, ih (i + 1) vs hids (by rw [hsucc, hlen]) (by simp at hle; omega)
        (fun v hv => hout v (List.mem_cons_of_mem _ hv)), ok_bind]
      rfl
    · rw [if_neg ht] at hsucc
      rw [if_neg ht, if_neg ht, if_neg ht]
      have hw : vs.addVariable i (n.solverType v) (v.outcomes.length % 65536) =
          .ok (n.solverVar i v, { vs with «variables» := vs.variables ++ [n.solverVar i v] }) := by
        unfold Vs.addVariable
        rw [hids, if_neg (by simp)]
        have h1 : vs.variables.length % 65536 = n.solverIndex i := by
          rw [hlen]
          have := n.solverIndex_le i
          simp at hle
          exact Nat.mod_eq_of_lt (by omega)
        have h2 := Nat.mod_eq_of_lt (hout v List.mem_cons_self)
        simp only [h1, h2]
        rfl
      rw [hw, ok_bind]
      dsimp only
      rw [ih (i + 1) _ (by simpa using hids) (by simp [hlen, hsucc]) (by simp at hle; omega)
        (fun v hv => hout v (List.mem_cons_of_mem _ hv)), ok_bind]
      simp
      rfl

theorem mem_solverVars (n : Net α) {l : List NVar} : ∀ {i : Nat} {e : NVar × Var}, e ∈ n.solverVars i l ↔
    ∃ j, l[j]? = some e.1 ∧ some (i + j) ≠ n.totalUtility ∧ e.2 = n.solverVar (i + j) e.1 := by
  induction l with
  | nil => intro i e; simp [Net.solverVars]
  | cons v l ih =>
    intro i e
    have key : (∃ j, l[j]? = some e.1 ∧ some (i + 1 + j) ≠ n.totalUtility ∧ e.2 = n.solverVar (i + 1 + j) e.1) ↔
        ∃ j, (v :: l)[j + 1]? = some e.1 ∧ some (i + (j + 1)) ≠ n.totalUtility ∧ e.2 = n.solverVar (i + (j + 1)) e.1 := by
      simp only [List.getElem?_cons_succ, show ∀ j, i + 1 + j = i + (j + 1) from fun j => by omega]
    have hsplit : (∃ j, (v :: l)[j]? = some e.1 ∧ some (i + j) ≠ n.totalUtility ∧ e.2 = n.solverVar (i + j) e.1) ↔
        (v = e.1 ∧ some i ≠ n.totalUtility ∧ e.2 = n.solverVar i e.1) ∨
        ∃ j, (v :: l)[j + 1]? = some e.1 ∧ some (i + (j + 1)) ≠ n.totalUtility ∧ e.2 = n.solverVar (i + (j + 1)) e.1 := by
      constructor
      · rintro ⟨_ | j, h⟩
        · left; simpa using h
        · exact .inr ⟨j, h⟩
      · rintro (h | ⟨j, h⟩)
        · exact ⟨0, by simpa using h⟩
        · exact ⟨j + 1, h⟩
    rw [hsplit, ← key, ← ih, show n.solverVars i (v :: l) = if some i = n.totalUtility then n.solverVars (i + 1) l
      else (v, n.solverVar i v) :: n.solverVars (i + 1) l from rfl]
    by_cases ht : some i = n.totalUtility
    · rw [if_pos ht]; simp [ht]
    · rw [if_neg ht, List.mem_cons]
      constructor
      · rintro (rfl | h)
        · exact .inl ⟨rfl, ht, rfl⟩
        · exact .inr h
      · rintro (⟨rfl, _, h⟩ | h)
        · left; exact Prod.ext rfl h
        · exact .inr h

theorem solverVars_sublist (n : Net α) (l : List NVar) : ∀ i, ((n.solverVars i l).map Prod.fst).Sublist l := by
  induction l with
  | nil => intro i; simp [Net.solverVars]
  | cons v l ih =>
    intro i
    unfold Net.solverVars
    split_ifs
    · exact (ih _).cons _
    · simpa using (ih (i + 1))

theorem solverVars_ids (n : Net α) (l : List NVar) : ∀ i,
    ((n.solverVars i l).map (fun e => e.2.id)).Pairwise (· < ·) := by
  induction l with
  | nil => intro i; simp [Net.solverVars]
  | cons v l ih =>
    intro i
    unfold Net.solverVars
    split_ifs
    · exact ih _
    · rw [List.map_cons, List.pairwise_cons]
      refine ⟨?_, ih _⟩
      intro k hk
      obtain ⟨e, he, rfl⟩ := List.mem_map.1 hk
      obtain ⟨j, _, _, h3⟩ := (mem_solverVars n).1 he
      rw [h3]
      simp only [Net.solverVar]
      omega

theorem solverVars_index (n : Net α) (l : List NVar) : ∀ i (k : Nat) (e : NVar × Var),
    (n.solverVars i l)[k]? = some e → e.2.index = n.solverIndex i + k := by
  induction l with
  | nil => intro i k e h; simp [Net.solverVars] at h
  | cons v l ih =>
    intro i k e h
    have hs := n.solverIndex_succ i
    unfold Net.solverVars at h
    split_ifs at h hs with ht
    · rw [ih _ _ _ h, hs]
    · cases k with
      | zero =>
        simp at h; subst h; simp [Net.solverVar]
      | succ k =>
        simp at h
        rw [ih _ _ _ h, hs]; omega

theorem nameMap_spec (n : Net α) : ∀ (l : List NVar) (i : Nat) (m : List (String × NVar × Var)),
    (m.map Prod.fst ++ l.map NVar.name).Nodup →
    n.nameMap i (n.varIDs i l) m = m ++ (n.solverVars i l).map (fun e => (e.1.name, e)) := by
  intro l
  induction l with
  | nil => intro i m _; simp [Net.nameMap, Net.varIDs, Net.solverVars]
  | cons v l ih =>
    intro i m hn
    unfold Net.varIDs Net.nameMap Net.solverVars
    by_cases ht : some i = n.totalUtility
    · rw [if_pos ht, if_pos ht]
      apply ih
      exact hn.sublist ((List.Sublist.refl _).append (by simp))
    · rw [if_neg ht, if_neg ht, if_neg ht]
      have hnew : v.name ∉ m.map Prod.fst := by
        intro h
        exact (List.nodup_append.1 hn).2.2 _ h _ (by simp) rfl
      rw [mapSet_new hnew, ih]
      · simp
      · simpa using hn

/-- What a solver's variables and name map are. -/
structure SolverVars (n : Net α) (names : List (String × NVar × Var)) (R : List Var) : Prop where
  names_eq : names = (n.solverVars 0 n.variables).map (fun e => (e.1.name, e))
  vars_eq : R = (n.solverVars 0 n.variables).map Prod.snd

theorem start_vars (n : Net α) (hn : n.Valid) :
    ∃ R, n.addVariables 0 n.variables Vs.new = .ok (n.varIDs 0 n.variables, { Vs.new with «variables» := R }) ∧
      SolverVars n (n.nameMap 0 (n.varIDs 0 n.variables) []) R := by
  refine ⟨_, addVariables_spec n _ 0 Vs.new rfl rfl (by have := hn.few; omega) (fun v hv => (hn.outcomes v hv).2), ?_, ?_⟩
  · rw [nameMap_spec n _ 0 [] (by simpa using hn.names)]; simp
  · simp [Vs.new]

theorem Net.totalName_eq {n : Net α} {i : Nat} {v : NVar} (hi : n.totalUtility = some i) (hv : n.variables[i]? = some v) :
    n.totalName = v.name := by
  simp [Net.totalName, hi, hv]

theorem totalName_iff {n : Net α} (hn : n.Valid) {i : Nat} {v : NVar} (hv : n.variables[i]? = some v) :
    v.name = n.totalName ↔ n.totalUtility = some i := by
  constructor
  · intro h
    cases ht : n.totalUtility with
    | none =>
      have : n.totalName = "" := by simp [Net.totalName, ht]
      exact absurd (h.trans this) (hn.named v (List.mem_of_getElem? hv))
    | some j =>
      obtain ⟨u, _, _, hu, _⟩ := hn.weights j ht
      rw [Net.totalName_eq ht hu] at h
      have hlt : i < (n.variables.map NVar.name).length := by
        rw [List.length_map]; exact (List.getElem?_eq_some_iff.1 hv).1
      have := (List.getElem?_inj hlt hn.names).1 (by rw [List.getElem?_map, List.getElem?_map, hv, hu]; simp [h] : 
        (n.variables.map NVar.name)[i]? = (n.variables.map NVar.name)[j]?)
      rw [this]
  · intro h
    rw [Net.totalName_eq h hv]

namespace SolverVars

variable {n : Net α} {names : List (String × NVar × Var)} {R : List Var}

theorem keys (h : SolverVars n names R) (hn : n.Valid) : (names.map Prod.fst).Nodup := by
  rw [h.names_eq, List.map_map]
  have := hn.names.sublist ((solverVars_sublist n n.variables 0).map NVar.name)
  rw [List.map_map] at this
  exact this

theorem ids (h : SolverVars n names R) : (R.map Var.id).Nodup := by
  rw [h.vars_eq, List.map_map]
  exact (solverVars_ids n n.variables 0).imp (fun h => Nat.ne_of_lt h)

theorem sorted (h : SolverVars n names R) : (R.map Var.id).Pairwise (· < ·) := by
  rw [h.vars_eq, List.map_map]
  exact solverVars_ids n n.variables 0

theorem index (h : SolverVars n names R) (i : Nat) (v : Var) (hv : R[i]? = some v) : v.index = i := by
  rw [h.vars_eq, List.getElem?_map] at hv
  obtain ⟨e, he, rfl⟩ := Option.map_eq_some_iff.1 hv
  rw [solverVars_index n _ _ _ _ he]
  simp [Net.solverIndex]

theorem mem (h : SolverVars n names R) {w : Var} : w ∈ R ↔
    ∃ v, n.variables[w.id]? = some v ∧ some w.id ≠ n.totalUtility ∧ w = n.solverVar w.id v := by
  rw [h.vars_eq, List.mem_map]
  constructor
  · rintro ⟨e, he, rfl⟩
    obtain ⟨j, h1, h2, h3⟩ := (mem_solverVars n).1 he
    rw [Nat.zero_add] at h2 h3
    have : e.2.id = j := by rw [h3]; rfl
    exact ⟨e.1, by rw [this]; exact h1, by rw [this]; exact h2, by rw [this]; exact h3⟩
  · rintro ⟨v, h1, h2, h3⟩
    exact ⟨(v, w), (mem_solverVars n).2 ⟨w.id, h1, by simpa using h2, by simpa using h3⟩, rfl⟩

theorem get (h : SolverVars n names R) (hn : n.Valid) {s : String} {e : NVar × Var} : mapGet names s = some e ↔
    ∃ i, n.variables[i]? = some e.1 ∧ e.1.name = s ∧ n.totalUtility ≠ some i ∧ e.2 = n.solverVar i e.1 := by
  rw [mapGet_mem (h.keys hn), h.names_eq, List.mem_map]
  constructor
  · rintro ⟨e', he, heq⟩
    simp only [Prod.mk.injEq] at heq
    obtain ⟨rfl, rfl⟩ := heq
    obtain ⟨j, h1, h2, h3⟩ := (mem_solverVars n).1 he
    rw [Nat.zero_add] at h2 h3
    exact ⟨j, h1, rfl, fun e => h2 e.symm, h3⟩
  · rintro ⟨i, h1, rfl, h2, h3⟩
    exact ⟨e, (mem_solverVars n).2 ⟨i, h1, by simpa using fun e => h2 e.symm, by simpa using h3⟩, rfl⟩

theorem get_of (h : SolverVars n names R) (hn : n.Valid) {i : Nat} {v : NVar} (hv : n.variables[i]? = some v)
    (ht : n.totalUtility ≠ some i) : mapGet names v.name = some (v, n.solverVar i v) :=
  (h.get hn).2 ⟨i, hv, rfl, ht, rfl⟩

theorem mem_of (h : SolverVars n names R) {i : Nat} {v : NVar} (hv : n.variables[i]? = some v)
    (ht : n.totalUtility ≠ some i) : n.solverVar i v ∈ R :=
  h.mem.2 ⟨v, hv, fun e => ht e.symm, rfl⟩

theorem get_none (h : SolverVars n names R) (hn : n.Valid) {s : String} : mapGet names s = none ↔
    (∀ v ∈ n.variables, v.name ≠ s) ∨ s = n.totalName := by
  constructor
  · intro hs
    by_contra hc
    simp only [not_or, not_forall, not_not] at hc
    obtain ⟨⟨v, hv, rfl⟩, ht⟩ := hc
    obtain ⟨i, hi⟩ := List.getElem?_of_mem hv
    rw [h.get_of hn hi (fun e => ht ((totalName_iff hn hi).2 e))] at hs
    simp at hs
  · intro hs
    by_contra hc
    obtain ⟨e, he⟩ := Option.ne_none_iff_exists'.1 hc
    obtain ⟨i, h1, h2, h3, _⟩ := (h.get hn).1 he
    rcases hs with hs | hs
    · exact hs _ (List.mem_of_getElem? h1) h2
    · exact h3 ((totalName_iff hn h1).1 (h2.trans hs))

end SolverVars

end Bbn
