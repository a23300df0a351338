import Verif.Lemmas.CostLine
import Verif.Props.NetExamples
import Std.Data.String.ToNat

/-!
# C134, C135, C136: how much memory a query needs

C134: whether a query of a network of chance variables fits into memory depends on a game on sets of variables only: the
variables that are neither observed nor asked for are taken out one after the other, those with few neighbours first.
If all tables of the game fit, then the answer is that of the unlimited computer; if one does not, the program ends. The
numbers in the tables and the iteration order of maps play no role.

C135: a network in which every variable has at most one parent can be answered with tables of a few entries if the
variables are taken out from the leaves upwards. The code goes by the number of neighbours instead, and may take out a
root before its children: then it makes a table over all of these. For networks around a line it does well.

C136: observing one more variable changes the numbers of neighbours, and with them the order. This may turn a query that
needs next to nothing into one that needs more than there is.
-/

set_option autoImplicit false

namespace Bbn

section Need

variable {α : Type} [Field α] [DecidableEq α]

/-- C134: a query succeeds on a computer with tables of up to `L` entries exactly if the biggest table of the game has
at most `L`; the result then is that of the unlimited computer. -/
theorem C134_query_fits_iff_biggest_table {n : Net α} (hn : n.Valid) (hc : n.AllChance) (hpol : n.policies = [])
    {evidence : List (String × String)} (hev : n.EvidenceOK evidence) {query : List String}
    (hq : ∀ q ∈ query, ∃ v ∈ n.variables, v.name = q) {order : List Nat} (ho : n.TakesOut evidence query order)
    (L : Nat) (sch : NSched α) (ign : Bool) :
    (n.biggestTable evidence order ≤ L →
      n.solveQueryM (.memory L) sch evidence query ign = n.solveQuery sch evidence query ign) ∧
    (L < n.biggestTable evidence order →
      (n.solveQueryM (.memory L) sch evidence query ign).1 = .error (.panic "out of memory")) :=
  netSolveQueryM_memory hn hc hpol sch hev hq ign ho

omit [Field α] [DecidableEq α] in
/-- C134: there is exactly one order in which the variables are taken out. -/
theorem C134_taken_out_in_one_order (n : Net α) (evidence : List (String × String)) (query : List String) :
    ∃! order, n.TakesOut evidence query order := by
  obtain ⟨o, h⟩ := exists_takesOut n evidence query
  exact ⟨o, h, fun o' h' => takesOut_unique h' h⟩

/-- C134: networks with the same variables and the same parents need the same memory, whatever the numbers in their
tables, the iteration orders of maps and the observed outcomes. -/
theorem C134_memory_need_ignores_numbers {n n' : Net α} (hn : n.Valid) (hn' : n'.Valid) (hc : n.AllChance)
    (hpol : n.policies = []) (hpol' : n'.policies = []) (hvars : n'.variables = n.variables)
    (hdims : n'.factors.map NFactor.dims = n.factors.map NFactor.dims)
    {evidence evidence' : List (String × String)} (hev : n.EvidenceOK evidence) (hev' : n'.EvidenceOK evidence')
    (hkeys : evidence'.map Prod.fst = evidence.map Prod.fst) {query : List String}
    (hq : ∀ q ∈ query, ∃ v ∈ n.variables, v.name = q) (L : Nat) (sch sch' : NSched α) (ign ign' : Bool) :
    n.solveQueryM (.memory L) sch evidence query ign = n.solveQuery sch evidence query ign ∧
      n'.solveQueryM (.memory L) sch' evidence' query ign' = n'.solveQuery sch' evidence' query ign' ∨
    (n.solveQueryM (.memory L) sch evidence query ign).1 = .error (.panic "out of memory") ∧
      (n'.solveQueryM (.memory L) sch' evidence' query ign').1 = .error (.panic "out of memory") := by
  obtain ⟨o, ho⟩ := exists_takesOut n evidence query
  have hplace : n'.place = n.place := by funext s; unfold Net.place; rw [hvars]
  have hwidth : n'.width = n.width := by funext s; unfold Net.width; rw [hvars]
  have hfam : n'.families = n.families := by
    unfold Net.families
    have e : ∀ m : Net α, m.factors.map (fun f => (f.dims.map m.place).toFinset) =
        (m.factors.map NFactor.dims).map (fun d => (d.map m.place).toFinset) := by
      intro m; rw [List.map_map]; rfl
    rw [e, e, hdims, hplace]
  have hun : n'.unobserved evidence' = n.unobserved evidence := by
    unfold Net.unobserved
    have e : ∀ (m : Net α) (l : List (String × String)), l.map (fun e => m.place e.1) =
        (l.map Prod.fst).map m.place := by
      intro m l; rw [List.map_map]; rfl
    rw [hfam, e, e, hkeys, hplace]
  have ho' : n'.TakesOut evidence' query o := ⟨by rw [hvars, hkeys]; exact ho.mem, by rw [hun]; exact ho.sorted⟩
  have hbig : n'.biggestTable evidence' o = n.biggestTable evidence o := by
    unfold Net.biggestTable; rw [hfam, hwidth, hun]
  have hc' : n'.AllChance := by intro v hv; rw [hvars] at hv; exact hc v hv
  have h1 := C134_query_fits_iff_biggest_table hn hc hpol hev hq ho L sch ign
  have h2 := C134_query_fits_iff_biggest_table hn' hc' hpol' hev' (by rw [hvars]; exact hq) ho' L sch' ign'
  rw [hbig] at h2
  rcases Nat.lt_or_ge L (n.biggestTable evidence o) with h | h
  · exact .inr ⟨h1.2 h, h2.2 h⟩
  · exact .inl ⟨h1.1 h, h2.1 h⟩

/-- C135, the part that holds: in a network around a line with variables of up to `k` outcomes, tables of `k³` entries
times `k` for every variable asked for suffice, however long the line and whatever is observed. (Missing: networks in
which the variables with children do not form a line; there it is false.) -/
theorem C135_small_tables_around_line_partial {n : Net α} (hn : n.Valid) (hc : n.AllChance) (hpol : n.policies = [])
    {line : List String} (hl : n.AroundLine line) {k : Nat} (hk : 0 < k)
    (hout : ∀ v ∈ n.variables, v.outcomes.length ≤ k) {evidence : List (String × String)} (hev : n.EvidenceOK evidence)
    {query : List String} (hq : ∀ q ∈ query, ∃ v ∈ n.variables, v.name = q) {L : Nat} (hL : k ^ (3 + query.length) ≤ L)
    (sch : NSched α) (ign : Bool) :
    n.solveQueryM (.memory L) sch evidence query ign = n.solveQuery sch evidence query ign := by
  obtain ⟨o, ho⟩ := exists_takesOut n evidence query
  exact (C134_query_fits_iff_biggest_table hn hc hpol hev hq ho L sch ign).1
    (le_trans (biggestTable_aroundLine hn hc hl hk hout ho) hL)

/-- C135, another part that holds: if every variable has at most one parent, and variables are taken out before their
parents, then tables of `k²` entries times `k` for every variable asked for suffice. -/
theorem C135_small_tables_children_first_partial {n : Net α} (hn : n.Valid) (hc : n.AllChance) (hpol : n.policies = [])
    (hone : ∀ f ∈ n.factors, f.given.length ≤ 1) {k : Nat} (hk : 0 < k)
    (hout : ∀ v ∈ n.variables, v.outcomes.length ≤ k) {evidence : List (String × String)} (hev : n.EvidenceOK evidence)
    {query : List String} (hq : ∀ q ∈ query, ∃ v ∈ n.variables, v.name = q) {order : List Nat}
    (ho : n.TakesOut evidence query order)
    (hfirst : ∀ f ∈ n.factors, ∀ g ∈ f.given, n.place f.forVar ∈ order → n.place g ∈ order →
      List.Sublist [n.place f.forVar, n.place g] order) {L : Nat} (hL : k ^ (2 + query.length) ≤ L)
    (sch : NSched α) (ign : Bool) :
    n.solveQueryM (.memory L) sch evidence query ign = n.solveQuery sch evidence query ign :=
  (C134_query_fits_iff_biggest_table hn hc hpol hev hq ho L sch ign).1
    (le_trans (biggestTable_childrenFirst hn hc hone hk hout ho hfirst) hL)

/-- C136, the part that holds: observing more variables needs no more memory, if the others are taken out in the same
order as before. (Missing: other orders; there it is false.) -/
theorem C136_more_evidence_same_order_partial {n : Net α} (hn : n.Valid) (hc : n.AllChance) (hpol : n.policies = [])
    {evidence evidence' : List (String × String)} (hev : n.EvidenceOK evidence) (hev' : n.EvidenceOK evidence')
    (hmore : evidence.map Prod.fst ⊆ evidence'.map Prod.fst) {query : List String}
    (hq : ∀ q ∈ query, ∃ v ∈ n.variables, v.name = q) {order order' : List Nat} (ho : n.TakesOut evidence query order)
    (ho' : n.TakesOut evidence' query order') (hord : List.Sublist order' order) (L : Nat) (sch sch' : NSched α)
    (ign ign' : Bool) (hfit : (n.solveQueryM (.memory L) sch evidence query ign).1 ≠ .error (.panic "out of memory")) :
    n.solveQueryM (.memory L) sch' evidence' query ign' = n.solveQuery sch' evidence' query ign' := by
  have h1 := C134_query_fits_iff_biggest_table hn hc hpol hev hq ho L sch ign
  refine (C134_query_fits_iff_biggest_table hn hc hpol hev' hq ho' L sch' ign').1 ?_
  refine le_trans (biggestTable_more hn ho ho' hmore hord) ?_
  by_contra h
  exact hfit (h1.2 (by omega))

end Need

/-! ## Networks with at most one parent for each variable -/

/-- `N` variables with two outcomes each; the parent of a variable, if any, is given by a function. All rows of all
tables are even. -/
def Ex.forest (N : Nat) (parent : Nat → Option Nat) : Net ℚ where
  name := "forest"
  info := ""
  «variables» := (List.range N).map (fun i =>
    { name := Nat.repr i, nodeType := .chance, outcomes := ["yes", "no"], position := (0, 0), color := "",
      factor := some i })
  factors := (List.range N).map (fun i =>
    { forVar := Nat.repr i, given := (parent i).toList.map Nat.repr,
      table := some (List.replicate (2 ^ ((parent i).toList.length + 1)) (1 / 2)),
      outcomes := (parent i).toList.map (fun _ => 2), columns := 2 })
  policies := []
  vs := none
  names := []
  totalUtility := none

section Forest

variable {N : Nat} {parent : Nat → Option Nat}

theorem Ex.forest_get (i : Nat) (h : i < N) : (Ex.forest N parent).variables[i]? = some
    { name := Nat.repr i, nodeType := .chance, outcomes := ["yes", "no"], position := (0, 0), color := "",
      factor := some i } := by
  simp [Ex.forest, h]

theorem Ex.forest_chance : (Ex.forest N parent).AllChance := by
  intro v hv
  simp only [Ex.forest, List.mem_map] at hv
  obtain ⟨i, _, rfl⟩ := hv
  rfl

theorem Ex.forest_outcomes : ∀ v ∈ (Ex.forest N parent).variables, v.outcomes.length = 2 := by
  intro v hv
  simp only [Ex.forest, List.mem_map] at hv
  obtain ⟨i, _, rfl⟩ := hv
  rfl

theorem Ex.forest_one : ∀ f ∈ (Ex.forest N parent).factors, f.given.length ≤ 1 := by
  intro f hf
  simp only [Ex.forest, List.mem_map] at hf
  obtain ⟨i, _, rfl⟩ := hf
  cases parent i <;> simp

theorem Ex.forest_count (i : Nat) (h : i < N) : (Ex.forest N parent).count (Nat.repr i) = 2 := by
  unfold Net.count outcomeCount
  cases e : (Ex.forest N parent).variables.find? (fun v => v.name = Nat.repr i) with
  | none =>
    rw [List.find?_eq_none] at e
    exact absurd (e _ (List.mem_of_getElem? (Ex.forest_get i h))) (by simp)
  | some v => exact Ex.forest_outcomes v (List.mem_of_find?_eq_some e)

theorem Ex.forest_valid (hN : N ≤ 65536) (hp : ∀ i p, parent i = some p → p < i) : (Ex.forest N parent).Valid := by
  have hname : ((Ex.forest N parent).variables.map NVar.name) = (List.range N).map Nat.repr := by
    simp [Ex.forest, Function.comp_def]
  have hnd : ((List.range N).map Nat.repr).Nodup :=
    List.nodup_range.map (fun a b h => Nat.repr_injective h)
  have hmem : ∀ f ∈ (Ex.forest N parent).factors, ∃ i < N, f =
    { forVar := Nat.repr i, given := (parent i).toList.map Nat.repr,
      table := some (List.replicate (2 ^ ((parent i).toList.length + 1)) (1 / 2)),
      outcomes := (parent i).toList.map (fun _ => 2), columns := 2 } := by
    intro f hf
    simp only [Ex.forest, List.mem_map, List.mem_range] at hf
    obtain ⟨i, h, rfl⟩ := hf
    exact ⟨i, h, rfl⟩
  constructor
  · rw [hname]; exact hnd
  · intro v hv
    simp only [Ex.forest, List.mem_map, List.mem_range] at hv
    obtain ⟨i, h, rfl⟩ := hv
    exact Nat.repr_ne_empty
  · simpa [Ex.forest] using hN
  · intro v hv
    rw [Ex.forest_outcomes v hv]; omega
  · have : ((Ex.forest N parent).factors.map NFactor.forVar) = (List.range N).map Nat.repr := by
      simp [Ex.forest, Function.comp_def]
    rw [this]; exact hnd
  · intro v hv _
    simp only [Ex.forest, List.mem_map, List.mem_range] at hv ⊢
    obtain ⟨i, h, rfl⟩ := hv
    exact ⟨_, ⟨i, h, rfl⟩, rfl⟩
  · intro f hf
    obtain ⟨i, h, rfl⟩ := hmem f hf
    exact ⟨_, List.mem_of_getElem? (Ex.forest_get i h), rfl⟩
  · intro f hf
    obtain ⟨i, h, rfl⟩ := hmem f hf
    cases e : parent i with
    | none => simp [NFactor.dims, e]
    | some p =>
      have := hp i p e
      simp only [NFactor.dims, e, Option.toList_some, List.map_cons, List.map_nil, List.cons_append, List.nil_append,
        List.nodup_cons, List.mem_singleton, List.not_mem_nil, not_false_eq_true, List.nodup_nil, and_true]
      intro h
      have := Nat.repr_injective h
      omega
  · intro f hf _ g hg
    obtain ⟨i, h, rfl⟩ := hmem f hf
    simp only [List.mem_map, Option.mem_toList] at hg
    obtain ⟨p, h1, rfl⟩ := hg
    have := hp i p h1
    exact ⟨_, List.mem_of_getElem? (Ex.forest_get p (by omega)), rfl, by simp⟩
  · intro f hf _ _
    obtain ⟨i, h, rfl⟩ := hmem f hf
    refine ⟨_, rfl, ?_⟩
    rw [List.length_replicate]
    cases e : parent i with
    | none => simp [NFactor.dims, Ex.forest_count i h, e]
    | some p =>
      have := hp i p e
      simp [NFactor.dims, Ex.forest_count i h, Ex.forest_count p (by omega : p < N), e]
  · intro v hv h
    exact absurd h (by rw [Ex.forest_chance v hv]; decide)
  · intro i h
    simp [Ex.forest] at h

theorem Ex.forest_place (i : Nat) (h : i < N) (hN : N ≤ 65536) (hp : ∀ i p, parent i = some p → p < i) :
    (Ex.forest N parent).place (Nat.repr i) = i := place_eq (Ex.forest_valid hN hp) (Ex.forest_get i h)

theorem Ex.mem_forest (hN : N ≤ 65536) (hp : ∀ i p, parent i = some p → p < i) {evidence : List (String × String)}
    {s : Finset Nat} : s ∈ (Ex.forest N parent).unobserved evidence ↔ ∃ i < N, s = insert i (parent i).toFinset \
      (evidence.map (fun e => (Ex.forest N parent).place e.1)).toFinset := by
  have key : ∀ i < N, (((parent i).toList.map Nat.repr ++ [Nat.repr i]).map (Ex.forest N parent).place).toFinset =
      insert i (parent i).toFinset := by
    intro i hi
    cases e : parent i with
    | none => simp [Ex.forest_place i hi hN hp]
    | some p =>
      have := hp i p e
      simp [Ex.forest_place i hi hN hp, Ex.forest_place p (by omega : p < N) hN hp, Finset.pair_comm]
  have hm : s ∈ (Ex.forest N parent).unobserved evidence ↔ ∃ f ∈ (Ex.forest N parent).factors,
      (f.dims.map (Ex.forest N parent).place).toFinset \
        (evidence.map (fun e => (Ex.forest N parent).place e.1)).toFinset = s := by
    simp [Net.unobserved, Net.families]
  rw [hm]
  constructor
  · rintro ⟨f, hf, rfl⟩
    obtain ⟨i, hi, rfl⟩ := List.mem_map.1 hf
    rw [List.mem_range] at hi
    exact ⟨i, hi, by rw [← key i hi]; rfl⟩
  · rintro ⟨i, hi, rfl⟩
    exact ⟨_, List.mem_map.2 ⟨i, List.mem_range.2 hi, rfl⟩, by rw [← key i hi]; rfl⟩

end Forest

/-- Parents in a tree with a root, `m` children of it, and `m` children of each of these. -/
def Ex.above (m : Nat) (i : Nat) : Option Nat := if i = 0 then none else some ((i - 1) / m)

theorem Ex.above_lt (m i p : Nat) (h : Ex.above m i = some p) : p < i := by
  unfold Ex.above at h
  split at h
  · simp at h
  · have := Option.some.inj h
    have := Nat.div_le_self (i - 1) m
    omega

/-- C135 fails: for every `m` up to 255 there is a tree of `1 + m + m²` variables with two outcomes each, so that no
given table has more than four entries, and a query for a single variable without evidence that needs a table of
`2 ^ (m + 1)` entries. No computer has room for `2 ^ 256`. -/
theorem C135_small_tables_in_trees_refuted (m : Nat) (hm : 0 < m) (hm' : m ≤ 255) :
    ∃ n : Net ℚ, n.Valid ∧ n.AllChance ∧ n.policies = [] ∧ n.variables.length = 1 + m + m * m ∧
      (∀ v ∈ n.variables, v.outcomes.length = 2) ∧ (∀ f ∈ n.factors, f.given.length ≤ 1 ∧ f.tab.length ≤ 4) ∧
      ∃ v ∈ n.variables, ∀ L < 2 ^ (m + 1), ∀ (sch : NSched ℚ) (ign : Bool),
        (n.solveQueryM (.memory L) sch [] [v.name] ign).1 = .error (.panic "out of memory") := by
  have hN : 1 + m + m * m ≤ 65536 := by nlinarith
  set N := 1 + m + m * m with hNdef
  have hp := Ex.above_lt m
  have hv := Ex.forest_valid (parent := Ex.above m) hN hp
  set n := Ex.forest N (Ex.above m) with hn
  refine ⟨n, hv, Ex.forest_chance, rfl, by simp [hn, Ex.forest], Ex.forest_outcomes, ?_, _,
    List.mem_of_getElem? (Ex.forest_get (m + m * m) (by omega)), ?_⟩
  · intro f hf
    refine ⟨Ex.forest_one f hf, ?_⟩
    obtain ⟨i, _, rfl⟩ := List.mem_map.1 hf
    cases Ex.above m i <;> simp [NFactor.tab]
  intro L hL sch ign
  have hmm := Nat.le_mul_of_pos_left m hm
  obtain ⟨o, ho⟩ := exists_takesOut n [] [Nat.repr (m + m * m)]
  have hin : ∀ i ≤ m, i ∈ o := by
    intro i hi
    refine (ho.mem i).2 ⟨_, Ex.forest_get i (by omega), by simp, ?_⟩
    simp only [List.mem_singleton]
    intro h
    have := Nat.repr_injective h
    omega
  refine (C134_query_fits_iff_biggest_table hv Ex.forest_chance rfl ⟨by simp, by simp⟩ (by
    intro q hq
    exact ⟨_, List.mem_of_getElem? (Ex.forest_get (m + m * m) (by omega)), (List.mem_singleton.1 hq).symm⟩) ho L sch
    ign).2 (lt_of_lt_of_le hL ?_)
  have hmem : ∀ {s}, s ∈ n.unobserved [] ↔ ∃ i < N, s = insert i (Ex.above m i).toFinset := by
    intro s
    simpa using Ex.mem_forest (s := s) (evidence := []) hN hp
  -- the root has fewer neighbours than its children
  have hroot : (around 0 (n.unobserved [])).card ≤ m + 1 := by
    have : around 0 (n.unobserved []) ⊆ Finset.range (m + 1) := by
      intro a ha
      obtain ⟨s, s1, s2, s3⟩ := mem_around.1 ha
      obtain ⟨i, hi, rfl⟩ := hmem.1 s1
      rw [Finset.mem_range]
      unfold Ex.above at s2 s3
      by_cases h0 : i = 0
      · subst h0
        simp at s3
        omega
      · simp only [h0, if_false, Option.toFinset_some, Finset.mem_insert, Finset.mem_singleton] at s2 s3
        have h1 : (i - 1) / m = 0 := by
          rcases s2 with h | h
          · exact absurd h.symm h0
          · exact h.symm
        rw [Nat.div_eq_zero_iff] at h1
        rcases s3 with h | h <;> omega
    exact le_trans (Finset.card_le_card this) (by simp)
  have hchild : ∀ a, 1 ≤ a → a ≤ m → m + 2 ≤ (around a (n.unobserved [])).card := by
    intro a ha ha'
    have hsub : insert 0 (insert a ((Finset.range m).image (fun j => m * a + 1 + j))) ⊆ around a (n.unobserved []) := by
      intro x hx
      rw [mem_around]
      have hself : insert a (Ex.above m a).toFinset ∈ n.unobserved [] := hmem.2 ⟨a, by omega, rfl⟩
      have h0 : Ex.above m a = some 0 := by
        unfold Ex.above
        rw [if_neg (by omega), Nat.div_eq_of_lt (by omega)]
      rcases Finset.mem_insert.1 hx with rfl | hx
      · exact ⟨_, hself, by simp, by simp [h0]⟩
      rcases Finset.mem_insert.1 hx with rfl | hx
      · exact ⟨_, hself, by simp, by simp⟩
      obtain ⟨j, hj, rfl⟩ := Finset.mem_image.1 hx
      rw [Finset.mem_range] at hj
      have hb : m * a ≤ m * m := Nat.mul_le_mul_left m ha'
      refine ⟨_, hmem.2 ⟨m * a + 1 + j, by omega, rfl⟩, ?_, by simp⟩
      have : Ex.above m (m * a + 1 + j) = some a := by
        unfold Ex.above
        rw [if_neg (by omega)]
        congr 1
        rw [show m * a + 1 + j - 1 = j + m * a by omega, Nat.add_mul_div_left _ _ hm, Nat.div_eq_of_lt hj]
        omega
      simp [this]
    refine le_trans ?_ (Finset.card_le_card hsub)
    have hma : a ≤ m * a := Nat.le_mul_of_pos_left a hm
    rw [Finset.card_insert_of_notMem, Finset.card_insert_of_notMem, Finset.card_image_of_injective, Finset.card_range]
    · intro x y h
      simpa using h
    · simp only [Finset.mem_image, Finset.mem_range, not_exists, not_and]
      intros; omega
    · simp only [Finset.mem_insert, Finset.mem_image, Finset.mem_range, not_or, not_exists, not_and]
      exact ⟨by omega, by intros; omega⟩
  -- so it is taken out first
  obtain ⟨before, after, e⟩ := List.append_of_mem (hin 0 (by omega))
  have hs := ho.sorted
  rw [e, List.pairwise_append] at hs
  have hb : ∀ a ∈ before, a ∉ Finset.range (m + 1) := by
    intro a ha har
    rw [Finset.mem_range] at har
    have h1 := hs.2.2 a ha 0 List.mem_cons_self
    rcases Nat.eq_zero_or_pos a with rfl | h0
    · omega
    · have := hchild a h0 (by omega)
      omega
  have hpow : entriesOver n.width (Finset.range (m + 1)) = 2 ^ (m + 1) := by
    unfold entriesOver
    rw [Finset.prod_congr rfl (g := fun _ => 2), Finset.prod_const, Finset.card_range]
    intro i hi
    rw [Finset.mem_range] at hi
    unfold Net.width
    rw [Ex.forest_get i (by omega)]
    rfl
  unfold Net.biggestTable
  rw [e, ← hpow]
  refine le_trans (biggest_before (width_pos hv) before after (T := Finset.range (m + 1)) ?_ ?_ ?_) (le_max_right _ _)
  · exact fun h => hb 0 h (by simp)
  · exact fun a ha h => hb a h ha
  · intro a ha
    rw [Finset.mem_range] at ha
    refine ⟨_, hmem.2 ⟨a, by omega, rfl⟩, ?_, by simp⟩
    by_cases h0 : a = 0
    · simp [h0]
    · have : Ex.above m a = some 0 := by
        unfold Ex.above
        rw [if_neg h0, Nat.div_eq_of_lt (by omega)]
      simp [this]

/-- Parents in a tree with a root, `c + 2` children of it, and `c` children of each of these. -/
def Ex.twoLevels (c : Nat) (i : Nat) : Option Nat :=
  if i = 0 then none else if i ≤ c + 2 then some 0 else some ((i - (c + 3)) / c + 1)

theorem Ex.twoLevels_lt (c i p : Nat) (h : Ex.twoLevels c i = some p) : p < i := by
  unfold Ex.twoLevels at h
  split at h
  · simp at h
  · split at h
    · have := Option.some.inj h; omega
    · have := Option.some.inj h
      have := Nat.div_le_self (i - (c + 3)) c
      omega

/-- C136 fails: for every `c` from 2 to 250 there is a tree of variables with two outcomes each, and a query without
evidence that needs tables of at most eight entries, while with one observed variable it needs one of `2 ^ (c + 2)`. -/
theorem C136_more_evidence_less_memory_refuted (c : Nat) (hc : 2 ≤ c) (hc' : c ≤ 250) :
    ∃ n : Net ℚ, n.Valid ∧ n.AllChance ∧ n.policies = [] ∧ ∃ evidence : List (String × String), n.EvidenceOK evidence ∧
      evidence.length = 1 ∧ ∃ v ∈ n.variables, ∀ (sch : NSched ℚ) (ign : Bool),
        n.solveQueryM (.memory 8) sch [] [v.name] ign = n.solveQuery sch [] [v.name] ign ∧
        ∀ L < 2 ^ (c + 2), (n.solveQueryM (.memory L) sch evidence [v.name] ign).1 = .error (.panic "out of memory") := by
  have hN : 1 + (c + 2) + (c + 2) * c ≤ 65536 := by nlinarith
  set N := 1 + (c + 2) + (c + 2) * c with hNdef
  have hp := Ex.twoLevels_lt c
  have hv := Ex.forest_valid (parent := Ex.twoLevels c) hN hp
  set n := Ex.forest N (Ex.twoLevels c) with hn
  have hcc : c ≤ (c + 2) * c := Nat.le_mul_of_pos_left c (by omega)
  have hNone : N - 1 < N := by omega
  have hev : n.EvidenceOK [("1", "yes")] := ⟨by simp, fun e he => ⟨_, List.mem_of_getElem? (Ex.forest_get 1 (by omega)), by
    rw [List.mem_singleton.1 he]; exact ⟨rfl, by decide, by decide⟩⟩⟩
  refine ⟨n, hv, Ex.forest_chance, rfl, [("1", "yes")], hev, rfl, _, List.mem_of_getElem? (Ex.forest_get (N - 1) hNone),
    ?_⟩
  intro sch ign
  have hq : ∀ q ∈ [Nat.repr (N - 1)], ∃ v ∈ n.variables, v.name = q := by
    intro q hq
    exact ⟨_, List.mem_of_getElem? (Ex.forest_get (N - 1) hNone), (List.mem_singleton.1 hq).symm⟩
  have hplace : ∀ i < N, n.place (Nat.repr i) = i := fun i hi => Ex.forest_place i hi hN hp
  -- parents
  have hpar1 : ∀ a, 1 ≤ a → a ≤ c + 2 → Ex.twoLevels c a = some 0 := by
    intro a h1 h2
    unfold Ex.twoLevels
    rw [if_neg (by omega), if_pos h2]
  have hpar2 : ∀ a j, 1 ≤ a → j < c → Ex.twoLevels c (c + 3 + c * (a - 1) + j) = some a := by
    intro a j h1 h2
    unfold Ex.twoLevels
    rw [if_neg (by omega), if_neg (by omega)]
    congr 1
    rw [show c + 3 + c * (a - 1) + j - (c + 3) = j + c * (a - 1) by omega, Nat.add_mul_div_left _ _ (by omega),
      Nat.div_eq_of_lt h2]
    omega
  have hleafN : ∀ a j, 1 ≤ a → a ≤ c + 2 → j < c → c + 3 + c * (a - 1) + j < N := by
    intro a j h1 h2 h3
    have : c * (a - 1) ≤ c * (c + 1) := Nat.mul_le_mul_left c (by omega)
    have : (c + 2) * c = c * (c + 1) + c := by ring
    omega
  have hparle : ∀ i p, i < N → c + 2 < i → Ex.twoLevels c i = some p → 1 ≤ p ∧ p ≤ c + 2 := by
    intro i p hi h1 h2
    unfold Ex.twoLevels at h2
    rw [if_neg (by omega), if_neg (by omega)] at h2
    have := Option.some.inj h2
    have : (i - (c + 3)) / c < c + 2 := by
      rw [Nat.div_lt_iff_lt_mul (by omega)]
      omega
    generalize (i - (c + 3)) / c = d at *
    omega
  -- neighbours
  have hmem : ∀ {evidence : List (String × String)} {s : Finset Nat}, s ∈ n.unobserved evidence ↔
      ∃ i < N, s = insert i (Ex.twoLevels c i).toFinset \ (evidence.map (fun e => n.place e.1)).toFinset :=
    Ex.mem_forest hN hp
  have hmidlo : ∀ evidence : List (String × String), (∀ x ∈ evidence.map (fun e => n.place e.1), x = 1) → ∀ a, 1 ≤ a →
      a ≤ c + 2 → a ∉ evidence.map (fun e => n.place e.1) → c + 2 ≤ (around a (n.unobserved evidence)).card := by
    intro evidence hE a ha ha' haE
    have hno : ∀ x, x ≠ 1 → x ∉ (evidence.map (fun e => n.place e.1)).toFinset := fun x hx h =>
      hx (hE x (List.mem_toFinset.1 h))
    have haE' : a ∉ (evidence.map (fun e => n.place e.1)).toFinset := fun h => haE (List.mem_toFinset.1 h)
    have hsub : insert 0 (insert a ((Finset.range c).image (fun j => c + 3 + c * (a - 1) + j))) ⊆
        around a (n.unobserved evidence) := by
      intro x hx
      rw [mem_around]
      have hself := hmem (evidence := evidence).2 ⟨a, by omega, rfl⟩
      rw [hpar1 a ha ha'] at hself
      rcases Finset.mem_insert.1 hx with rfl | hx
      · exact ⟨_, hself, Finset.mem_sdiff.2 ⟨by simp, haE'⟩, Finset.mem_sdiff.2 ⟨by simp, hno 0 (by omega)⟩⟩
      rcases Finset.mem_insert.1 hx with rfl | hx
      · exact ⟨_, hself, Finset.mem_sdiff.2 ⟨by simp, haE'⟩, Finset.mem_sdiff.2 ⟨by simp, haE'⟩⟩
      obtain ⟨j, hj, rfl⟩ := Finset.mem_image.1 hx
      rw [Finset.mem_range] at hj
      have hchild := hmem (evidence := evidence).2 ⟨_, hleafN a j ha ha' hj, rfl⟩
      rw [hpar2 a j ha hj] at hchild
      exact ⟨_, hchild, Finset.mem_sdiff.2 ⟨by simp, haE'⟩, Finset.mem_sdiff.2 ⟨by simp, hno _ (by omega)⟩⟩
    refine le_trans ?_ (Finset.card_le_card hsub)
    rw [Finset.card_insert_of_notMem, Finset.card_insert_of_notMem, Finset.card_image_of_injective, Finset.card_range]
    · intro x y h
      simpa using h
    · simp only [Finset.mem_image, Finset.mem_range, not_exists, not_and]
      intros; omega
    · simp only [Finset.mem_insert, Finset.mem_image, Finset.mem_range, not_or, not_exists, not_and]
      exact ⟨by omega, by intros; omega⟩
  have hset : ∀ {evidence : List (String × String)} {a x : Nat}, x ∈ around a (n.unobserved evidence) →
      x ∉ evidence.map (fun e => n.place e.1) ∧ ∃ i < N, (a = i ∨ Ex.twoLevels c i = some a) ∧
        (x = i ∨ Ex.twoLevels c i = some x) := by
    intro evidence a x hx
    obtain ⟨s, s1, s2, s3⟩ := mem_around.1 hx
    obtain ⟨i, hi, rfl⟩ := hmem.1 s1
    simp only [Finset.mem_sdiff, Finset.mem_insert, Option.mem_toFinset, Option.mem_def, List.mem_toFinset] at s2 s3
    exact ⟨s3.2, i, hi, s2.1, s3.1⟩
  constructor
  · obtain ⟨o, ho⟩ := exists_takesOut n [] [Nat.repr (N - 1)]
    refine C135_small_tables_children_first_partial hv Ex.forest_chance rfl Ex.forest_one (k := 2) (by omega)
      (fun v hv => (Ex.forest_outcomes v hv).le) ⟨by simp, by simp⟩ hq ho ?_ (by simp) sch ign
    have hleaf : ∀ i, c + 2 < i → i < N → (around i (n.unobserved [])).card ≤ 2 := by
      intro i hi hiN
      have hsub : around i (n.unobserved []) ⊆ insert i (Ex.twoLevels c i).toFinset := by
        intro x hx
        obtain ⟨_, j, hj, h1, h2⟩ := hset hx
        have hij : i = j := by
          rcases h1 with h | h
          · exact h
          · rcases Nat.lt_or_ge (c + 2) j with h' | h'
            · have := hparle j i hj h' h
              omega
            · rcases Nat.eq_zero_or_pos j with rfl | h0
              · simp [Ex.twoLevels] at h
              · rw [hpar1 j h0 h'] at h
                have := Option.some.inj h
                omega
        subst hij
        simpa using h2
      refine le_trans (Finset.card_le_card hsub) (le_trans (Finset.card_insert_le _ _) ?_)
      cases Ex.twoLevels c i <;> simp
    have hmidhi : ∀ a, 1 ≤ a → a ≤ c + 2 → (around a (n.unobserved [])).card ≤ c + 2 := by
      intro a ha ha'
      have hsub : around a (n.unobserved []) ⊆
          insert 0 (insert a ((Finset.range c).image (fun j => c + 3 + c * (a - 1) + j))) := by
        intro x hx
        obtain ⟨_, j, hj, h1, h2⟩ := hset hx
        rcases h1 with rfl | h
        · rw [hpar1 a ha ha'] at h2
          rcases h2 with rfl | h2
          · simp
          · simp [← Option.some.inj h2]
        · have hjc : c + 2 < j := by
            by_contra h'
            rcases Nat.eq_zero_or_pos j with rfl | h0
            · simp [Ex.twoLevels] at h
            · rw [hpar1 j h0 (by omega)] at h
              have := Option.some.inj h
              omega
          rcases h2 with rfl | h2
          · refine Finset.mem_insert_of_mem (Finset.mem_insert_of_mem (Finset.mem_image.2 ⟨(x - (c + 3)) % c, ?_, ?_⟩))
            · exact Finset.mem_range.2 (Nat.mod_lt _ (by omega))
            · unfold Ex.twoLevels at h
              rw [if_neg (by omega), if_neg (by omega)] at h
              have h3 := Option.some.inj h
              have h4 := Nat.div_add_mod (x - (c + 3)) c
              rw [show a - 1 = (x - (c + 3)) / c by generalize (x - (c + 3)) / c = d at *; omega]
              generalize c * ((x - (c + 3)) / c) = d at *
              generalize (x - (c + 3)) % c = e at *
              omega
          · rw [h] at h2
            simp [Option.some.inj h2]
      refine le_trans (Finset.card_le_card hsub) (le_trans (Finset.card_insert_le _ _) ?_)
      have h1 := Finset.card_insert_le a ((Finset.range c).image (fun j => c + 3 + c * (a - 1) + j))
      have h2 : ((Finset.range c).image (fun j => c + 3 + c * (a - 1) + j)).card ≤ c :=
        le_trans Finset.card_image_le (by simp)
      omega
    have hroot : c + 3 ≤ (around 0 (n.unobserved [])).card := by
      have hsub : Finset.range (c + 3) ⊆ around 0 (n.unobserved []) := by
        intro x hx
        rw [Finset.mem_range] at hx
        refine mem_around.2 ⟨_, hmem.2 ⟨x, by omega, rfl⟩, ?_, by simp⟩
        rcases Nat.eq_zero_or_pos x with rfl | h0
        · simp
        · simp [hpar1 x h0 (by omega)]
      simpa using Finset.card_le_card hsub
    intro f hf g hg hfo hgo
    obtain ⟨i, hi, rfl⟩ := List.mem_map.1 hf
    rw [List.mem_range] at hi
    simp only [List.mem_map, Option.mem_toList] at hg
    obtain ⟨p, hip, rfl⟩ := hg
    have hpi := hp i p hip
    simp only [hplace i hi, hplace p (by omega)] at hfo hgo ⊢
    have hlt : (around i (n.unobserved [])).card < (around p (n.unobserved [])).card := by
      rcases Nat.lt_or_ge (c + 2) i with h | h
      · obtain ⟨h1, h2⟩ := hparle i p hi h hip
        have := hleaf i h hi
        have := hmidlo [] (by simp) p h1 h2 (by simp)
        omega
      · have hi0 : i ≠ 0 := by rintro rfl; omega
        rw [hpar1 i (by omega) h] at hip
        have := Option.some.inj hip
        subst this
        have := hmidhi i (by omega) h
        omega
    obtain ⟨before, after, e⟩ := List.append_of_mem hgo
    have hs := ho.sorted
    rw [e, List.pairwise_append] at hs
    rw [e] at hfo ⊢
    rcases List.mem_append.1 hfo with h | h
    · exact (List.singleton_sublist.2 h).append (List.singleton_sublist.2 List.mem_cons_self)
    · rcases List.mem_cons.1 h with h | h
      · omega
      · have := List.rel_of_pairwise_cons hs.2.1 h
        omega
  · intro L hL
    obtain ⟨o, ho⟩ := exists_takesOut n [("1", "yes")] [Nat.repr (N - 1)]
    refine (C134_query_fits_iff_biggest_table hv Ex.forest_chance rfl hev hq ho L sch ign).2 (lt_of_lt_of_le hL ?_)
    have h1 : n.place "1" = 1 := hplace 1 (by omega)
    have hname : ∀ i, i < N → i ≠ 1 → Nat.repr i ≠ "1" := fun i _ hi e => hi (Nat.repr_injective (n := 1) e)
    have hroot : (around 0 (n.unobserved [("1", "yes")])).card ≤ c + 2 := by
      have hsub : around 0 (n.unobserved [("1", "yes")]) ⊆ (Finset.range (c + 3)).erase 1 := by
        intro x hx
        obtain ⟨h2, j, hj, h3, h4⟩ := hset hx
        refine Finset.mem_erase.2 ⟨by simpa [h1] using h2, Finset.mem_range.2 ?_⟩
        rcases h3 with rfl | h3
        · rcases h4 with rfl | h4
          · omega
          · simp [Ex.twoLevels] at h4
        · have hjc : j ≤ c + 2 := by
            by_contra h'
            have := hparle j 0 hj (by omega) h3
            omega
          rcases h4 with rfl | h4
          · omega
          · rw [h3] at h4
            have := Option.some.inj h4
            omega
      refine le_trans (Finset.card_le_card hsub) ?_
      rw [Finset.card_erase_of_mem (by simp), Finset.card_range]
      omega
    have hin : 0 ∈ o := by
      refine (ho.mem 0).2 ⟨_, Ex.forest_get 0 (by omega), ?_, ?_⟩
      · simpa using hname 0 (by omega) (by omega)
      · simp only [List.mem_singleton]
        intro h
        have := Nat.repr_injective h
        omega
    obtain ⟨before, after, e⟩ := List.append_of_mem hin
    have hs := ho.sorted
    rw [e, List.pairwise_append] at hs
    have hb : ∀ a ∈ before, a ∉ (Finset.range (c + 3)).erase 1 := by
      intro a ha har
      obtain ⟨a1, a2⟩ := Finset.mem_erase.1 har
      rw [Finset.mem_range] at a2
      have h2 := hs.2.2 a ha 0 List.mem_cons_self
      rcases Nat.eq_zero_or_pos a with rfl | h0
      · omega
      · have := hmidlo [("1", "yes")] (by simp [h1]) a h0 (by omega) (by simpa [h1] using a1)
        omega
    have hpow : entriesOver n.width ((Finset.range (c + 3)).erase 1) = 2 ^ (c + 2) := by
      unfold entriesOver
      rw [Finset.prod_congr rfl (g := fun _ => 2), Finset.prod_const, Finset.card_erase_of_mem (by simp),
        Finset.card_range]
      · congr 1
      · intro i hi
        have := (Finset.mem_erase.1 hi).2
        rw [Finset.mem_range] at this
        unfold Net.width
        rw [Ex.forest_get i (by omega)]
        rfl
    unfold Net.biggestTable
    rw [e, ← hpow]
    refine le_trans (biggest_before (width_pos hv) before after (T := (Finset.range (c + 3)).erase 1) ?_ ?_ ?_)
      (le_max_right _ _)
    · exact fun h => hb 0 h (by simp)
    · exact fun a ha h => hb a h ha
    · intro a ha
      obtain ⟨a1, a2⟩ := Finset.mem_erase.1 ha
      rw [Finset.mem_range] at a2
      refine ⟨_, hmem.2 ⟨a, by omega, rfl⟩, ?_, ?_⟩
      · refine Finset.mem_sdiff.2 ⟨?_, by simp [h1]⟩
        rcases Nat.eq_zero_or_pos a with rfl | h0
        · simp
        · simp [hpar1 a h0 (by omega)]
      · exact Finset.mem_sdiff.2 ⟨by simp, by simpa [h1] using a1⟩

/-! ## Examples -/

/-- Parents in a hidden Markov model: the states are the even variables, each observed by the next variable. -/
def Ex.markov (i : Nat) : Option Nat := if i = 0 then none else if i % 2 = 0 then some (i - 2) else some (i - 1)

theorem Ex.markov_lt (i p : Nat) (h : Ex.markov i = some p) : p < i := by
  unfold Ex.markov at h
  split at h
  · simp at h
  · split at h <;> have := Option.some.inj h <;> omega

/-- A hidden Markov model of any length is a network around the line of its states. -/
theorem Ex.markov_line (T : Nat) :
    (Ex.forest (2 * T) Ex.markov).AroundLine ((List.range T).map (fun t => Nat.repr (2 * t))) := by
  have hmem : ∀ f ∈ (Ex.forest (2 * T) Ex.markov).factors, ∃ i < 2 * T, f.forVar = Nat.repr i ∧
      f.given = (Ex.markov i).toList.map Nat.repr := by
    intro f hf
    obtain ⟨i, hi, rfl⟩ := List.mem_map.1 hf
    exact ⟨i, List.mem_range.1 hi, rfl, rfl⟩
  have hinj : Function.Injective (fun t => Nat.repr (2 * t)) := fun a b h => by
    have := Nat.repr_injective h
    omega
  refine ⟨List.nodup_range.map hinj, Ex.forest_one, ?_, ?_⟩
  · intro f hf g hg
    obtain ⟨i, hi, _, e⟩ := hmem f hf
    rw [e] at hg
    simp only [List.mem_map, Option.mem_toList] at hg
    obtain ⟨p, h, rfl⟩ := hg
    unfold Ex.markov at h
    refine List.mem_map.2 ⟨p / 2, List.mem_range.2 ?_, ?_⟩
    · split at h
      · simp at h
      · split at h <;> have := Option.some.inj h <;> omega
    · congr 1
      split at h
      · simp at h
      · split at h <;> have := Option.some.inj h <;> omega
  · intro f hf g hg hl
    obtain ⟨i, hi, e1, e⟩ := hmem f hf
    rw [e] at hg
    rw [e1] at hl ⊢
    simp only [List.mem_map, Option.mem_toList] at hg
    obtain ⟨p, h, rfl⟩ := hg
    obtain ⟨t, ht, e2⟩ := List.mem_map.1 hl
    have := Nat.repr_injective e2
    subst this
    rw [List.mem_range] at ht
    unfold Ex.markov at h
    have ht0 : t ≠ 0 := by
      rintro rfl
      simp at h
    rw [if_neg (by omega), if_pos (by omega)] at h
    have := Option.some.inj h
    subst this
    obtain ⟨s, rfl⟩ := Nat.exists_eq_succ_of_ne_zero ht0
    have hsplit : List.range T = List.range s ++ s :: (s + 1) :: (List.range (T - (s + 2))).map (fun x => s + 2 + x) := by
      conv_lhs => rw [show T = s + (2 + (T - (s + 2))) by omega]
      rw [List.range_add, List.range_add]
      simp [List.range_succ, Function.comp_def, Nat.add_assoc]
    refine ⟨(List.range s).map (fun t => Nat.repr (2 * t)),
      ((List.range (T - (s + 2))).map (fun x => s + 2 + x)).map (fun t => Nat.repr (2 * t)), ?_⟩
    rw [hsplit, List.map_append, List.map_cons, List.map_cons, show 2 * s.succ - 2 = 2 * s by omega]

/-- A hidden Markov model with thousands of variables is answered with tables of sixteen entries. -/
example (T : Nat) (hT : T ≤ 32768) (sch : NSched ℚ) (ign : Bool) {evidence : List (String × String)}
    (hev : (Ex.forest (2 * T) Ex.markov).EvidenceOK evidence) (t : Nat) (ht : t < T) :
    (Ex.forest (2 * T) Ex.markov).solveQueryM (.memory 16) sch evidence [Nat.repr (2 * t)] ign =
      (Ex.forest (2 * T) Ex.markov).solveQuery sch evidence [Nat.repr (2 * t)] ign :=
  C135_small_tables_around_line_partial (Ex.forest_valid (by omega) Ex.markov_lt) Ex.forest_chance rfl (Ex.markov_line T)
    (k := 2) (by omega) (fun v hv => (Ex.forest_outcomes v hv).le) hev
    (by
      intro q hq
      exact ⟨_, List.mem_of_getElem? (Ex.forest_get (2 * t) (by omega)), (List.mem_singleton.1 hq).symm⟩)
    (by simp) sch ign

/-- In a tree of a root, three children and nine grandchildren, a query for the last of these takes out the other
grandchildren, then the root, then the children. The biggest table is over the root and its children. Taking out two of
the children before the root, no table would have more than four entries. -/
example : (Ex.forest 13 (Ex.above 3)).TakesOut [] ["12"] [4, 5, 6, 7, 8, 9, 10, 11, 0, 1, 2, 3] ∧
    (Ex.forest 13 (Ex.above 3)).biggestTable [] [4, 5, 6, 7, 8, 9, 10, 11, 0, 1, 2, 3] = 16 ∧
    (Ex.forest 13 (Ex.above 3)).biggestTable [] [4, 5, 6, 7, 8, 9, 10, 11, 1, 2, 0, 3] = 4 := by
  refine ⟨⟨?_, by decide +kernel⟩, by decide +kernel, by decide +kernel⟩
  intro i
  by_cases hi : i < 13
  · rw [Ex.forest_get i hi]
    have h : ∀ i < 13, i ∈ [4, 5, 6, 7, 8, 9, 10, 11, 0, 1, 2, 3] ↔ Nat.repr i ∉ ["12"] := by decide +kernel
    rw [h i hi]
    simp
  · have : (Ex.forest 13 (Ex.above 3)).variables[i]? = none := by
      simp [Ex.forest]; omega
    simp [this]
    omega

/-- The sprinkler network: a query for one variable needs the biggest given table, of eight entries. -/
example : (Ex.spr.solveQueryM (.memory 8) Ex.back [] ["Sprinkler"] false).1.toOption =
      (Ex.spr.solveQuery Ex.back [] ["Sprinkler"] false).1.toOption ∧
    (Ex.spr.solveQuery Ex.back [] ["Sprinkler"] false).1.toOption ≠ none ∧
    (Ex.spr.solveQueryM (.memory 7) Ex.back [] ["Sprinkler"] false).1.toOption = none := by
  decide +kernel

/-- It meets the conditions. -/
example (L : Nat) (hL : L < 8) (sch : NSched ℚ) (ign : Bool) :
    (Ex.spr.solveQueryM (.memory L) sch Ex.wet ["Sprinkler"] ign).1 = .error (.panic "out of memory") := by
  have ho : Ex.spr.TakesOut Ex.wet ["Sprinkler"] [0] := ⟨fun i => by
    match i with
    | 0 => simp [Ex.spr, Ex.wet]
    | 1 => simp [Ex.spr]
    | 2 => simp [Ex.spr, Ex.wet]
    | i + 3 => simp [Ex.spr], by decide +kernel⟩
  have h8 : Ex.spr.biggestTable Ex.wet [0] = 8 := by decide +kernel
  exact (C134_query_fits_iff_biggest_table Ex.spr_valid (by unfold Net.AllChance; decide) rfl Ex.wet_ok (by decide) ho L sch
    ign).2 (by omega)

/-- Observing the grass needs no more memory than observing nothing. -/
example (L : Nat) (sch sch' : NSched ℚ) (ign ign' : Bool)
    (hfit : (Ex.spr.solveQueryM (.memory L) sch [] ["Sprinkler"] ign).1 ≠ .error (.panic "out of memory")) :
    Ex.spr.solveQueryM (.memory L) sch' Ex.wet ["Sprinkler"] ign' = Ex.spr.solveQuery sch' Ex.wet ["Sprinkler"] ign' := by
  have ho : Ex.spr.TakesOut [] ["Sprinkler"] [0, 2] := ⟨fun i => by
    match i with
    | 0 => simp [Ex.spr]
    | 1 => simp [Ex.spr]
    | 2 => simp [Ex.spr]
    | i + 3 => simp [Ex.spr], by decide +kernel⟩
  have ho' : Ex.spr.TakesOut Ex.wet ["Sprinkler"] [0] := ⟨fun i => by
    match i with
    | 0 => simp [Ex.spr, Ex.wet]
    | 1 => simp [Ex.spr]
    | 2 => simp [Ex.spr, Ex.wet]
    | i + 3 => simp [Ex.spr], by decide +kernel⟩
  exact C136_more_evidence_same_order_partial Ex.spr_valid (by unfold Net.AllChance; decide) rfl ⟨by simp, by simp⟩
    Ex.wet_ok (by simp) (by decide) ho ho' (by decide) L sch sch' ign ign' hfit

end Bbn
