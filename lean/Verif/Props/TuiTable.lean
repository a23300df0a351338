import Verif.Spec.Tui
import Verif.Model.TuiApp
import Verif.Props.TrainCsv

/-!
# The table view
-/

set_option autoImplicit false

namespace Bbn

variable {α : Type}

theorem Indexed.find {nodes : List (TNode α)} {byName : List (String × Nat)} (h : Indexed nodes byName) {s : String}
    (hs : s ∈ nodes.map (fun n => n.var.name)) :
    ∃ n, nodes[intGet byName s]? = some n ∧ n.var.name = s ∧ n.var.outcomes = nodeOutcomes nodes s := by
  cases hf : nodes.find? (fun n => n.var.name = s) with
  | none =>
    obtain ⟨n, hn, rfl⟩ := List.mem_map.1 hs
    have := List.find?_eq_none.1 hf n hn
    simp at this
  | some n =>
    have h1 := List.mem_of_find?_eq_some hf
    have h2 := List.find?_some hf
    simp only [decide_eq_true_eq] at h2
    obtain ⟨i, hi⟩ := List.mem_iff_getElem?.1 h1
    refine ⟨n, ?_, h2, by unfold nodeOutcomes; rw [hf]; rfl⟩
    unfold intGet
    rw [← h2, h i n hi]
    exact hi

theorem Indexed.outcomes {nodes : List (TNode α)} {byName : List (String × Nat)} (h : Indexed nodes byName) {i : Nat}
    {n : TNode α} (hn : nodes[i]? = some n) : nodeOutcomes nodes n.var.name = n.var.outcomes := by
  obtain ⟨m, h1, _, h3⟩ := h.find (List.mem_map_of_mem (f := fun n : TNode α => n.var.name) (List.mem_of_getElem? hn))
  have : intGet byName n.var.name = i := by unfold intGet; rw [h i n hn]; rfl
  rw [this, hn] at h1
  cases h1
  exact h3.symm

theorem stride_spec {t : TTable α} (h : Indexed t.nodes t.byName) : ∀ (l : List String) (s : Nat),
    (∀ g ∈ l, g ∈ t.nodes.map (fun n => n.var.name)) →
    t.stride l s = .ok (s * (l.map (fun g => (nodeOutcomes t.nodes g).length)).prod) := by
  intro l
  induction l with
  | nil => intro s _; simp [TTable.stride]
  | cons g l ih =>
    intro s hl
    obtain ⟨n, h1, _, h3⟩ := h.find (hl g (by simp))
    rw [TTable.stride, goGet_eq.2 h1, ok_bind, ih _ (fun g' h' => hl g' (by simp [h'])), h3]
    simp [Nat.mul_assoc]

theorem rowMajor_append (a b : List (Nat × Nat)) :
    rowMajor (a ++ b) = rowMajor a * (b.map Prod.fst).prod + rowMajor b := by
  induction a with
  | nil => simp [rowMajor]
  | cons d a ih =>
    simp only [List.cons_append, rowMajor, ih, List.map_append, List.prod_append]
    ring

/-- The digit of a row number that belongs to one dimension. -/
theorem rowMajor_digit (a b : List (Nat × Nat)) (d : Nat × Nat) (hd : d.2 < d.1) (hb : ∀ e ∈ b, e.2 < e.1) :
    rowMajor (a ++ d :: b) / (b.map Prod.fst).prod % d.1 = d.2 := by
  have h1 := rowMajor_lt b hb
  have h2 : rowMajor (a ++ d :: b) = (rowMajor a * d.1 + d.2) * (b.map Prod.fst).prod + rowMajor b := by
    rw [rowMajor_append]
    simp only [List.map_cons, List.prod_cons, rowMajor]
    ring
  rw [h2, Nat.add_comm, Nat.add_mul_div_right _ _ (by omega), Nat.div_eq_of_lt h1, Nat.zero_add, Nat.add_comm,
    Nat.add_mul_mod_self_right, Nat.mod_eq_of_lt hd]

/-- The table view of a node with the given table, and what is known of it: the index of names is right, the parents are
nodes, the table is the node's own. -/
structure Viewed (nodes : List (TNode α)) (byName : List (String × Nat)) (i : Nat) (n : TNode α) (f : NFactor α)
    (t : TTable α) : Prop where
  indexed : Indexed nodes byName
  node : nodes[i]? = some n
  table : n.factor = some f
  own : f.forVar = n.var.name
  parents : ∀ g ∈ f.given, g ∈ nodes.map (fun n => n.var.name)
  view : newTable nodes i byName = .ok t

theorem Viewed.eq {nodes : List (TNode α)} {byName : List (String × Nat)} {i : Nat} {n : TNode α} {f : NFactor α}
    {t : TTable α} (h : Viewed nodes byName i n f t) :
    t = ⟨nodes, i, byName, f.given ++ n.var.outcomes, n.var.outcomes.length⟩ := by
  have hv := h.view
  unfold newTable at hv
  have hi : intGet byName f.forVar = i := by rw [h.own]; unfold intGet; rw [h.indexed i n h.node]; rfl
  rw [goGetI_nat, goGet_eq.2 h.node, ok_bind] at hv
  unfold TNode.deref at hv
  rw [h.table] at hv
  dsimp only at hv
  rw [ok_bind, hi, goGet_eq.2 h.node, ok_bind] at hv
  cases hv
  rfl

/-- The row of the world in a node's table. -/
def worldRow (nodes : List (TNode α)) (f : NFactor α) (w : World) : Nat :=
  rowMajor (f.given.map (fun g => ((nodeOutcomes nodes g).length, w g)))

/-- **C68.** The view of a node with a table can be made, its first row has the names of the parents and outcomes. -/
theorem C68_header [Field α] [DecidableEq α] (fm : Fmt α) {nodes : List (TNode α)} {byName : List (String × Nat)}
    {i : Nat} {n : TNode α} {f : NFactor α} (h1 : Indexed nodes byName) (h2 : nodes[i]? = some n)
    (h3 : n.factor = some f) (h4 : f.forVar = n.var.name) :
    ∃ t, newTable nodes i byName = .ok t ∧ t.columnCount = f.given.length + n.var.outcomes.length ∧
      ∀ c, c < t.columnCount → t.cell fm 0 c = .ok ((f.given ++ n.var.outcomes).getD c "") := by
  have hi : intGet byName f.forVar = i := by rw [h4]; unfold intGet; rw [h1 i n h2]; rfl
  refine ⟨⟨nodes, i, byName, f.given ++ n.var.outcomes, n.var.outcomes.length⟩, ?_, ?_, ?_⟩
  · unfold newTable TNode.deref
    rw [goGetI_nat, goGet_eq.2 h2, ok_bind, h3]
    dsimp only
    rw [ok_bind, hi, goGet_eq.2 h2, ok_bind]
    rfl
  · simp [TTable.columnCount]
  · intro c hc
    unfold TTable.cell
    exact goGet_getD "" hc

/-- **C68.** In the row of a world (the row of the table, counted after the header) the cell of a parent is the
parent's outcome in this world. -/
theorem C68_parents [Field α] [DecidableEq α] (fm : Fmt α) {nodes : List (TNode α)} {byName : List (String × Nat)}
    {i : Nat} {n : TNode α} {f : NFactor α} {t : TTable α} (h : Viewed nodes byName i n f t) {w : World}
    (hw : ∀ g ∈ f.given, w g < (nodeOutcomes nodes g).length) {c : Nat} {g : String} (hc : f.given[c]? = some g) :
    t.cell fm (worldRow nodes f w + 1) c = .ok ((nodeOutcomes nodes g).getD (w g) "") := by
  obtain ⟨hlt, hg⟩ := List.getElem?_eq_some_iff.1 hc
  have hgm : g ∈ f.given := List.mem_of_getElem? hc
  have ht := h.eq
  subst ht
  obtain ⟨m, m1, m2, m3⟩ := h.indexed.find (h.parents g hgm)
  have hsplit : f.given = f.given.take c ++ g :: f.given.drop (c + 1) := by
    rw [← hg]; simp
  have hdrop : ∀ g' ∈ f.given.drop (c + 1), g' ∈ f.given := fun g' h' => List.mem_of_mem_drop h'
  have hpos : 0 < ((f.given.drop (c + 1)).map (fun g => (nodeOutcomes nodes g).length)).prod := by
    have := rowMajor_lt ((f.given.drop (c + 1)).map (fun g => ((nodeOutcomes nodes g).length, w g))) (by
        intro e he
        obtain ⟨g', h', rfl⟩ := List.mem_map.1 he
        exact hw g' (hdrop g' h'))
    rw [List.map_map] at this
    exact Nat.lt_of_le_of_lt (Nat.zero_le _) this
  have hst : TTable.stride ⟨nodes, i, byName, f.given ++ n.var.outcomes, n.var.outcomes.length⟩
      (f.given.drop (c + 1)).reverse 1 =
      .ok ((f.given.drop (c + 1)).map (fun g => (nodeOutcomes nodes g).length)).prod := by
    rw [stride_spec (t := ⟨nodes, i, byName, f.given ++ n.var.outcomes, n.var.outcomes.length⟩) h.indexed _ _
      (fun g' h' => h.parents g' (hdrop g' (List.mem_reverse.1 h')))]
    rw [Nat.one_mul, List.map_reverse, List.prod_reverse]
  have hrow : worldRow nodes f w / ((f.given.drop (c + 1)).map (fun g => (nodeOutcomes nodes g).length)).prod %
      (nodeOutcomes nodes g).length = w g := by
    unfold worldRow
    have := rowMajor_digit ((f.given.take c).map (fun g => ((nodeOutcomes nodes g).length, w g)))
      ((f.given.drop (c + 1)).map (fun g => ((nodeOutcomes nodes g).length, w g))) ((nodeOutcomes nodes g).length, w g)
      (hw g hgm) (by
        intro e he
        obtain ⟨g', h', rfl⟩ := List.mem_map.1 he
        exact hw g' (hdrop g' h'))
    rw [← List.map_cons (f := fun g => ((nodeOutcomes nodes g).length, w g)), ← List.map_append, ← hsplit, List.map_map] at this
    exact this
  unfold TTable.cell
  dsimp only
  rw [goGetI_nat, goGet_eq.2 h.node, ok_bind]
  unfold TNode.deref
  rw [h.table]
  dsimp only
  rw [ok_bind, if_pos hlt]
  unfold TTable.parentCell
  rw [hst, ok_bind, goGet_eq.2 hc, ok_bind]
  dsimp only
  rw [goGet_eq.2 m1, ok_bind, if_neg (by omega), m3, if_neg (by have := hw g hgm; omega), hrow]
  exact goGet_getD "" (hw g hgm)

/-- **C68.** In the row of a world the cell of an outcome shows the table's entry for the world and this outcome: as it
is for a utility node, otherwise as a percentage of the row's sum. -/
theorem C68_values [Field α] [DecidableEq α] (fm : Fmt α) {nodes : List (TNode α)} {byName : List (String × Nat)}
    {i : Nat} {n : TNode α} {f : NFactor α} {t : TTable α} (h : Viewed nodes byName i n f t) {w : World}
    (hw : ∀ g ∈ f.given, w g < (nodeOutcomes nodes g).length)
    (hlen : f.tab.length = (f.given.map (fun g => (nodeOutcomes nodes g).length)).prod * n.var.outcomes.length)
    {k : Nat} (hk : k < n.var.outcomes.length) :
    let entry : Nat → α := fun k => f.tab.getD
      (rowMajor (f.given.map (fun g => ((nodeOutcomes nodes g).length, w g)) ++ [(n.var.outcomes.length, k)])) 0
    let sum := ((List.range n.var.outcomes.length).map entry).sum
    t.cell fm (worldRow nodes f w + 1) (f.given.length + k) = .ok (
      if n.var.nodeType = .utility then fm.cellUtility (entry k)
      else if sum = 0 then "    NaN%" else fm.cellPercent (100 * entry k / sum)) := by
  intro entry sum
  have ht := h.eq
  subst ht
  have hlt : worldRow nodes f w < (f.given.map (fun g => (nodeOutcomes nodes g).length)).prod := by
    have := rowMajor_lt (f.given.map (fun g => ((nodeOutcomes nodes g).length, w g))) (by
        intro e he
        obtain ⟨g', h', rfl⟩ := List.mem_map.1 he
        exact hw g' h')
    rw [List.map_map] at this
    exact this
  have hle : (worldRow nodes f w + 1) * n.var.outcomes.length ≤ f.tab.length := by
    rw [hlen]; exact Nat.mul_le_mul_right _ hlt
  have hent : ∀ k, entry k = f.tab.getD (worldRow nodes f w * n.var.outcomes.length + k) 0 := by
    intro k
    show f.tab.getD _ 0 = _
    rw [rowMajor_snoc]
    rfl
  have hmul : (worldRow nodes f w + 1) * n.var.outcomes.length = worldRow nodes f w * n.var.outcomes.length + n.var.outcomes.length := by
    ring
  have hvals : ∃ vs, goSlice f.tab (worldRow nodes f w * n.var.outcomes.length : Nat)
      ((worldRow nodes f w + 1) * n.var.outcomes.length : Nat) = .ok vs ∧
      vs = (List.range n.var.outcomes.length).map entry := by
    refine ⟨_, ?_, rfl⟩
    unfold goSlice
    rw [if_pos (by constructor <;> [skip; constructor] <;> omega)]
    congr 1
    apply List.ext_getElem?
    intro j
    rw [List.getElem?_map, List.getElem?_take, List.getElem?_drop]
    rw [Int.toNat_natCast, Int.toNat_natCast, hmul, Nat.add_sub_cancel_left]
    split_ifs with hj
    · rw [List.getElem?_range hj, Option.map_some, hent j, List.getElem?_eq_getElem (by omega), getD_eq _ _ _ (by omega)]
    · rw [List.getElem?_eq_none (by simpa using hj)]
      rfl
  obtain ⟨vs, hs, rfl⟩ := hvals
  have hget : goGet ((List.range n.var.outcomes.length).map entry) k = .ok (entry k) := by
    rw [goGet_eq]; simp [hk]
  unfold TTable.cell
  dsimp only
  rw [goGetI_nat, goGet_eq.2 h.node, ok_bind]
  unfold TNode.deref
  rw [h.table]
  dsimp only
  rw [ok_bind, if_neg (by omega)]
  unfold TTable.valueCell
  dsimp only
  rw [hs, ok_bind, Nat.add_sub_cancel_left, hget, ok_bind, goSum_list]
  show (if n.var.nodeType = .utility then _ else if sum = 0 then _ else _) = _
  split_ifs <;> rfl

/-- **C68.** The view has, after the header, one row for each joint outcome of the parents: each row is the row of a
world. -/
theorem C68_rows {nodes : List (TNode α)} {byName : List (String × Nat)}
    {i : Nat} {n : TNode α} {f : NFactor α} {t : TTable α} (h : Viewed nodes byName i n f t) (hn : n.var.outcomes ≠ [])
    (hg : f.given.Nodup)
    (hlen : f.tab.length = (f.given.map (fun g => (nodeOutcomes nodes g).length)).prod * n.var.outcomes.length) :
    t.rowCount = .ok ((f.given.map (fun g => (nodeOutcomes nodes g).length)).prod + 1) ∧
    ∀ r < (f.given.map (fun g => (nodeOutcomes nodes g).length)).prod,
      ∃ w : World, (∀ g ∈ f.given, w g < (nodeOutcomes nodes g).length) ∧ worldRow nodes f w = r := by
  have hpos : 0 < n.var.outcomes.length := List.length_pos_iff.2 hn
  have ht := h.eq
  subst ht
  refine ⟨?_, fun r hr => rowMajor_surj (fun g => (nodeOutcomes nodes g).length) f.given hg r hr⟩
  unfold TTable.rowCount
  dsimp only
  rw [goGetI_nat, goGet_eq.2 h.node, ok_bind]
  unfold TNode.deref
  rw [h.table]
  dsimp only
  rw [ok_bind, if_neg (by omega), hlen, Nat.mul_div_cancel _ hpos]
  rfl

namespace Ex

/-- Formats that only tell the few numbers of the example apart. -/
def fm : Fmt ℚ where
  full x := if x = 1 then 10 else 2
  fracIdx _ := 0
  percent x := if x = 1 then "100.000" else " 20.000"
  utility _ := "       5.000"
  cellUtility _ := "    5.000"
  cellPercent x := if x = 25 then " 25.000%" else if x = 75 then " 75.000%" else "?"

def tn (v : NVar) (f : NFactor ℚ) : TNode ℚ := ⟨v, some f, nodeBounds v, [], 0⟩

/-- Two parents with two and three outcomes, and their child. -/
def lawn : List (TNode ℚ) := [
  tn (nv "Rain" .chance ["rain", "dry"]) (nf "Rain" [] [1, 3]),
  tn (nv "Hose" .chance ["off", "low", "high"]) (nf "Hose" [] [1, 1, 2]),
  tn (nv "Wet" .chance ["wet", "not"]) (nf "Wet" ["Rain", "Hose"] [1, 1, 1, 1, 1, 1, 1, 1, 1, 3, 1, 1])]

def lawnIndex : List (String × Nat) := [("Rain", 0), ("Hose", 1), ("Wet", 2)]

end Ex

/-- The hypotheses of C68 can be met; the row of the world "dry, low" is the fifth. -/
example : ∃ n f t, Viewed Ex.lawn Ex.lawnIndex 2 n f t ∧ f.given.Nodup ∧ n.var.outcomes ≠ [] ∧
    f.tab.length = (f.given.map (fun g => (nodeOutcomes Ex.lawn g).length)).prod * n.var.outcomes.length ∧
    worldRow Ex.lawn f (fun _ => 1) = 4 ∧
    (List.range 4).map (t.cell Ex.fm 5) = [.ok "dry", .ok "low", .ok " 25.000%", .ok " 75.000%"] := by
  refine ⟨_, _, _, ⟨?_, rfl, rfl, by decide, by decide, rfl⟩, by decide, by decide, by decide, by decide, by decide +kernel⟩
  intro i n hn
  match i, hn with
  | 0, rfl => rfl
  | 1, rfl => rfl
  | 2, rfl => rfl

end Bbn
