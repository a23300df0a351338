import Verif.Spec.Tui
import Verif.Model.TuiApp
import Verif.Lemmas.Trim
import Verif.Props.TrainCsv

/-!
# The interactive app: evidence arguments, rectangles, the no-data option
-/

set_option autoImplicit false

namespace Bbn

variable {α : Type}

/-! ## C66 -/

theorem goSplit_iff {e : String} {c : Char} {k v : String} :
    goSplit e c = [k, v] ↔ e.toList = k.toList ++ c :: v.toList ∧ c ∉ k.toList ∧ c ∉ v.toList := by
  unfold goSplit
  constructor
  · intro h
    obtain ⟨h1, h2⟩ := splitChars_join c e.toList
    cases hs : splitChars c e.toList with
    | nil => rw [hs] at h; simp at h
    | cons a l =>
      cases l with
      | nil => rw [hs] at h; simp at h
      | cons b l =>
        rw [hs] at h h1 h2
        simp only [List.map_cons, List.cons.injEq, List.map_eq_nil_iff] at h
        obtain ⟨rfl, rfl, rfl⟩ := h
        refine ⟨?_, ?_, ?_⟩
        · rw [← h1]; simp [List.intercalate]
        · simpa using h2 a (by simp)
        · simpa using h2 b (by simp)
  · rintro ⟨h, hk, hv⟩
    rw [h, splitChars_append hk, splitChars_none hv]
    simp

theorem goSplit_length (e : String) (c : Char) : (goSplit e c).length = e.toList.count c + 1 := by
  unfold goSplit
  rw [List.length_map, splitChars_length]

/-- One step of `parseEvidence`. -/
theorem parseStep (ev : List (String × String)) (e : String) :
    (∃ k v, e.toList = k.toList ++ '=' :: v.toList ∧ '=' ∉ k.toList ∧ '=' ∉ v.toList ∧
      parseEntry ev e = .ok (mapSet ev k v)) ∨
    (e.toList.count '=' ≠ 1 ∧ parseEntry ev e = .error (.error "syntax error in evidence")) := by
  have hl := goSplit_length e '='
  unfold parseEntry
  cases h : goSplit e '=' with
  | nil => rw [h] at hl; simp at hl
  | cons a l =>
    cases l with
    | nil => right; rw [h] at hl; simp only [List.length_cons, List.length_nil] at hl; exact ⟨by omega, rfl⟩
    | cons b l =>
      cases l with
      | nil => left; obtain ⟨x, y, z⟩ := goSplit_iff.1 h; exact ⟨a, b, x, y, z, rfl⟩
      | cons d l => right; rw [h] at hl; simp only [List.length_cons] at hl; exact ⟨by omega, rfl⟩

theorem count_entry {k v : List Char} {c : Char} (hk : c ∉ k) (hv : c ∉ v) : (k ++ c :: v).count c = 1 := by
  rw [List.count_append, List.count_cons_self, List.count_eq_zero.2 hk, List.count_eq_zero.2 hv]

theorem entry_inj {k v k' v' : List Char} {c : Char} (hk : c ∉ k) (hk' : c ∉ k')
    (h : k ++ c :: v = k' ++ c :: v') : k = k' ∧ v = v' := by
  have h1 := splitChars_append (c := c) (a := k) (b := v) hk
  rw [h, splitChars_append hk'] at h1
  injection h1 with a _
  subst a
  exact ⟨rfl, by simpa using h⟩

/-- **C66.** A list of evidence arguments is accepted if and only if each entry has exactly one `=`; otherwise there is
an error. -/
theorem C66_accepted (args : List String) :
    ((∃ m, parseEvidence args = .ok m) ↔ ∀ e ∈ args, e.toList.count '=' = 1) ∧
    ((¬ ∀ e ∈ args, e.toList.count '=' = 1) → Errors (parseEvidence args)) := by
  have main : ∀ (args : List String) (ev : List (String × String)),
      ((∀ e ∈ args, e.toList.count '=' = 1) → ∃ m, args.foldlM parseEntry ev = .ok m) ∧
      ((¬ ∀ e ∈ args, e.toList.count '=' = 1) → args.foldlM parseEntry ev = .error (.error "syntax error in evidence")) := by
    intro args
    induction args with
    | nil => intro ev; exact ⟨fun _ => ⟨ev, rfl⟩, fun h => absurd (by simp) h⟩
    | cons e es ih =>
      intro ev
      rw [List.foldlM_cons]
      rcases parseStep ev e with ⟨k, v, he, hk, hv, hs⟩ | ⟨he, hs⟩
      · rw [hs, ok_bind]
        have h1 : e.toList.count '=' = 1 := by rw [he]; exact count_entry hk hv
        refine ⟨fun h => (ih _).1 (fun e' h' => h e' (by simp [h'])), fun h => (ih _).2 (fun h' => h ?_)⟩
        intro e' he'
        rcases List.mem_cons.1 he' with rfl | he'
        · exact h1
        · exact h' e' he'
      · rw [hs]
        exact ⟨fun h => absurd (h e (by simp)) he, fun _ => rfl⟩
  refine ⟨⟨fun ⟨m, hm⟩ => ?_, (main args []).1⟩, fun h => ⟨_, (main args []).2 h⟩⟩
  by_contra h
  have := (main args []).2 h
  unfold parseEvidence at hm
  rw [hm] at this
  cases this

/-- **C66.** In the map of accepted arguments a key has a value if and only if some entry is `key=value`, and no later
entry begins with `key=`. -/
theorem C66_values {args : List String} {m : List (String × String)} (h : parseEvidence args = .ok m) (k v : String) :
    mapGet m k = some v ↔ ∃ before after, args = before ++ (k ++ "=" ++ v) :: after ∧
      '=' ∉ k.toList ∧ '=' ∉ v.toList ∧ ∀ e ∈ after, ¬ (k ++ "=").toList <+: e.toList := by
  induction args using List.reverseRecOn generalizing m v with
  | nil =>
    cases h
    simp [mapGet]
  | append_singleton es e ih =>
    unfold parseEvidence at h
    rw [List.foldlM_append] at h
    obtain ⟨m0, h0, h1⟩ := bind_inv h
    have ih := fun v => ih h0 (v := v)
    rw [List.foldlM_cons] at h1
    rcases parseStep m0 e with ⟨k', v', he, hk', hv', hs⟩ | ⟨he, hs⟩
    swap
    · rw [hs] at h1; cases h1
    rw [hs] at h1
    cases h1
    have hpre : ∀ k : String, '=' ∉ k.toList → ((k ++ "=").toList <+: e.toList ↔ k = k') := by
      intro k hk
      rw [he, String.toList_append]
      constructor
      · rintro ⟨t, ht⟩
        have : k.toList ++ '=' :: t = k'.toList ++ '=' :: v'.toList := by rw [← ht]; simp
        exact String.toList_injective (entry_inj hk hk' this).1
      · rintro rfl
        exact ⟨v'.toList, by simp⟩
    rw [mapGet_mapSet]
    by_cases hkk : k = k'
    · subst hkk
      rw [if_pos rfl]
      constructor
      · rintro ⟨⟩
        refine ⟨es, [], ?_, hk', hv', by simp⟩
        congr 2
        apply String.toList_injective
        rw [he]; simp
      · rintro ⟨bef, aft, h1, hk, hv, h2⟩
        cases aft using List.reverseRecOn with
        | nil =>
          have := (List.append_inj' h1 rfl).2
          simp only [List.cons.injEq, and_true] at this
          rw [this] at he
          have he : k.toList ++ '=' :: v.toList = k.toList ++ '=' :: v'.toList := by rw [← he]; simp
          rw [String.toList_injective (entry_inj hk hk' he).2]
        | append_singleton aft a =>
          have h1' : es ++ [e] = (bef ++ (k ++ "=" ++ v) :: aft) ++ [a] := by rw [h1]; simp
          have := (List.append_inj' h1' rfl).2
          simp only [List.cons.injEq, and_true] at this
          subst this
          exact absurd ((hpre k hk).2 rfl) (h2 e (by simp))
    · rw [if_neg hkk, ih v]
      constructor
      · rintro ⟨bef, aft, rfl, hk, hv, h2⟩
        refine ⟨bef, aft ++ [e], by simp, hk, hv, ?_⟩
        intro e' he'
        rcases List.mem_append.1 he' with he' | he'
        · exact h2 e' he'
        · rw [List.mem_singleton.1 he', hpre k hk]; exact hkk
      · rintro ⟨bef, aft, h1, hk, hv, h2⟩
        cases aft using List.reverseRecOn with
        | nil =>
          have := (List.append_inj' h1 rfl).2
          simp only [List.cons.injEq, and_true] at this
          rw [this] at he
          have he : k.toList ++ '=' :: v.toList = k'.toList ++ '=' :: v'.toList := by rw [← he]; simp
          exact absurd (String.toList_injective (entry_inj hk hk' he).1) hkk
        | append_singleton aft a =>
          have h1' : es ++ [e] = (bef ++ (k ++ "=" ++ v) :: aft) ++ [a] := by rw [h1]; simp
          obtain ⟨h3, _⟩ := List.append_inj' h1' rfl
          exact ⟨bef, aft, h3, hk, hv, fun e' he' => h2 e' (by simp [he'])⟩

/-- The hypotheses of C66 can be met: a later entry wins; two `=` in one entry are an error. -/
example : parseEvidence ["Rain=yes", "Wet=no", "Rain=no"] = .ok [("Wet", "no"), ("Rain", "no")] ∧
    Errors (parseEvidence ["Rain=yes", "a=b=c"]) :=
  ⟨by decide, ⟨_, rfl⟩⟩

/-! ## C67 -/

theorem mem_cells {b : Bounds} {p : Int × Int} :
    p ∈ b.cells ↔ b.x ≤ p.1 ∧ p.1 < b.x + b.w ∧ b.y ≤ p.2 ∧ p.2 < b.y + b.h := Iff.rfl

/-- A non-empty rectangle is part of another if and only if its sides are within. -/
theorem cells_subset {a b : Bounds} (hw : 0 < a.w) (hh : 0 < a.h) :
    a.cells ⊆ b.cells ↔ b.x ≤ a.x ∧ b.y ≤ a.y ∧ a.x + a.w ≤ b.x + b.w ∧ a.y + a.h ≤ b.y + b.h := by
  constructor
  · intro h
    have h1 := mem_cells.1 (@h (a.x, a.y) (by rw [mem_cells]; dsimp only; omega))
    have h2 := mem_cells.1 (@h (a.x + a.w - 1, a.y + a.h - 1) (by rw [mem_cells]; dsimp only; omega))
    dsimp only at h1 h2
    omega
  · intro h p hp
    rw [mem_cells] at hp ⊢
    omega

theorem extend_sides (b o : Bounds) :
    (b.extend o).x = min b.x o.x ∧ (b.extend o).y = min b.y o.y ∧
    (b.extend o).x + (b.extend o).w = max (b.x + b.w) (o.x + o.w) ∧
    (b.extend o).y + (b.extend o).h = max (b.y + b.h) (o.y + o.h) := by
  unfold Bounds.extend
  dsimp only
  split_ifs <;> (try dsimp only at *) <;> omega

/-- **C67.** `Contains` tells whether a place is a cell of the rectangle. -/
theorem C67_contains (b : Bounds) (x y : Int) : b.contains x y = true ↔ (x, y) ∈ b.cells := by
  rw [mem_cells]
  unfold Bounds.contains
  simp only [Bool.and_eq_true, decide_eq_true_eq, ge_iff_le]
  tauto

/-- **C67.** `Centroid` is the cell in the middle: on both sides of it, and above and below, there are equally many cells
of the rectangle, or one cell less to the right or below. -/
theorem C67_centroid {b : Bounds} (hb : 0 < b.w ∧ 0 < b.h) : b.centroid ∈ b.cells ∧
    (let left := b.centroid.1 - b.x; let right := b.x + b.w - 1 - b.centroid.1; left = right ∨ left = right + 1) ∧
    (let above := b.centroid.2 - b.y; let below := b.y + b.h - 1 - b.centroid.2; above = below ∨ above = below + 1) := by
  obtain ⟨hw, hh⟩ := hb
  rw [mem_cells]
  unfold Bounds.centroid
  rw [Int.tdiv_eq_ediv_of_nonneg hw.le, Int.tdiv_eq_ediv_of_nonneg hh.le]
  dsimp only
  omega

/-- A case. -/
example : (⟨10, 20, 20, 30⟩ : Bounds).centroid = (20, 35) ∧ (20, 35) ∈ (⟨10, 20, 20, 30⟩ : Bounds).cells :=
  ⟨rfl, (C67_centroid (b := ⟨10, 20, 20, 30⟩) (by decide)).1⟩

/-- **C67.** The extended rectangle has the cells of both, and is part of every rectangle that has them. -/
theorem C67_extend {b o : Bounds} (hb : 0 < b.w ∧ 0 < b.h) (ho : 0 < o.w ∧ 0 < o.h) :
    b.cells ⊆ (b.extend o).cells ∧ o.cells ⊆ (b.extend o).cells ∧
    ∀ c : Bounds, b.cells ⊆ c.cells → o.cells ⊆ c.cells → (b.extend o).cells ⊆ c.cells := by
  obtain ⟨h1, h2, h3, h4⟩ := extend_sides b o
  refine ⟨(cells_subset hb.1 hb.2).2 (by omega), (cells_subset ho.1 ho.2).2 (by omega), fun c h5 h6 => ?_⟩
  rw [cells_subset hb.1 hb.2] at h5
  rw [cells_subset ho.1 ho.2] at h6
  exact (cells_subset (by omega) (by omega)).2 (by omega)

theorem extend_pos {b o : Bounds} (hb : 0 < b.w ∧ 0 < b.h) : 0 < (b.extend o).w ∧ 0 < (b.extend o).h := by
  obtain ⟨h1, h2, h3, h4⟩ := extend_sides b o
  omega

theorem extendAll {l : List Bounds} (hl : ∀ o ∈ l, 0 < o.w ∧ 0 < o.h) {b : Bounds} (hb : 0 < b.w ∧ 0 < b.h) :
    (0 < (l.foldl Bounds.extend b).w ∧ 0 < (l.foldl Bounds.extend b).h) ∧
    b.cells ⊆ (l.foldl Bounds.extend b).cells ∧ (∀ o ∈ l, o.cells ⊆ (l.foldl Bounds.extend b).cells) ∧
    ∀ c : Bounds, b.cells ⊆ c.cells → (∀ o ∈ l, o.cells ⊆ c.cells) → (l.foldl Bounds.extend b).cells ⊆ c.cells := by
  induction l generalizing b with
  | nil => exact ⟨hb, fun _ h => h, by simp, fun _ h _ => h⟩
  | cons o l ih =>
    have ho := hl o (by simp)
    obtain ⟨e1, e2, e3⟩ := C67_extend hb ho
    obtain ⟨p, i1, i2, i3⟩ := ih (fun o' h' => hl o' (by simp [h'])) (extend_pos (o := o) hb)
    refine ⟨p, fun x hx => i1 (e1 hx), ?_, fun c h1 h2 => i3 c (e3 c h1 (h2 o (by simp))) (fun o' h' => h2 o' (by simp [h']))⟩
    intro o' h'
    rcases List.mem_cons.1 h' with rfl | h'
    · exact fun x hx => i1 (e2 hx)
    · exact i2 o' h'

/-- **C67.** The rectangle for which the canvas is made has the cell (0, 0) and all nodes, and is part of every
rectangle that has them; the canvas has its height and width. (The canvas begins at (0, 0); that nodes do not lie left
of or above it is C70.) -/
theorem C67_canvas {nodes : List (TNode α)} (hn : ∀ n ∈ nodes, 0 < n.bounds.w ∧ 0 < n.bounds.h) :
    ∃ (b : Bounds) (g : Grid), createCanvas nodes = .ok g ∧ (g.length : Int) = b.h ∧ (∀ row ∈ g, (row.length : Int) = b.w) ∧
      (0, 0) ∈ b.cells ∧ (∀ n ∈ nodes, n.bounds.cells ⊆ b.cells) ∧
      ∀ c : Bounds, (0, 0) ∈ c.cells → (∀ n ∈ nodes, n.bounds.cells ⊆ c.cells) → b.cells ⊆ c.cells := by
  have unit : ∀ p : Int × Int, p ∈ (⟨0, 0, 1, 1⟩ : Bounds).cells ↔ p = (0, 0) := by
    intro p
    rw [mem_cells, Prod.ext_iff]
    dsimp only
    omega
  have hf : nodes.foldl (fun (b : Bounds) n => b.extend n.bounds) ⟨0, 0, 1, 1⟩ =
      (nodes.map TNode.bounds).foldl Bounds.extend ⟨0, 0, 1, 1⟩ := by rw [List.foldl_map]
  obtain ⟨hp, h1, h2, h3⟩ := extendAll (l := nodes.map TNode.bounds) (b := ⟨0, 0, 1, 1⟩)
    (fun o ho => by obtain ⟨n, h, rfl⟩ := List.mem_map.1 ho; exact hn n h) ⟨by decide, by decide⟩
  set b := (nodes.map TNode.bounds).foldl Bounds.extend ⟨0, 0, 1, 1⟩
  refine ⟨b, List.replicate b.h.toNat (List.replicate b.w.toNat (Char.ofNat 0)), ?_, ?_, ?_, h1 ((unit _).2 rfl),
    fun n h => h2 _ (List.mem_map_of_mem h), fun c hc hs => h3 c (fun p hp => by rw [(unit p).1 hp]; exact hc) ?_⟩
  · unfold createCanvas
    dsimp only
    rw [hf, if_neg (by omega)]
  · rw [List.length_replicate]; omega
  · intro row hr
    rw [(List.mem_replicate.1 hr).2, List.length_replicate]; omega
  · intro o ho
    obtain ⟨n, h, rfl⟩ := List.mem_map.1 ho
    exact hs n h

/-- The hypotheses of C67 can be met. -/
example : (⟨0, 0, 1, 1⟩ : Bounds).extend ⟨5, 7, 20, 4⟩ = ⟨0, 0, 25, 11⟩ ∧
    (⟨3, 4, 2, 2⟩ : Bounds).extend ⟨-1, 2, 3, 3⟩ = ⟨-1, 2, 6, 4⟩ := by decide

/-! ## C73 -/

/-- What the app should do: train the network with the given file, delimiter and no-data value. -/
def loadAsAsked [Zero α] [Add α] [One α] [Div α] [NatCast α] (pf : String → Option (Option α))
    (csv : String → Char → Except Fault (List String × List (List String))) (n : Net α)
    (trainingFile noData : String) (csvDelimiter : Char) : Except Fault (Net α) :=
  if trainingFile = "" then .ok n else do
    let (header, records) ← csv trainingFile csvDelimiter
    trainNetwork pf n header records noData

/-- **C73, partial.** The app trains as asked for if the no-data value is the empty string; all other arguments are
used as given. Missing: any other no-data value, see `C73_ignored` and `C73_refuted`. -/
theorem C73_partial [Field α] (pf : String → Option (Option α))
    (csv : String → Char → Except Fault (List String × List (List String))) (n : Net α) (path trainingFile : String)
    (evidence : List (String × String)) (csvDelimiter : Char) :
    loadApp pf csv n (newAppArgs path evidence trainingFile "" csvDelimiter) =
      loadAsAsked pf csv n trainingFile "" csvDelimiter := by
  unfold loadApp loadAsAsked newAppArgs
  dsimp only
  by_cases h : trainingFile = ""
  · rw [if_neg (not_not.2 h), if_pos h]
  · rw [if_pos h, if_neg h]

/-- **C73.** Whatever the no-data value is, the app trains with the empty string as no-data value. -/
theorem C73_ignored [Field α] (pf : String → Option (Option α))
    (csv : String → Char → Except Fault (List String × List (List String))) (n : Net α)
    (path trainingFile noData : String) (evidence : List (String × String)) (csvDelimiter : Char) :
    loadApp pf csv n (newAppArgs path evidence trainingFile noData csvDelimiter) =
      loadAsAsked pf csv n trainingFile "" csvDelimiter := C73_partial pf csv n path trainingFile evidence csvDelimiter

/-- **C73, refuted.** A file with the no-data value `-` for some cells is fine to train with, but the app, started with
this no-data value, fails. -/
theorem C73_refuted : ∃ (csv : String → Char → Except Fault (List String × List (List String))),
    (∃ n, loadAsAsked Ex.pf csv Ex.coin "data.csv" "-" ',' = .ok n) ∧
    Errors (loadApp Ex.pf csv Ex.coin (newAppArgs "coin.yml" [] "data.csv" "-" ',')) := by
  refine ⟨fun _ _ => .ok (["Coin", "Gain"], [["heads", "10"], ["-", "30"], ["tails", "30"]]), ?_, ?_⟩
  · have h : ((loadAsAsked Ex.pf (fun _ _ => .ok (["Coin", "Gain"], [["heads", "10"], ["-", "30"], ["tails", "30"]]))
      Ex.coin "data.csv" "-" ',').map (fun n => n.factors.map NFactor.tab)) = .ok [[1/2, 1/2], [5, 15]] := by
      decide +kernel
    cases e : loadAsAsked Ex.pf (fun _ _ => .ok (["Coin", "Gain"], [["heads", "10"], ["-", "30"], ["tails", "30"]]))
      Ex.coin "data.csv" "-" ',' with
    | ok n => exact ⟨n, rfl⟩
    | error m => rw [e] at h; cases h
  · have h : ((loadApp Ex.pf (fun _ _ => .ok (["Coin", "Gain"], [["heads", "10"], ["-", "30"], ["tails", "30"]]))
      Ex.coin (newAppArgs "coin.yml" [] "data.csv" "-" ',')).map (fun n => n.factors.map NFactor.tab)) =
        .error (.error "outcome not available in node") := by
      decide +kernel
    cases e : loadApp Ex.pf (fun _ _ => .ok (["Coin", "Gain"], [["heads", "10"], ["-", "30"], ["tails", "30"]]))
      Ex.coin (newAppArgs "coin.yml" [] "data.csv" "-" ',') with
    | ok n => rw [e] at h; cases h
    | error m => rw [e] at h; injection h with h; exact ⟨_, by rw [h]⟩

end Bbn
