import Verif.Props.Commands
import Verif.Props.TuiTable
import Verif.Props.TuiPicture
import Verif.Props.TuiCases
import Verif.Props.TuiDialog

/-!
# The theorems about the commands and the app, applied to concrete files and sessions
-/

set_option autoImplicit false

namespace Bbn

namespace Ex

/-- C68: six rows for two and three outcomes of the parents, and the header. -/
example : ∃ t, newTable lawn 2 lawnIndex = .ok t ∧ t.rowCount = .ok 7 ∧
    ∀ r < 6, ∃ w : World, worldRow lawn (nf "Wet" ["Rain", "Hose"] [1, 1, 1, 1, 1, 1, 1, 1, 1, 3, 1, 1]) w = r := by
  obtain ⟨h1, h2⟩ := C68_rows (nodes := lawn) (byName := lawnIndex) (i := 2)
    (f := nf "Wet" ["Rain", "Hose"] [1, 1, 1, 1, 1, 1, 1, 1, 1, 3, 1, 1]) ⟨by
      intro i n hn
      match i, hn with
      | 0, rfl => rfl
      | 1, rfl => rfl
      | 2, rfl => rfl, rfl, rfl, by decide, by decide, rfl⟩ (by decide) (by decide) (by decide)
  exact ⟨_, rfl, h1, fun r hr => (h2 r hr).imp (fun _ h => h.2)⟩

/-- C69: after Tab and two times Space an outcome is selected. -/
example (sch0 : NSched ℚ) (sch1 : Nat → NSched ℚ) (sch : Nat → Nat → NSched ℚ) : ∃ a0 a m,
    startApp exactFm sch0 sch1 pair [] = .ok a0 ∧ App.run exactFm sch 0 [.tab, .space, .space] a0 = .ok a ∧
      a.nodes[a.selectedNode.toNat]? = some m ∧ ∃ o, m.var.outcomes[a.selectedState.toNat]? = some o := by
  obtain ⟨a0, N, h0, hA, hnn, hs0, hp0⟩ := pair_start sch0 sch1
  have hfm : ∀ x, 0 ≤ x → x ≤ 1 → exactFm.Bar (some x) := fun x h0 h1 => exactFm_bars.bar h0 h1
  obtain ⟨a1, s1, hp1⟩ := hs0.step_ok hA hnn hfm (sch 0) hp0 (e := .tab) trivial
  have hs1 := hs0.step hA s1
  obtain ⟨a2, s2, hp2⟩ := hs1.step_ok hA hnn hfm (sch 1) hp1 (e := .space) trivial
  have hs2 := hs1.step hA s2
  obtain ⟨a3, s3, _⟩ := hs2.step_ok hA hnn hfm (sch 2) hp2 (e := .space) trivial
  have hrun : App.run exactFm sch 0 [.tab, .space, .space] a0 = .ok a3 := by
    simp only [App.run, s1, s2, s3, ok_bind]
  obtain ⟨m, _, h1, o, _, h2⟩ := (C69_partial (by decide) (by decide) h0 hrun).2 (.inl
    ⟨trivial, fun _ _ => ⟨trivial, fun _ _ => ⟨trivial, fun _ _ => trivial⟩⟩⟩)
  exact ⟨a0, a3, m, h0, hrun, h1, o, h2⟩

/-- C90: the box of the variable is drawn, whatever was drawn before. -/
example : ∃ n n' : TNode ℚ, newNode rainVar none = .ok n ∧ n.renderAll exactFm rainLooks = .ok n' ∧
    Pictures n'.runes (boxHeight rainVar) (boxWidth rainVar) (boxRune exactFm rainVar ⟨[some (1/4), none], false, 1, false⟩) := by
  obtain ⟨n', h1, h2⟩ := C90_box (fm := exactFm) (v := rainVar) (f := none) rfl
    [⟨[some 0, some 1], true, 1, true⟩] ⟨[some (1/4), none], false, 1, false⟩ (by
      intro m hm
      simp only [List.cons_append, List.nil_append, List.mem_cons, List.not_mem_nil, or_false] at hm
      rcases hm with rfl | rfl
      · refine ⟨rfl, C90_probabilities exactFm_bars exactFm_texts (by decide) rfl ?_⟩
        intro a ha
        simp only [List.mem_cons, Option.some.injEq, List.not_mem_nil, or_false] at ha
        rcases ha with rfl | rfl <;> norm_num
      · refine ⟨rfl, C90_probabilities exactFm_bars exactFm_texts (by decide) rfl ?_⟩
        intro a ha
        simp only [List.mem_cons, Option.some.injEq, List.not_mem_nil, or_false, reduceCtorEq] at ha
        subst ha
        norm_num)
  exact ⟨_, n', rfl, h1, h2⟩

/-- C90: a utility of minus 1234 fits. -/
example : (⟨[some (-1234)], false, 0, false⟩ : Look ℚ).Fits exactFm costVar :=
  C90_utilities exactFm_texts rfl (by decide) (by
    intro a ha
    simp only [List.mem_singleton, Option.some.injEq] at ha
    subst ha
    norm_num)

/-- C94: a session without saving changes no file; one with saving changes only the file for that. -/
example (sch0 : NSched ℚ) (sch1 : Nat → NSched ℚ) (sch : Nat → Nat → NSched ℚ) (inputs : List Input) :
    (bbniCommand lib (fun _ => true) files exactFm sch0 sch1 sch "nets/pair.yml" [] "" "" "," inputs initHeap).1
      "nets/pair.yml" = some (.inl pairYaml) :=
  C94_files lib _ files exactFm sch0 sch1 sch _ _ _ _ _ inputs initHeap _
    (.inl (by rw [show savePath "nets/pair.yml" = "nets/pair-save.yml" from C94_path.1 "nets/pair" "yml" (by decide)]; decide))

/-- C94: the user moves a box and saves; the saved file has the box where it is then. -/
example (sch0 : NSched ℚ) (sch1 : Nat → NSched ℚ) (sch : Nat → Nat → NSched ℚ) : ∃ a n',
    (bbniCommand lib (fun _ => true) files exactFm sch0 sch1 sch "nets/pair.yml" [] "" "" "," [.event (.move 'l')]
      initHeap).2 = .ok a ∧
    fromFile lib (bbniCommand lib (fun _ => true) files exactFm sch0 sch1 sch "nets/pair.yml" [] "" "" ","
      ([.event (.move 'l')] ++ .save :: [.quit]) initHeap).1 (savePath "nets/pair.yml") initHeap = (.ok n', initHeap) ∧
    n'.variables.map NVar.position = a.nodes.map (fun b => (b.bounds.x, b.bounds.y)) := by
  obtain ⟨a0, N, h0, hA, hnn, hs0, hp0⟩ := pair_start sch0 sch1
  have hfm : ∀ x, 0 ≤ x → x ≤ 1 → exactFm.Bar (some x) := fun x h0 h1 => exactFm_bars.bar h0 h1
  obtain ⟨b, h1, p1⟩ := hs0.step_ok hA hnn hfm (sch 0) hp0 (e := .move 'l') trivial
  have e : openApp lib files exactFm sch0 sch1 (newAppArgs "nets/pair.yml" [] "" "" ',') initHeap = .ok a0 := by
    unfold openApp
    show (fromFile lib files "nets/pair.yml" initHeap).1 >>= _ = _
    rw [pair_file]
    exact h0
  have ha : (bbniCommand lib (fun _ => true) files exactFm sch0 sch1 sch "nets/pair.yml" [] "" "" "," [.event (.move 'l')]
      initHeap).2 = .ok b := by
    unfold bbniCommand
    rw [show parseEvidence [] = .ok [] from rfl, ok_bind, show oneRune "," = .ok ',' from rfl, ok_bind, e]
    dsimp only [App.session]
    rw [h1]
  obtain ⟨n, n', _, _, k1, _, _, k2, _⟩ := C94_saved lib (fun _ => rfl) rfl (fun _ => true) files exactFm sch0 sch1 sch
    "nets/pair.yml" [] "" "" "," initHeap (by rw [pair_file]) pair_full [.event (.move 'l')] [.quit] (by simp) (by simp) ha rfl rfl
  exact ⟨b, n', ha, k1 initHeap, k2⟩

/-- C95: no file, a file of another kind, evidence without an outcome, evidence for an outcome that does not exist. -/
example (sch0 : NSched ℚ) (sch : Nat → NSched ℚ) (fix : Option ℚ → String) :
    Errors (inferenceCommand lib files fix sch0 sch "nets/other.yml" [] initHeap) ∧
    Errors (inferenceCommand lib files fix sch0 sch "nets/pair.yml" ["A=x", "B"] initHeap) ∧
    Errors (inferenceCommand lib files fix sch0 sch "nets/pair.yml" ["A=x", "B=perhaps"] initHeap) := by
  refine ⟨(C95_errors lib files fix sch0 sch "nets/other.yml" [] initHeap).1 (by decide), ?_, ?_⟩
  · exact ((C95_errors lib files fix sch0 sch "nets/pair.yml" ["A=x", "B"] initHeap).2.2 pair (by rw [pair_file])).1
      ⟨"B", by simp, by decide⟩
  · exact ((C95_errors lib files fix sch0 sch "nets/pair.yml" ["A=x", "B=perhaps"] initHeap).2.2 pair (by rw [pair_file])).2
      pair_ready (by decide) [("A", "x"), ("B", "perhaps")] (by decide) ⟨("B", "perhaps"), by simp, by decide⟩

/-- C96: a delimiter of two characters. -/
example : Errors (trainCommand lib files "nets/pair.yml" "data.csv" "" ";;" initHeap) :=
  C96_delimiter lib files _ _ _ _ initHeap (by decide)

/-- C96: of the three records with an outcome of `B`, one has `yes`. -/
example {b : NetYaml ℚ ⊕ (List String × List (List String))}
    (hb : trainCommand lib files "nets/pair.yml" "data.csv" "" "," initHeap = .ok b) : ∃ n' f,
      (∀ disk' : Disk (NetYaml ℚ ⊕ (List String × List (List String))), disk' "new.yml" = some b →
        fromFile lib disk' "new.yml" initHeap = (.ok n', initHeap)) ∧
      tableFor n'.factors ⟨"B", .chance, ["yes", "no"], (40, 0), "", some 1⟩ = some f ∧ n'.entry f (fun _ => 0) = 1 / 3 := by
  obtain ⟨c, header, records, n', h1, h2, h3, h4, h5⟩ := C96_frequencies lib (fun _ => rfl) files "nets/pair.yml" "data.csv" ""
    "," initHeap (by rw [pair_file]) pair_full pair_trainable (by decide) (by decide) (.inr (by decide)) hb
  obtain rfl : c = ',' := (List.cons.inj h1).1.symm
  obtain ⟨y, y1, y2⟩ := h2
  obtain rfl : Sum.inr (["B", "A"], [["yes", "x"], ["no", "z"], ["", "x"], ["no", "y"]]) = y := Option.some.inj y1
  obtain ⟨rfl, rfl⟩ := Prod.mk.inj (Except.ok.inj y2)
  obtain ⟨f0, f, k1, k2, k3, k4⟩ := h5 ⟨"B", .chance, ["yes", "no"], (40, 0), "", some 1⟩ (by decide) rfl
  obtain rfl : ⟨"B", [], some [1, 1], [], 2⟩ = f0 := Option.some.inj k1
  have hv : f.forVar = "B" := by
    have := List.find?_some k2
    simpa using this
  have hg : f.dims = ["B"] := by
    show f.given ++ [f.forVar] = _
    rw [k3, hv]
    rfl
  refine ⟨n', f, fun disk' hd => h3 disk' "new.yml" initHeap hd ⟨".yml", .inl ⟨"new", "yml", by decide, by decide, by decide, by decide⟩,
    by decide⟩, k2, ?_⟩
  obtain ⟨_, k5⟩ := k4 (fun _ => 0) (by
    rw [hg]
    intro g hg'
    rw [List.mem_singleton.1 hg']
    show 0 < (outcomeCount n'.variables "B").getD 0
    generalize n'.variables = l at h4
    match l, h4 with
    | [], h => cases h
    | [_], h => simp [pair] at h
    | [⟨_, _, _, _, _, _⟩, ⟨_, _, _, _, _, _⟩], h =>
      simp only [pair, List.map_cons, List.map_nil, List.cons.injEq, Prod.mk.injEq] at h
      obtain ⟨⟨rfl, rfl, rfl⟩, ⟨rfl, rfl, rfl⟩, _⟩ := h
      simp [outcomeCount]
    | _ :: _ :: _ :: _, h => simp [pair] at h)
  rw [k5, hg, k3]
  decide +kernel

/-- C104: in the help page any key but ESC and Enter leaves it open; ESC brings back the graph; there `i` opens the
description, and Ctrl-S saves. -/
example {B : Type} (lib : Lib ℚ B) (writable : String → Bool) (file : String) (disk : Disk B) (sch0 : NSched ℚ)
    (sch1 : Nat → NSched ℚ) : ∃ a0 s s' t t', startApp exactFm sch0 sch1 umb [] = .ok a0 ∧
      Screen.Reached lib writable file Char.isDigit exactFm a0 disk s ∧ s.At .help ∧
      s.act lib writable file Char.isDigit exactFm sch1 (.key (.rune 't')) = .ok s' ∧ s'.At .help ∧
      s.act lib writable file Char.isDigit exactFm sch1 (.key .esc) = .ok t ∧ t.At .graph ∧
      Screen.Reached lib writable file Char.isDigit exactFm a0 disk t' ∧
      (∃ u, t'.act lib writable file Char.isDigit exactFm sch1 (.key (.rune 'i')) = .ok u ∧ u.At .info) ∧
      t'.Does lib writable file exactFm sch1 (t'.act lib writable file Char.isDigit exactFm sch1 (.key .ctrlS)) (some .save) := by
  obtain ⟨a0, s, t', _, h0, h1, h2, h3, h4, _⟩ := umb_screens lib writable file disk sch0 sch1
  obtain ⟨s', k1, _, k2⟩ := C104_dialog h1 h2 (by decide) sch1 (.key (.rune 't'))
  obtain ⟨t, l1, _, l2⟩ := C104_dialog h1 h2 (by decide) sch1 (.key .esc)
  obtain ⟨_, u, u1, u2, _⟩ := C104_open h3 h4 (by decide) sch1
  exact ⟨a0, s, s', t, t', h0, h1, h2, k1, k2, l1, l2, h3, ⟨u, u1, u2⟩, C104_graph h3 h4 sch1 (.key .ctrlS)⟩

end Ex

end Bbn
