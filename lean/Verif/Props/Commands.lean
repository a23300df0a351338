import Verif.Lemmas.Commands
import Verif.Props.TuiRun
import Verif.Props.TrainMissing
import Verif.Props.TrainCsv
import Verif.Spec.Commands

/-!
# Saving in the app, and the commands `bbn inference` and `bbn train`: C94, C95, C96
-/

set_option autoImplicit false

namespace Bbn

variable {α B : Type}

/-! ## C94 -/

/-- **C94 (the path).** The network is saved to the path of the loaded file with `-save.yml` instead of the extension;
the file is never the loaded one, and its extension is one that can be loaded. -/
theorem C94_path :
    (∀ stem ext : String, (∀ c ∈ ext.toList, c ≠ '.' ∧ c ≠ '/') → savePath (stem ++ "." ++ ext) = stem ++ "-save.yml") ∧
    (∀ dir base : String, (dir = "" ∨ ∃ d, dir = d ++ "/") → (∀ c ∈ base.toList, c ≠ '.' ∧ c ≠ '/') →
      savePath (dir ++ base) = dir ++ base ++ "-save.yml") ∧
    ∀ file, savePath file ≠ file ∧ ∃ stem, savePath file = stem ++ ".yml" := by
  refine ⟨?_, ?_, ?_⟩
  · intro stem ext h
    unfold savePath
    rw [goExt_dot h, String.append_assoc, goTrimSuffix_append]
  · intro dir base hd h
    unfold savePath
    rw [goExt_none hd h]
    conv_lhs => rw [show goTrimSuffix (dir ++ base) "" = goTrimSuffix (dir ++ base ++ "") "" by rw [String.append_empty]]
    rw [goTrimSuffix_append]
  · intro file
    obtain ⟨stem, h1, h2, h3⟩ := savePath_split file
    constructor
    · intro h
      rw [h2] at h
      have h : stem ++ "-save.yml" = stem ++ goExt file := h.trans h1
      have h := congrArg String.toList h
      rw [String.toList_append, String.toList_append] at h
      have h := List.append_cancel_left h
      rcases h3 with h3 | h3
      · rw [h3] at h; exact absurd h (by decide)
      · rw [← h] at h3; exact absurd h3 (by decide)
    · exact ⟨stem ++ "-save", by rw [h2, String.append_assoc]; rfl⟩

section

variable [Zero α] [One α] [Add α] [Mul α] [Div α] [DecidableEq α] [NatCast α] [LE α] [DecidableLE α] [LT α] [DecidableLT α]

/-- **C94 (the files).** Whatever the user does and however the app ends: no file but the one at the path above is
written, and none at all if the user does not save. -/
theorem C94_files (lib : Lib α B) (writable : String → Bool) (disk : Disk B) (fm : Fmt α) (sch0 : NSched α)
    (sch1 : Nat → NSched α) (sch : Nat → Nat → NSched α) (file : String) (evidence : List String)
    (training noData delim : String) (inputs : List Input) (h : LHeap α) (p : String)
    (hp : p ≠ savePath file ∨ .save ∉ inputs) :
    (bbniCommand lib writable disk fm sch0 sch1 sch file evidence training noData delim inputs h).1 p = disk p := by
  unfold bbniCommand
  split
  · rfl
  · exact session_other _ _ _ _ hp

/-- The running app, from the arguments. -/
theorem bbni_opened {lib : Lib α B} {writable : String → Bool} {disk : Disk B} {fm : Fmt α} {sch0 : NSched α}
    {sch1 : Nat → NSched α} {sch : Nat → Nat → NSched α} {file : String} {evidence : List String}
    {training noData delim : String} {inputs : List Input} {h : LHeap α} {a : App α}
    (ha : (bbniCommand lib writable disk fm sch0 sch1 sch file evidence training noData delim inputs h).2 = .ok a) :
    ∃ ev c n0 n a0, parseEvidence evidence = .ok ev ∧ oneRune delim = .ok c ∧ (fromFile lib disk file h).1 = .ok n0 ∧
      loadApp lib.cell (readCsv lib disk) n0 (newAppArgs file ev training noData c) = .ok n ∧
      startApp fm sch0 sch1 n ev = .ok a0 ∧
      (App.session lib writable file fm sch 0 inputs a0 disk).2 = .ok a ∧
      ∀ is, bbniCommand lib writable disk fm sch0 sch1 sch file evidence training noData delim is h =
        App.session lib writable file fm sch 0 is a0 disk := by
  unfold bbniCommand at ha
  split at ha
  · cases ha
  · rename_i a0 e
    have e0 := e
    obtain ⟨ev, h1, e⟩ := bind_inv e
    obtain ⟨c, h2, e⟩ := bind_inv e
    unfold openApp at e
    obtain ⟨n0, h3, e⟩ := bind_inv e
    obtain ⟨n, h4, e⟩ := bind_inv e
    refine ⟨ev, c, n0, n, a0, h1, h2, h3, h4, e, ha, ?_⟩
    intro is
    unfold bbniCommand
    rw [e0]

/-- **C94 (what is saved).** The app was started with a file that gives the network `n0`, in which each variable has
outcomes and a table of full rows. The user worked with it, presses Ctrl+S, goes on without saving again, and the app ends
in whatever way. Then the file that was written can be loaded. It has the name, the variables with their types and
outcomes, the parents, the tables and the total-utility node of the network the app was started with (`n0`, or `n0`
trained by the training file), and each node is where its box was when the user saved. -/
theorem C94_saved (lib : Lib α B) (hyaml : ∀ y, lib.yaml (lib.encode y) = some y) (hlow : lib.lower ".yml" = ".yml")
    (writable : String → Bool) (disk : Disk B) (fm : Fmt α) (sch0 : NSched α)
    (sch1 : Nat → NSched α) (sch : Nat → Nat → NSched α) (file : String) (evidence : List String)
    (training noData delim : String) (h : LHeap α) {n0 : Net α} (hn0 : (fromFile lib disk file h).1 = .ok n0)
    (hall : ∀ v ∈ n0.variables, 0 < v.outcomes.length ∧
      ∃ f, tableFor n0.factors v = some f ∧ v.outcomes.length ∣ f.tab.length)
    (before after : List Input) (hquit : .quit ∉ before) (hlast : .save ∉ after)
    {a : App α} (ha : (bbniCommand lib writable disk fm sch0 sch1 sch file evidence training noData delim before h).2 = .ok a)
    (hw : writable (savePath file) = true) {disk' : Disk B}
    (hd : disk' = (bbniCommand lib writable disk fm sch0 sch1 sch file evidence training noData delim
      (before ++ .save :: after) h).1) :
    ∃ n n', (training = "" → n = n0) ∧
      (training ≠ "" → ∃ c header records, delim.toList = [c] ∧ CsvAt lib disk training c header records ∧
        trainNetwork lib.cell n0 header records "" = .ok n) ∧
      (∀ h', fromFile lib disk' (savePath file) h' = (.ok n', h')) ∧
      n'.name = n.name ∧
      n'.variables.map (fun v => (v.name, v.nodeType, v.outcomes)) = n.variables.map (fun v => (v.name, v.nodeType, v.outcomes)) ∧
      n'.variables.map NVar.position = a.nodes.map (fun b => (b.bounds.x, b.bounds.y)) ∧
      a.nodes.map (fun b => b.var.name) = n.variables.map NVar.name ∧
      (∀ v ∈ n.variables, ∃ f f', tableFor n.factors v = some f ∧ tableFor n'.factors v = some f' ∧
        f'.given = f.given ∧ f'.tab = f.tab) ∧
      (∀ f ∈ n'.factors, ∃ v ∈ n'.variables, v.name = f.forVar) ∧
      n'.totalUtility = n.totalUtility := by
  obtain ⟨ev, c, n1, n, a0, h1, h2, h3, h4, h5, h6, h7⟩ := bbni_opened ha
  rw [hn0] at h3
  obtain rfl := Except.ok.inj h3
  have hs0 := fromFile_saveable hn0 hall
  have hs := (loadApp_same h4).saveable hs0
  have hh : a.Holds n := session_keep (fun a => a.Holds n) (fun _ _ _ _ h => h.step) _ _ _ _ _ h6 (startApp_holds h5)
  have hp : a.Placed := session_keep (fun a => a.Placed) (fun _ _ _ _ h => h.step) _ _ _ _ _ h6 (startApp_inv h5).2.2
  have hsa := moved_saveable hs hh.vars hh.factors hh.total
  obtain ⟨y, n', r1, r2, r3⟩ := hsa.round_trip
  refine ⟨n, n', ?_, ?_, ?_, ?_, ?_, ?_, ?_, ?_, r3.noOther, r3.total.trans hh.total⟩
  · rintro rfl
    unfold loadApp newAppArgs at h4
    cases h4
    rfl
  · intro ht
    unfold loadApp newAppArgs at h4
    dsimp only at h4
    rw [if_pos ht] at h4
    obtain ⟨⟨header, records⟩, k1, k2⟩ := bind_inv h4
    refine ⟨c, header, records, ?_, csvAt_iff.1 k1, k2⟩
    unfold oneRune at h2
    split at h2
    · cases h2; assumption
    · cases h2
  · intro h'
    have hsave : ∀ d : Disk B, a.save lib writable file d =
        .ok (fun p => if p = savePath file then some (lib.encode y) else d p) := by
      intro d
      unfold App.save
      rw [r1]
      dsimp only
      rw [if_pos hw]
    have hfile : disk' (savePath file) = some (lib.encode y) := by
      rw [hd, h7]
      rcases hx : App.session lib writable file fm sch 0 before a0 disk with ⟨d1, r⟩
      rw [hx] at h6
      dsimp only at h6
      subst h6
      rw [session_append _ _ _ _ _ _ _ hquit hx, App.session, hsave]
      dsimp only
      rw [session_other _ _ _ _ (.inr hlast)]
      exact if_pos rfl
    unfold fromFile
    rw [hfile]
    dsimp only
    rw [goExt_savePath, hlow, if_pos rfl, hyaml]
    exact r2 _ _
  · exact r3.name.trans hh.name
  · have e1 := congrArg (List.map (fun v => (v.1, v.2.1, v.2.2.1))) r3.vars
    have e2 := congrArg (List.map (fun v => (v.name, v.nodeType, v.outcomes))) hh.vars
    rw [List.map_map, List.map_map] at e1 e2
    exact e1.trans e2
  · have e1 := congrArg (List.map (fun v => v.2.2.2)) (r3.vars.trans hp.shown)
    rw [List.map_map, List.map_map] at e1
    exact e1
  · have e1 := congrArg (List.map (fun v => v.1)) hp.shown
    have e2 := congrArg (List.map (fun v => v.name)) hh.vars
    rw [List.map_map, List.map_map] at e1 e2
    exact e1.symm.trans e2
  · intro v hv
    have hm : v.still ∈ a.network.variables.map NVar.still := by rw [hh.vars]; exact List.mem_map_of_mem hv
    obtain ⟨u, hu, e⟩ := List.mem_map.1 hm
    have en : u.name = v.name := show u.still.name = v.still.name by rw [e]
    obtain ⟨f, f', k1, k2, k3, k4⟩ := r3.tables u hu
    refine ⟨f, f', ?_, ?_, k3, k4⟩
    · rw [hh.factors] at k1
      unfold tableFor at k1 ⊢
      rw [← en]; exact k1
    · unfold tableFor at k2 ⊢
      rw [← en]; exact k2

end

/-! ## C95 -/

theorem padLeft_aligned (w : Nat) (s : String) : padLeft w s = rightAligned w s := by
  apply String.toList_inj.1
  simp [padLeft, rightAligned, String.toList_append]

theorem padLeft_fixed [Field α] [LinearOrder α] [IsStrictOrderedRing α] [FloorRing α] (w : Nat) (x : α) :
    padLeft w (fixedText 0 x) = fixedText w x := by
  apply String.toList_inj.1
  unfold padLeft fixedText
  simp [String.toList_append]

theorem join_append (l l' : List String) : String.join (l ++ l') = String.join l ++ String.join l' := by
  apply String.toList_inj.1
  simp [String.toList_append, String.toList_join]

theorem join_flatten (l : List (List String)) : String.join l.flatten = String.join (l.map String.join) := by
  induction l with
  | nil => rfl
  | cons x l ih => 
    rw [List.flatten_cons, join_append, ih, List.map_cons]
    apply String.toList_inj.1
    simp [String.toList_append, String.toList_join]

/-- **C95.** The file at the path gives the network `n`, ready for the app (C70), the evidence is of outcomes of its chance and
decision variables and is possible. `bbn inference` solves the policies (`N`) and prints, for each variable in the order of
the file, a line with its outcomes and a line with its name, its exact posterior probabilities in percent or its exact
expected utilities, rounded to three digits, and a plus sign exactly if it is in the evidence. -/
theorem C95_printed [Field α] [LinearOrder α] [IsStrictOrderedRing α] [FloorRing α] (lib : Lib α B) (disk : Disk B)
    {fix : Option α → String} (hfix : ∀ x, fix (some x) = fixedText 0 x) (sch0 : NSched α) (sch : Nat → NSched α)
    (path : String) (evidence : List String) (h : LHeap α) {n : Net α} (hn : (fromFile lib disk path h).1 = .ok n)
    (hr : AppReady n) (hcol : ∀ v ∈ n.variables, v.color = "" ∨ ColorName v.color)
    {ev : List (String × String)} (hp : parseEvidence evidence = .ok ev) (hev : n.EvidenceOK ev)
    {N : Net α} (hN : N = (n.solvePolicies sch0 true).2) (possible : N.mass (N.active ev false) (N.Agrees ev) ≠ 0) :
    inferenceCommand lib disk fix sch0 sch path evidence h =
      .ok (textOf (n.variables.map (N.printedLines ev)).flatten) := by
  obtain ⟨tables, M, k1, k2, k3, kt, k4, k5, k6, vs, names, ps, k7⟩ := hr.solve sch0
  rw [k1] at hN
  dsimp only at hN
  subst hN
  have ev1 : N.variables = n.variables := by rw [k7]
  have ef : N.factors = n.factors := by rw [k7]
  obtain ⟨nodes, h1⟩ : ∃ nodes, appNodes n = .ok nodes := by
    unfold appNodes
    exact mapM_exists (fun v hv => (newNode_ok v _ (hcol v hv)).imp (fun m h => h.1))
  obtain ⟨n1, n2, n3, n4⟩ := appNodes_spec h1
  have hnodes : NodesOf N nodes := by
    constructor
    · have := congrArg (List.map (fun v : NVar => (v.name, v.nodeType))) n1
      rw [List.map_map] at this
      rw [ev1]
      exact this
    · intro i hi m hm
      obtain ⟨v, hv, e, ef'⟩ := appNodes_factor h1 hm
      have et : v.name = N.totalName := (totalName_iff k4.valid (by rw [ev1]; exact hv)).2 hi
      have hu : v.nodeType = .utility := by
        obtain ⟨t, _, _, q1, q2, _⟩ := k4.valid.weights i hi
        rw [ev1, hv] at q1
        cases q1
        exact q2
      obtain ⟨j, f, f1, f2, f3⟩ := hr.linked v (List.mem_of_getElem? hv) (by rw [hu]; decide)
      refine ⟨f, by rw [ef]; exact List.mem_of_getElem? f2, by rw [f3, et], ?_⟩
      rw [ef', f1]
      exact f2
  obtain ⟨r, n', s1, _, _, s2, s3, s4, _⟩ := tuiSolve_spec sch k4.valid k4.policies k4.solved k5 k4.total
    (by rw [k7]; exact ⟨hev.keys, hev.known⟩) false possible hnodes
  unfold inferenceCommand runInference
  rw [hn, ok_bind, hp, ok_bind, h1, ok_bind, k1]
  dsimp only
  rw [ok_bind, s1]
  dsimp only
  rw [ok_bind]
  show Except.ok _ = _
  congr 1
  unfold textOf
  rw [List.map_flatten, join_flatten, List.map_map, List.map_map]
  congr 1
  apply List.map_congr_left
  intro v hv
  have hnum : mapGet r v.name = some ((N.numbers ev v).map some) := by
    unfold Net.numbers
    by_cases hu : v.nodeType = .utility
    · rw [if_neg (not_not.2 hu)]
      by_cases hm : v ∈ N.utilityVars
      · rw [if_pos hm, s3 v hm]; rfl
      · rw [if_neg hm]
        have ht : v.name = N.totalName := by
          by_contra hne
          exact hm (List.mem_filter.2 ⟨by rw [ev1]; exact hv, by simp [hu, hne]⟩)
        obtain ⟨i, hi⟩ := List.getElem?_of_mem hv
        have hi' : N.totalUtility = some i := (totalName_iff k4.valid (by rw [ev1]; exact hi)).1 ht
        obtain ⟨j, f, f1, f2, f3⟩ := hr.linked v hv (by rw [hu]; decide)
        have : ∃ g, tableFor N.factors v = some g := by
          rw [ef]
          cases hx : tableFor n.factors v with
          | some g => exact ⟨g, rfl⟩
          | none =>
            have := List.find?_eq_none.1 hx f (List.mem_of_getElem? f2)
            simp [f3] at this
        obtain ⟨g, hg⟩ := this
        have hg1 := List.mem_of_find?_eq_some hg
        have hg2 : g.forVar = v.name := by simpa using List.find?_some hg
        rw [hg, ht, s4 i hi' g hg1 (hg2.trans ht)]
        simp
    · rw [if_pos hu]
      exact s2 v (mem_stateVars.2 ⟨by rw [ev1]; exact hv, hu⟩)
  have hnums : String.join (((mapGet r v.name).getD []).map (printNumber fix v.nodeType)) =
      String.join ((N.numbers ev v).map (fun x =>
        if v.nodeType = .utility then " " ++ fixedText 10 x else " " ++ fixedText 9 (x * 100) ++ "%")) := by
    rw [hnum, Option.getD_some, List.map_map]
    congr 1
    apply List.map_congr_left
    intro x _
    unfold printNumber
    dsimp only [Function.comp, Option.map]
    rw [hfix, hfix, padLeft_fixed, padLeft_fixed]
    norm_num
  have hmark : (if (mapGet ev v.name).isSome then "  +" else "") = (if v.name ∈ ev.map Prod.fst then "  +" else "") := by
    by_cases hm : v.name ∈ ev.map Prod.fst
    · rw [if_pos hm, if_pos (mapGet_isSome.2 hm)]
    · rw [if_neg hm, if_neg (fun h => hm (mapGet_isSome.1 h))]
  unfold printNode
  rw [hnums, hmark]
  simp only [padLeft_aligned]
  unfold Net.printedLines
  apply String.toList_inj.1
  have e30 : "                              ".toList = (rightAligned 30 "").toList := by decide
  simp only [String.toList_append, Function.comp, List.map_cons, List.map_nil, String.toList_join, e30]
  simp [List.append_assoc]

theorem toEvidence_noPanic [Zero α] [One α] (n : Net α) (v o : String) :
    (∃ d, n.toEvidence (α := α) v o = .ok d) ∨ Errors (n.toEvidence (α := α) v o) := by
  unfold Net.toEvidence
  split
  · exact .inr ⟨_, rfl⟩
  · split
    · exact .inr ⟨_, rfl⟩
    · rename_i vv _ i hi
      have := (List.getElem?_eq_some_iff.1 (slicesIndex_some hi)).1
      refine .inl ?_
      unfold goSet
      rw [if_pos (by simpa using this)]
      exact ⟨_, rfl⟩

theorem solveEvidence_noPanic [Zero α] [One α] (n : Net α) : ∀ (l : List (String × String)) (r : Shown α),
    (∃ d, solveEvidence n l r = .ok d) ∨ Errors (solveEvidence n l r) := by
  intro l
  induction l with
  | nil => intro r; exact .inl ⟨r, rfl⟩
  | cons e l ih =>
    intro r
    unfold solveEvidence at ih ⊢
    rw [List.foldlM_cons]
    rcases toEvidence_noPanic n e.1 e.2 with ⟨d, hd⟩ | ⟨m, hm⟩
    · rw [hd]
      exact ih _
    · rw [hm]; exact .inr ⟨m, rfl⟩

/-- **C95 (errors).** A missing file, an extension other than yml, xml and bifxml, evidence that is not of the form
`variable=outcome`, and evidence with an unknown variable or outcome give an error, not a panic, and nothing is printed. -/
theorem C95_errors [Field α] [LinearOrder α] [IsStrictOrderedRing α] (lib : Lib α B) (disk : Disk B)
    (fix : Option α → String) (sch0 : NSched α) (sch : Nat → NSched α) (path : String) (evidence : List String)
    (h : LHeap α) :
    (disk path = none → Errors (inferenceCommand lib disk fix sch0 sch path evidence h)) ∧
    (∀ ext, Extension path ext → lib.lower ext ∉ [".yml", ".xml", ".bifxml"] →
      Errors (inferenceCommand lib disk fix sch0 sch path evidence h)) ∧
    ∀ n : Net α, (fromFile lib disk path h).1 = .ok n →
      ((∃ e ∈ evidence, e.toList.count '=' ≠ 1) → Errors (inferenceCommand lib disk fix sch0 sch path evidence h)) ∧
      (AppReady n → (∀ v ∈ n.variables, v.color = "" ∨ ColorName v.color) → ∀ ev, parseEvidence evidence = .ok ev →
        (∃ e ∈ ev, ∀ v ∈ n.variables, v.name = e.1 → e.2 ∉ v.outcomes) →
        Errors (inferenceCommand lib disk fix sch0 sch path evidence h)) := by
  have hload : Errors (fromFile lib disk path h).1 → Errors (inferenceCommand lib disk fix sch0 sch path evidence h) := by
    rintro ⟨m, hm⟩
    unfold inferenceCommand runInference
    rw [hm]
    exact ⟨m, rfl⟩
  refine ⟨fun hd => hload ?_, fun ext he hx => hload ?_, fun n hn => ⟨?_, ?_⟩⟩
  · unfold fromFile
    rw [hd]
    exact ⟨_, rfl⟩
  · unfold fromFile
    rw [← extension_iff.2 he] at hx
    cases disk path with
    | none => exact ⟨_, rfl⟩
    | some b =>
      simp only [List.mem_cons, List.not_mem_nil, or_false, not_or] at hx
      dsimp only
      rw [if_neg hx.1, if_neg (by rintro (h | h); exacts [hx.2.1 h, hx.2.2 h])]
      exact ⟨_, rfl⟩
  · rintro ⟨e, he, hc⟩
    obtain ⟨m, hm⟩ := (C66_accepted evidence).2 (fun h => hc (h e he))
    unfold inferenceCommand runInference
    rw [hn, ok_bind, hm]
    exact ⟨m, rfl⟩
  · rintro hr hcol ev hp ⟨e, he, hbad⟩
    obtain ⟨tables, N, k1, k2, k3, kt, k4, k5, k6, vs, names, ps, k7⟩ := hr.solve sch0
    have ev1 : N.variables = n.variables := by rw [k7]
    obtain ⟨nodes, h1⟩ : ∃ nodes, appNodes n = .ok nodes := by
      unfold appNodes
      exact mapM_exists (fun v hv => (newNode_ok v _ (hcol v hv)).imp (fun m h => h.1))
    unfold inferenceCommand runInference
    rw [hn, ok_bind, hp, ok_bind, h1, ok_bind, k1]
    dsimp only
    rw [ok_bind]
    suffices Errors (tuiSolve sch N ev nodes false).1 by
      obtain ⟨m, hm⟩ := this
      rw [hm]
      exact ⟨m, rfl⟩
    unfold tuiSolve
    rcases solveEvidence_noPanic N ((sch 0).ev ev) [] with ⟨d, hd⟩ | ⟨m, hm⟩
    · rw [hd]
      dsimp only
      obtain ⟨m, hm⟩ := (C36_unknown_names (sch 0) k4.valid k4.policies ev [] "" false).1 (.inl ⟨e, he, by
        by_cases hx : ∃ v ∈ N.variables, v.name = e.1
        · obtain ⟨v, hv, hve⟩ := hx
          exact .inr ⟨v, hv, hve, hbad v (by rw [← ev1]; exact hv) hve⟩
        · left
          left
          intro v hv hve
          exact absurd ⟨v, hv, hve⟩ hx⟩)
      rcases hq : N.solveQuery (sch 0) ev [] false with ⟨r, N'⟩
      rw [hq] at hm
      dsimp only at hm
      subst hm
      exact ⟨m, rfl⟩
    · rw [hm]
      exact ⟨m, rfl⟩

/-! ## C96 -/

/-- **C96 (delimiter).** A delimiter that is not exactly one character is an error, whatever the other arguments are. -/
theorem C96_delimiter [Zero α] [One α] [Add α] [Mul α] [Div α] [NatCast α] (lib : Lib α B) (disk : Disk B)
    (netFile dataFile noData delim : String) (h : LHeap α) (hd : delim.toList.length ≠ 1) :
    Errors (trainCommand lib disk netFile dataFile noData delim h) := by
  unfold trainCommand oneRune
  split
  · rename_i c e
    rw [e] at hd
    simp at hd
  · exact ⟨_, rfl⟩

theorem trainCommand_inv [Zero α] [One α] [Add α] [Mul α] [Div α] [NatCast α] {lib : Lib α B} {disk : Disk B}
    {netFile dataFile noData delim : String} {h : LHeap α} {b : B}
    (hb : trainCommand lib disk netFile dataFile noData delim h = .ok b) :
    ∃ c n0 header records n1 y, delim.toList = [c] ∧ (fromFile lib disk netFile h).1 = .ok n0 ∧
      readCsv lib disk dataFile c = .ok (header, records) ∧ trainNetwork lib.cell n0 header records noData = .ok n1 ∧
      toYaml n1 = .ok y ∧ b = lib.encode y := by
  unfold trainCommand at hb
  obtain ⟨c, h1, hb⟩ := bind_inv hb
  obtain ⟨n0, h2, hb⟩ := bind_inv hb
  obtain ⟨⟨header, records⟩, h3, hb⟩ := bind_inv hb
  obtain ⟨n1, h4, hb⟩ := bind_inv hb
  obtain ⟨y, h5, hb⟩ := bind_inv hb
  cases hb
  refine ⟨c, n0, header, records, n1, y, ?_, h2, h3, h4, h5, rfl⟩
  unfold oneRune at h1
  split at h1
  · cases h1; assumption
  · cases h1

/-- **C96 (what is printed).** `bbn train` prints the network trained with the records of the file: the text, stored in a
file and loaded again, is this network. -/
theorem C96_reload [Zero α] [One α] [Add α] [Mul α] [Div α] [NatCast α] (lib : Lib α B)
    (hyaml : ∀ y, lib.yaml (lib.encode y) = some y) (disk : Disk B)
    (netFile dataFile noData delim : String) (h : LHeap α) {n0 : Net α} (hn0 : (fromFile lib disk netFile h).1 = .ok n0)
    (hall : ∀ v ∈ n0.variables, 0 < v.outcomes.length ∧
      ∃ f, tableFor n0.factors v = some f ∧ v.outcomes.length ∣ f.tab.length) {b : B}
    (hb : trainCommand lib disk netFile dataFile noData delim h = .ok b) :
    ∃ c header records n1 n', delim.toList = [c] ∧ CsvAt lib disk dataFile c header records ∧
      trainNetwork lib.cell n0 header records noData = .ok n1 ∧ SameNet n1 n' ∧
      ∀ (disk' : Disk B) path h', disk' path = some b → (∃ ext, Extension path ext ∧ lib.lower ext = ".yml") →
        fromFile lib disk' path h' = (.ok n', h') := by
  obtain ⟨c, m, header, records, n1, y, h1, h2, h3, h4, h5, rfl⟩ := trainCommand_inv hb
  rw [hn0] at h2
  obtain rfl := Except.ok.inj h2
  obtain ⟨y', n', r1, r2, r3⟩ := ((trainNetwork_same h4).saveable (fromFile_saveable hn0 hall)).round_trip
  rw [h5] at r1
  obtain rfl := Except.ok.inj r1
  refine ⟨c, header, records, n1, n', h1, csvAt_iff.1 h3, h4, r3, ?_⟩
  intro disk' path h' hd ⟨ext, he, hx⟩
  unfold fromFile
  rw [hd]
  dsimp only
  rw [extension_iff.2 he, hx, if_pos rfl, hyaml]
  exact r2 _ _

theorem csvSample_ok [Zero α] {pf : String → Option (Option α)} {n : Net α} {header record : List String} {noData : String}
    (hout : ∀ v ∈ n.variables, 0 < v.outcomes.length) (hok : CsvOK pf n header noData record) :
    (csvSample pf n header noData record).OK n := by
  refine ⟨by simp [csvSample], ?_, ?_, fun _ => by simp [csvSample]⟩
  · intro i v k hv hk
    unfold csvSample at hk
    dsimp only at hk
    rw [List.getElem?_map, hv] at hk
    have hm := List.mem_of_getElem? hv
    have h0 := hout v hm
    injection hk with hk
    rw [← hk]
    dsimp only
    split_ifs with h1 h2
    · omega
    · omega
    · have := List.idxOf_lt_length_of_mem ((hok.outcome v hm h1).resolve_left h2)
      omega
  · intro u hu
    unfold csvSample at hu
    injection hu with hu
    subst hu
    simp

/-- What a sample knows about a variable. -/
theorem csvSample_known [Zero α] {pf : String → Option (Option α)} {n : Net α} (hn : (n.variables.map NVar.name).Nodup)
    {header record : List String} {noData : String} {v : NVar} (hv : v ∈ n.variables) (ht : v.nodeType ≠ .utility) :
    (csvSample pf n header noData record).known n v.name =
      if csvCell header record v.name = noData then none else some (v.outcomes.idxOf (csvCell header record v.name)) := by
  obtain ⟨i, hi⟩ := List.getElem?_of_mem hv
  unfold Sample.known csvSample
  dsimp only
  rw [position_at hn hi, List.getElem?_map, hi]
  dsimp only [Option.map]
  rw [if_neg ht]
  split_ifs with h1 h2 h2
  · rfl
  · exact absurd (show (-1 : Int) < 0 by decide) h2
  · omega
  · simp

theorem csvSample_inRow [Zero α] {pf : String → Option (Option α)} {n : Net α} (hn : (n.variables.map NVar.name).Nodup)
    (hnd : ∀ v ∈ n.variables, v.outcomes.Nodup) {header record : List String} {noData : String}
    (hno : ∀ v ∈ n.variables, noData ∉ v.outcomes) (hok : CsvOK pf n header noData record) {l : List String}
    (hl : ∀ g ∈ l, ∃ v ∈ n.variables, v.name = g ∧ v.nodeType ≠ .utility) (w : World) :
    (csvSample pf n header noData record).InRow n l w ↔ RecordIn n header record l w := by
  have key : ∀ v ∈ n.variables, v.nodeType ≠ .utility → ∀ k : Nat,
      ((csvSample pf n header noData record).known n v.name = some k ↔
        v.outcomes[k]? = some (csvCell header record v.name)) := by
    intro v hv ht k
    rw [csvSample_known hn hv ht]
    by_cases hc : csvCell header record v.name = noData
    · rw [if_pos hc, hc]
      constructor
      · intro h; cases h
      · intro h; exact absurd (List.mem_of_getElem? h) (hno v hv)
    · rw [if_neg hc]
      have hm := (hok.outcome v hv ht).resolve_left hc
      constructor
      · intro h
        injection h with h
        rw [← h, List.getElem?_eq_getElem (List.idxOf_lt_length_of_mem hm)]
        simp
      · intro h
        obtain ⟨hk, e⟩ := List.getElem?_eq_some_iff.1 h
        rw [← e, (hnd v hv).idxOf_getElem k hk]
  unfold Sample.InRow RecordIn
  constructor
  · intro h g hg v hv e
    obtain ⟨u, hu, e', ht⟩ := hl g hg
    have : u = v := by
      have := List.inj_on_of_nodup_map hn hu hv (e'.trans e.symm)
      exact this
    subst this
    subst e
    exact (key u hu ht _).1 (h _ hg)
  · intro h g hg
    obtain ⟨v, hv, e, ht⟩ := hl g hg
    subst e
    exact (key v hv ht _).2 (h _ hg v hv rfl)

/-- **C96 (frequencies).** In the network that `bbn train` prints, the entry of each chance variable for outcomes of its
parents and itself is the number of records of the file with these outcomes in the columns of these names, divided by the
number of records with these outcomes of the parents and any outcome of the variable. (Proviso on utilities as in C65.) -/
theorem C96_frequencies [Field α] (lib : Lib α B)
    (hyaml : ∀ y, lib.yaml (lib.encode y) = some y) (disk : Disk B)
    (netFile dataFile noData delim : String) (h : LHeap α) {n0 : Net α} (hn0 : (fromFile lib disk netFile h).1 = .ok n0)
    (hall : ∀ v ∈ n0.variables, 0 < v.outcomes.length ∧
      ∃ f, tableFor n0.factors v = some f ∧ v.outcomes.length ∣ f.tab.length)
    (ht : n0.Trainable) (hnd : ∀ v ∈ n0.variables, v.outcomes.Nodup)
    (hpar : ∀ f ∈ n0.chanceTables, ∀ g ∈ f.given, n0.isKind .utility g = false)
    (hu : lib.cell noData = some none ∨ ∀ v ∈ n0.variables, v.nodeType ≠ .utility) {b : B}
    (hb : trainCommand lib disk netFile dataFile noData delim h = .ok b) :
    ∃ c header records n', delim.toList = [c] ∧ CsvAt lib disk dataFile c header records ∧
      (∀ (disk' : Disk B) path h', disk' path = some b → (∃ ext, Extension path ext ∧ lib.lower ext = ".yml") →
        fromFile lib disk' path h' = (.ok n', h')) ∧
      n'.variables.map (fun v => (v.name, v.nodeType, v.outcomes)) = n0.variables.map (fun v => (v.name, v.nodeType, v.outcomes)) ∧
      ∀ v ∈ n0.variables, v.nodeType = .chance → ∃ f0 f, tableFor n0.factors v = some f0 ∧ tableFor n'.factors v = some f ∧
        f.given = f0.given ∧ ∀ w : World, (∀ g ∈ f.dims, w g < n'.count g) →
          0 < records.countP (fun r => RecordIn n0 header r f.given w ∧ csvCell header r v.name ≠ noData) ∧
          n'.entry f w = (records.countP (fun r => RecordIn n0 header r f.dims w) : α) /
            (records.countP (fun r => RecordIn n0 header r f.given w ∧ csvCell header r v.name ≠ noData) : α) := by
  obtain ⟨c, header, records, n1, n', h1, h2, h3, h4, h5⟩ := C96_reload lib hyaml disk netFile dataFile noData delim h hn0 hall hb
  have hsame := trainNetwork_same h3
  have hv1 : n1.variables = n0.variables := hsame.vars
  have good : ∀ P : Prop, (P → Errors (trainNetwork lib.cell n0 header records noData)) → ¬ P := by
    intro P hP hp
    obtain ⟨m, hm⟩ := hP hp
    rw [h3] at hm
    cases hm
  have herr := (C65_errors lib.cell ht header records noData).2
  have hcol : ∀ v ∈ n0.variables, v.name ∈ header := by
    intro v hv
    by_contra hno
    exact good (∃ v ∈ n0.variables, v.name ∉ header) (fun h => herr (.inl h)) ⟨v, hv, hno⟩
  have hno : ∀ v ∈ n0.variables, noData ∉ v.outcomes := by
    intro v hv hm
    exact good (∃ v ∈ n0.variables, noData ∈ v.outcomes) (fun h => herr (.inr (.inl h))) ⟨v, hv, hm⟩
  have hok : ∀ r ∈ records, CsvOK lib.cell n0 header noData r := by
    intro r hr
    by_contra hx
    exact good (∃ r ∈ records, ¬ CsvOK lib.cell n0 header noData r) (fun h => herr (.inr (.inr h))) ⟨r, hr, hx⟩
  have htr := C65_partial lib.cell n0 header records noData hcol hno hnd hok
    (fun r _ v hv hk _ => hu.resolve_right (fun h => h v hv hk))
  rw [h3] at htr
  obtain ⟨r, e1, e2⟩ := bind_inv htr.symm
  obtain ⟨t, e3, e4⟩ := trainOn_run e1
  have hr : r = (n1, none) := by
    obtain ⟨m, o⟩ := r
    unfold trainResult at e2
    cases o with
    | some e => cases e2
    | none => cases e2; rfl
  subst hr
  have hsok : ∀ s ∈ samplesOf ((records.map (csvSample lib.cell n0 header noData)).map TrainCall.add), s.OK n0 := by
    rw [samplesOf_adds]
    intro s hs
    obtain ⟨r, hr, rfl⟩ := List.mem_map.1 hs
    exact csvSample_ok ht.outcomes (hok r hr)
  have hfreq := C60_relative_frequencies ht hsok e3 e4
  rw [samplesOf_adds] at hfreq
  have hkeys : n'.variables.map (fun v => (v.name, v.nodeType, v.outcomes)) =
      n0.variables.map (fun v => (v.name, v.nodeType, v.outcomes)) := by
    have e1 := congrArg (List.map (fun v => (v.1, v.2.1, v.2.2.1))) h4.vars
    rw [List.map_map, List.map_map, hv1] at e1
    exact e1
  have hcount : n'.count = n0.count := by
    rw [← hsame.count]
    exact funext (fun s => h4.count s)
  refine ⟨c, header, records, n', h1, h2, h5, hkeys, ?_⟩
  intro v hv hch
  obtain ⟨f1, f, t1, t2, t3, t4⟩ := h4.tables v (by rw [hv1]; exact hv)
  obtain ⟨_, f0, t0, _⟩ := hall v hv
  have hf1 := List.mem_of_find?_eq_some t1
  have hf1v : f1.forVar = v.name := by simpa using List.find?_some t1
  have hfv : f.forVar = v.name := by simpa using List.find?_some t2
  have hf0v : f0.forVar = v.name := by simpa using List.find?_some t0
  have hf0 := List.mem_of_find?_eq_some t0
  obtain ⟨i, hi⟩ := List.getElem?_of_mem hf0
  obtain ⟨tb, hi1, _⟩ := hsame.2.2 i f0 hi
  have hnodup : (n1.factors.map NFactor.forVar).Nodup := (hsame.trainable ht).tables
  have hg : f1.given = f0.given := by
    have : f1 = { f0 with table := tb } :=
      List.inj_on_of_nodup_map hnodup hf1 (List.mem_of_getElem? hi1) (hf1v.trans hf0v.symm)
    rw [this]
  have hdims : f.dims = f1.dims := by unfold NFactor.dims; rw [t3, hfv, hf1v]
  have hkind : ∀ m : Net α, m.variables = n0.variables → m.isKind .chance v.name = true := by
    intro m hm
    unfold Net.isKind
    rw [hm, List.any_eq_true]
    exact ⟨v, hv, by simp [hch]⟩
  have hct : f1 ∈ n1.chanceTables := List.mem_filter.2 ⟨hf1, by rw [hf1v]; exact hkind n1 hv1⟩
  have hct0 : f0 ∈ n0.chanceTables := List.mem_filter.2 ⟨hf0, by rw [hf0v]; exact hkind n0 rfl⟩
  refine ⟨f0, f, t0, t2, t3.trans hg, ?_⟩
  intro w hw
  obtain ⟨k1, k2⟩ := hfreq f1 hct w (by rw [← hdims, ← hcount]; exact hw)
  have hent : n'.entry f w = n1.entry f1 w := by
    unfold Net.entry
    rw [hdims, t4, hcount, hsame.count]
  have hgiven : ∀ g ∈ f1.given, ∃ u ∈ n0.variables, u.name = g ∧ u.nodeType ≠ .utility := by
    intro g hgm
    rw [hg] at hgm
    obtain ⟨u, hu1, hu2⟩ := ht.parents v hv f0 hf0 hf0v g hgm
    refine ⟨u, hu1, hu2, ?_⟩
    intro hut
    have := hpar f0 hct0 g hgm
    unfold Net.isKind at this
    rw [List.any_eq_false] at this
    exact this u hu1 (by simp [hu2, hut])
  have hself : v.nodeType ≠ .utility := by rw [hch]; decide
  have hdim : ∀ g ∈ f1.dims, ∃ u ∈ n0.variables, u.name = g ∧ u.nodeType ≠ .utility := by
    intro g hgm
    unfold NFactor.dims at hgm
    rcases List.mem_append.1 hgm with hgm | hgm
    · exact hgiven g hgm
    · rw [List.mem_singleton] at hgm
      exact ⟨v, hv, by rw [hgm, hf1v], hself⟩
  have c1 : (records.map (csvSample lib.cell n0 header noData)).countP (fun s => s.InRow n0 f1.dims w) =
      records.countP (fun r => RecordIn n0 header r f1.dims w) := by
    rw [List.countP_map]
    apply List.countP_congr
    intro r hr
    simpa using csvSample_inRow ht.names hnd hno (hok r hr) hdim w
  have c2 : (records.map (csvSample lib.cell n0 header noData)).countP
      (fun s => s.InRow n0 f1.given w ∧ s.known n0 f1.forVar ≠ none) =
      records.countP (fun r => RecordIn n0 header r f1.given w ∧ csvCell header r v.name ≠ noData) := by
    rw [List.countP_map]
    apply List.countP_congr
    intro r hr
    have a1 := csvSample_inRow ht.names hnd hno (hok r hr) hgiven w
    have a2 : (csvSample lib.cell n0 header noData r).known n0 f1.forVar ≠ none ↔ csvCell header r v.name ≠ noData := by
      rw [hf1v, csvSample_known ht.names hv hself]
      split_ifs with hc <;> simp [hc]
    simp only [Function.comp, decide_eq_true_eq]
    rw [a1, a2]
  rw [c1, c2] at k1
  rw [c2] at k2
  rw [hent, hdims, t3]
  exact ⟨k2, k1⟩

/-! ## Examples -/

namespace Ex

/-- Files are networks and tables as they are. -/
def lib : Lib ℚ (NetYaml ℚ ⊕ (List String × List (List String))) where
  yaml := fun b => match b with
    | .inl y => some y
    | .inr _ => none
  encode := .inl
  xml := fun _ => none
  csv := fun b _ => match b with
    | .inl _ => .error (.error "no table")
    | .inr x => .ok x
  lower := id
  number := fun _ => none
  cell := pf

def pairYaml : NetYaml ℚ where
  name := "pair"
  info := ""
  «variables» := [⟨"A", [], "", ["x", "y", "z"], (0, 0), "", "", [[1, 2, 3]]⟩, ⟨"B", [], "nature", ["yes", "no"], (40, 0), "", "", [[1, 1]]⟩]

def files : Disk (NetYaml ℚ ⊕ (List String × List (List String))) := fun p =>
  if p = "nets/pair.yml" then some (.inl pairYaml)
  else if p = "data.csv" then some (.inr (["B", "A"], [["yes", "x"], ["no", "z"], ["", "x"], ["no", "y"]]))
  else none

theorem pair_file : fromFile lib files "nets/pair.yml" initHeap = (.ok pair, initHeap) := rfl

theorem pair_full : ∀ v ∈ pair.variables, 0 < v.outcomes.length ∧
    ∃ f, tableFor pair.factors v = some f ∧ v.outcomes.length ∣ f.tab.length := by
  intro v hv
  have : v = ⟨"A", .chance, ["x", "y", "z"], (0, 0), "", some 0⟩ ∨ v = ⟨"B", .chance, ["yes", "no"], (40, 0), "", some 1⟩ := by
    simpa [pair] using hv
  rcases this with rfl | rfl
  · exact ⟨by decide, _, rfl, by decide⟩
  · exact ⟨by decide, _, rfl, by decide⟩

theorem pair_trainable : pair.Trainable :=
  (C76_partial (name := "pair") (info := "") (vars := pairVars) (factors := pairTables) (by decide) pair_new (by decide)
    (by decide) (by decide) (by decide +kernel)).1

end Ex

/-- A session with the network of the file `nets/pair.yml`: the user moves the selected box, looks at its table, and
saves; C94 applies. -/
example (sch0 : NSched ℚ) (sch1 : Nat → NSched ℚ) (sch : Nat → Nat → NSched ℚ) : ∃ a,
    (bbniCommand Ex.lib (fun _ => true) Ex.files Ex.exactFm sch0 sch1 sch "nets/pair.yml" [] "" "" ","
      [.event (.move 'l'), .event .showTable] initHeap).2 = .ok a ∧ savePath "nets/pair.yml" = "nets/pair-save.yml" := by
  obtain ⟨a0, N, h0, hA, hnn, hs0, hp0⟩ := Ex.pair_start sch0 sch1
  have hfm : ∀ x, 0 ≤ x → x ≤ 1 → Ex.exactFm.Bar (some x) := fun x h0 h1 => Ex.exactFm_bars.bar h0 h1
  obtain ⟨b, h1, p1⟩ := hs0.step_ok hA hnn hfm (sch 0) hp0 (e := .move 'l') trivial
  obtain ⟨c, h2, p2⟩ := (hs0.step hA h1).step_ok hA hnn hfm (sch 1) p1 (e := .showTable) trivial
  refine ⟨c, ?_, C94_path.1 "nets/pair" "yml" (by decide)⟩
  have e : openApp Ex.lib Ex.files Ex.exactFm sch0 sch1 (newAppArgs "nets/pair.yml" [] "" "" ',') initHeap = .ok a0 := by
    unfold openApp
    show (fromFile Ex.lib Ex.files "nets/pair.yml" initHeap).1 >>= _ = _
    rw [Ex.pair_file]
    exact h0
  unfold bbniCommand
  rw [show parseEvidence [] = .ok [] from rfl, ok_bind, show oneRune "," = .ok ',' from rfl, ok_bind, e]
  dsimp only [App.session]
  rw [h1]
  dsimp only [App.session]
  rw [h2]

theorem lines_core [Field α] [LinearOrder α] [IsStrictOrderedRing α] [FloorRing α] {n : Net α} (vs : Option Vs)
    (names : List (String × NVar × Var)) (ev : List (String × String)) (v : NVar) :
    Net.printedLines { n with vs := vs, names := names } ev v = n.printedLines ev v := rfl

/-- What `bbn inference` prints for this network and the evidence `B=no`. -/
example (sch0 : NSched ℚ) (sch : Nat → NSched ℚ) :
    inferenceCommand Ex.lib Ex.files (fun x => fixedText 0 (x.getD 0)) sch0 sch "nets/pair.yml" ["B=no"] initHeap = .ok (
      "                                        x          y          z\n" ++
      "                             A    16.667%    33.333%    50.000%\n" ++
      "                                      yes         no\n" ++
      "                             B     0.000%   100.000%  +\n") := by
  obtain ⟨vs, names, hN⟩ := solved_chance Ex.pair_ready (by decide) sch0
  rw [C95_printed Ex.lib Ex.files (fun _ => rfl) sch0 sch "nets/pair.yml" ["B=no"] initHeap (n := Ex.pair) rfl Ex.pair_ready
    (by decide) (ev := [("B", "no")]) (by decide) ⟨by decide, by decide⟩ hN.symm (by
      have : Ex.pair.mass [] (Ex.pair.Agrees [("B", "no")]) ≠ 0 := by decide +kernel
      exact this)]
  have : textOf (Ex.pair.variables.map (Ex.pair.printedLines [("B", "no")])).flatten =
      "                                        x          y          z\n" ++
      "                             A    16.667%    33.333%    50.000%\n" ++
      "                                      yes         no\n" ++
      "                             B     0.000%   100.000%  +\n" := by decide +kernel
  refine congrArg Except.ok (Eq.trans ?_ this)
  exact congrArg (fun l => textOf (List.flatten l)) (List.map_congr_left (fun v _ => lines_core (n := Ex.pair) vs names _ v))

/-- Training with a file of four records, one without an outcome of `B`: C96 applies. -/
example : (∃ b, trainCommand Ex.lib Ex.files "nets/pair.yml" "data.csv" "" "," initHeap = .ok b) ∧
    (fromFile Ex.lib Ex.files "nets/pair.yml" initHeap).1 = .ok Ex.pair ∧ Ex.pair.Trainable ∧
    (∀ v ∈ Ex.pair.variables, v.outcomes.Nodup) ∧ (∀ v ∈ Ex.pair.variables, v.nodeType ≠ .utility) ∧
    (∀ f ∈ Ex.pair.chanceTables, ∀ g ∈ f.given, Ex.pair.isKind .utility g = false) := by
  refine ⟨?_, rfl, Ex.pair_trainable, by decide, by decide, by decide⟩
  have : (trainCommand Ex.lib Ex.files "nets/pair.yml" "data.csv" "" "," initHeap).isOk = true := by decide +kernel
  cases h : trainCommand Ex.lib Ex.files "nets/pair.yml" "data.csv" "" "," initHeap with
  | ok b => exact ⟨b, rfl⟩
  | error e => rw [h] at this; cases this

end Bbn
