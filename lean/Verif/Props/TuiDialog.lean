import Verif.Props.TuiPages
import Verif.Props.TuiTable
import Verif.Props.TuiCases
import Verif.Lemmas.TuiOk

/-!
# The table dialog: C105
-/

set_option autoImplicit false

namespace Bbn

variable {α B : Type}

/-- A property of the app that is kept by all events holds whatever is pressed and clicked. -/
theorem reached_keep [Zero α] [One α] [Add α] [Mul α] [Div α] [DecidableEq α] {lib : Lib α B} {writable : String → Bool}
    {file : String} {isDigit : Char → Bool} {fm : Fmt α} (P : App α → Prop)
    (hs : ∀ sch a e a', P a → a.step fm sch e = .ok a' → P a') {a : App α} {disk : Disk B} {s : Screen α B}
    (h : Screen.Reached lib writable file isDigit fm a disk s) (ha : P a) : P s.app := by
  obtain ⟨sch, is, h⟩ := h
  obtain ⟨sch', js, _, e⟩ := C104_session (lib := lib) (writable := writable) (file := file) (isDigit := isDigit) (fm := fm)
    a disk sch is
  rw [h] at e
  exact session_keep P (fun k => hs (sch' k)) js 0 a s.app disk (by rw [e]; rfl) ha

theorem nodeOutcomes_var {n : Net α} (hv : n.Valid) {nodes : List (TNode α)} (h : nodes.map TNode.var = n.variables) {v : NVar}
    (hm : v ∈ n.variables) : nodeOutcomes nodes v.name = v.outcomes := by
  have hf := find_name hv hm
  rw [← h, List.find?_map] at hf
  unfold nodeOutcomes
  cases hx : nodes.find? ((fun u : NVar => decide (u.name = v.name)) ∘ TNode.var) with
  | none => rw [hx] at hf; cases hf
  | some m =>
    rw [hx] at hf
    have : nodes.find? (fun n => decide (n.var.name = v.name)) = some m := hx
    rw [this]
    cases hf
    rfl

/-- **C105 (the table).** Whatever was pressed and clicked since the app was started with the network: while the table page
is open, its title is the name of the selected variable, and its content is the variable's table in the network or, for a
decision, the policy that was solved at the start. Its first row has the names of the parents and of the outcomes; the row of a
world has the parents' outcomes in that world and the numbers of the table: utilities as they are, others as percentages of
their sum. -/
theorem C105_table [Field α] [LinearOrder α] [IsStrictOrderedRing α] {lib : Lib α B} {writable : String → Bool}
    {file : String} {isDigit : Char → Bool} {fm : Fmt α} {n : Net α} (hr : AppReady n) {sch0 : NSched α} {sch : Nat → NSched α}
    {evidence : List (String × String)} {a : App α} (ha : startApp fm sch0 sch n evidence = .ok a)
    {disk : Disk B} {s : Screen α B} (h : Screen.Reached lib writable file isDigit fm a disk s) (hp : s.At .table) :
    ∃ v f t, 0 ≤ s.app.selectedNode ∧ n.variables[s.app.selectedNode.toNat]? = some v ∧ f.forVar = v.name ∧
      (v.nodeType ≠ .decision → f ∈ n.factors) ∧
      (v.nodeType = .decision → ∃ policies, (n.solvePolicies sch0 true).1 = .ok policies ∧ (v.name, f) ∈ policies) ∧
      s.content = some (" " ++ v.name ++ " ", t) ∧
      (∀ c, c < f.given.length + v.outcomes.length → t.cell fm 0 c = .ok ((f.given ++ v.outcomes).getD c "")) ∧
      ∀ w : World, (∀ g ∈ f.given, w g < n.count g) →
        let row := rowMajor (f.given.map (fun g => (n.count g, w g)))
        (∀ c g u, f.given[c]? = some g → u ∈ n.variables → u.name = g →
          t.cell fm (row + 1) c = .ok (u.outcomes.getD (w g) "")) ∧
        (v.name ≠ n.totalName → ∀ k, k < v.outcomes.length →
          t.cell fm (row + 1) (f.given.length + k) = .ok (
            if v.nodeType = .utility then fm.cellUtility (n.entry f (w.set v.name k))
            else if n.rowSum f w = 0 then "    NaN%"
            else fm.cellPercent (100 * n.entry f (w.set v.name k) / n.rowSum f w))) := by
  obtain ⟨st, _, _⟩ := startApp_inv ha
  obtain ⟨policies, ep, htab⟩ := startApp_tables hr ha
  have hkeep := reached_keep (fun b : App α => b.nodes.map (fun n => (n.var, n.factor)) = a.nodes.map (fun n => (n.var, n.factor)) ∧
    b.byName = a.byName) (fun _ b e b' hb hst => by
      obtain ⟨v1, v2⟩ := step_vars hst
      have := congrArg (List.map (fun p => (p.1, p.2.1))) v1
      rw [List.map_map, List.map_map] at this
      exact ⟨this.trans hb.1, v2.trans hb.2⟩) h ⟨rfl, rfl⟩
  obtain ⟨hn, hb⟩ := hkeep
  obtain ⟨m, t, hm, ht, hc⟩ := (reached_faithful st.ignorePolicies h).2 hp.2
  obtain ⟨i1, i2, i3⟩ := goGetI_inv hm
  have hvars : s.app.nodes.map TNode.var = n.variables := by
    have := congrArg (List.map Prod.fst) hn
    rw [List.map_map, List.map_map] at this
    exact this.trans st.vars
  have hv : n.variables[s.app.selectedNode.toNat]? = some m.var := by rw [← hvars, List.getElem?_map, i3]; rfl
  have hvm := List.mem_of_getElem? hv
  have hmem : (m.var, m.factor) ∈ a.nodes.map (fun n => (n.var, n.factor)) := by
    rw [← hn]; exact List.mem_map_of_mem (f := fun n : TNode α => (n.var, n.factor)) (List.mem_of_getElem? i3)
  obtain ⟨x, hx, ex⟩ := List.mem_map.1 hmem
  simp only [Prod.mk.injEq] at ex
  obtain ⟨f, f1, f2, f3, f4, f5⟩ := htab x hx
  rw [ex.2] at f1
  rw [ex.1] at f2 f4 f5
  have hidx : Indexed s.app.nodes s.app.byName := by
    intro i y hy
    have e : (a.nodes.map TNode.var)[i]? = some y.var := by
      rw [st.vars, ← hvars, List.getElem?_map, hy]; rfl
    rw [List.getElem?_map] at e
    cases hz : a.nodes[i]? with
    | none => rw [hz] at e; cases e
    | some z =>
      rw [hz] at e
      have ez : z.var = y.var := Option.some.inj e
      have := appNodes_indexed hr.valid st.vars i z hz
      rw [hb, st.byName, ← ez]
      exact this
  have hview : Viewed s.app.nodes s.app.byName s.app.selectedNode.toNat m f t := by
    refine ⟨hidx, i3, f1, f2, ?_, ?_⟩
    · intro g hg
      obtain ⟨u, hu, rfl⟩ := f3 g hg
      rw [← hvars] at hu
      obtain ⟨y, hy, rfl⟩ := List.mem_map.1 hu
      exact List.mem_map_of_mem (f := fun n : TNode α => n.var.name) hy
    · rw [Int.toNat_of_nonneg i1]; exact ht
  have hcount : ∀ g ∈ f.given, (nodeOutcomes s.app.nodes g).length = n.count g := by
    intro g hg
    obtain ⟨u, hu, rfl⟩ := f3 g hg
    rw [nodeOutcomes_var hr.valid hvars hu, count_eq hr.valid hu]
  refine ⟨m.var, f, t, i1, hv, f2, f5, fun hd => ⟨policies, ep, f4 hd⟩, hc, ?_, ?_⟩
  · obtain ⟨t', t1, t2, t3⟩ := C68_header fm hidx i3 f1 f2
    rw [Int.toNat_of_nonneg i1, ht] at t1
    cases t1
    rw [t2] at t3
    exact t3
  · intro w hw row
    have hrow : row = worldRow s.app.nodes f w := by
      unfold worldRow
      exact congrArg rowMajor (List.map_congr_left (fun g hg => by rw [hcount g hg]))
    have hw' : ∀ g ∈ f.given, w g < (nodeOutcomes s.app.nodes g).length := fun g hg => by rw [hcount g hg]; exact hw g hg
    rw [hrow]
    refine ⟨?_, ?_⟩
    · rintro c g u hcg hu rfl
      rw [C68_parents fm hview hw' hcg, nodeOutcomes_var hr.valid hvars hu]
    · intro htot k hk
      have hsize : (f.dims.Nodup) ∧ ∃ data, f.table = some data ∧ data.length = (f.dims.map n.count).prod := by
        by_cases hd : m.var.nodeType = .decision
        · obtain ⟨tables, N, k1, _, _, kt, _⟩ := hr.solve sch0
          rw [k1] at ep
          cases ep
          have := kt _ (f4 hd)
          exact ⟨this.dims, this.size⟩
        · refine ⟨hr.valid.dims f (f5 hd), hr.valid.size f (f5 hd) (by rw [f2]; exact htot) ?_⟩
          rw [f2, Bool.eq_false_iff, Ne, isKind_iff hr.valid hvm]
          exact hd
      obtain ⟨hdims, data, hdata, hlen⟩ := hsize
      have htab' : f.tab = data := by unfold NFactor.tab; rw [hdata]; rfl
      have hnot : m.var.name ∉ f.given := by
        unfold NFactor.dims at hdims
        rw [List.nodup_append] at hdims
        intro hg
        exact hdims.2.2 _ hg _ (by rw [f2]; simp) rfl
      have hcv : n.count m.var.name = m.var.outcomes.length := count_eq hr.valid hvm
      have hgiven : f.given.map (fun g => (nodeOutcomes s.app.nodes g).length) = f.given.map n.count :=
        List.map_congr_left hcount
      have hentry : ∀ k, n.entry f (w.set m.var.name k) = f.tab.getD
          (rowMajor (f.given.map (fun g => ((nodeOutcomes s.app.nodes g).length, w g)) ++ [(m.var.outcomes.length, k)])) 0 := by
        intro k
        unfold Net.entry NFactor.dims
        rw [List.map_append, f2]
        congr 2
        congr 1
        · refine List.map_congr_left (fun g hg => ?_)
          rw [hcount g hg]
          unfold World.set
          rw [if_neg (by rintro rfl; exact hnot hg)]
        · simp [World.set, hcv]
      have hlen' : f.tab.length = (f.given.map (fun g => (nodeOutcomes s.app.nodes g).length)).prod * m.var.outcomes.length := by
        rw [htab', hlen, hgiven]
        unfold NFactor.dims
        rw [List.map_append, List.prod_append, f2]
        simp [hcv]
      have hval := C68_values fm hview hw' hlen' hk
      have hsum : n.rowSum f w = ((List.range m.var.outcomes.length).map (fun k => n.entry f (w.set m.var.name k))).sum := by
        unfold Net.rowSum
        rw [f2, hcv]
        generalize m.var.outcomes.length = c
        induction c with
        | zero => simp
        | succ c ih => rw [Finset.sum_range_succ, ih, List.range_succ, List.map_append, List.sum_append]; simp
      rw [hsum]
      simp only [hentry]
      exact hval

namespace Ex

/-- Screens that the app with the umbrella network reaches: with the help page open after the key `h`, with the graph after
ESC, with the table of the first variable after the key `t`. -/
theorem umb_screens (lib : Lib ℚ B) (writable : String → Bool) (file : String) (disk : Disk B) (sch0 : NSched ℚ)
    (sch1 : Nat → NSched ℚ) : ∃ a0 s1 s2 s3, startApp exactFm sch0 sch1 umb [] = .ok a0 ∧
      Screen.Reached lib writable file Char.isDigit exactFm a0 disk s1 ∧ s1.At .help ∧
      Screen.Reached lib writable file Char.isDigit exactFm a0 disk s2 ∧ s2.At .graph ∧
      Screen.Reached lib writable file Char.isDigit exactFm a0 disk s3 ∧ s3.At .table := by
  have hfm : ∀ x, 0 ≤ x → x ≤ 1 → exactFm.Bar (some x) := fun x h0 h1 => exactFm_bars.bar h0 h1
  obtain ⟨hA, hnn, a0, h0, hs0, _⟩ := startApp_ok umb_ready (by decide) (by decide) (by decide) (by decide +kernel) hfm
    sch0 sch1 (evidence := []) ⟨by simp, by simp⟩ rfl (umb_possible sch0)
  obtain ⟨c1, c2, c3, c4⟩ := C104_start h0 disk
  rw [if_pos (by rfl)] at c1
  have ht := startScreen_tidy a0 disk
  obtain ⟨p1, p2⟩ := ht.pages c1
  have k1 : (startScreen a0 disk).act lib writable file Char.isDigit exactFm sch1 (.key (.rune 'h')) =
      .ok ((startScreen a0 disk).openDialog .help) := by
    unfold Screen.act
    dsimp only
    rw [p2]
    rfl
  have q1 := at_of (openDialog_at p1 .help)
  obtain ⟨s2, k2, ⟨b1, b2, b3, b4⟩, q2⟩ := dialog_act (lib := lib) (writable := writable) (file := file)
    (isDigit := Char.isDigit) (fm := exactFm) (act_tidy ht k1) q1 (by decide) sch1 (.key .esc)
  obtain ⟨p3, p4⟩ := (act_tidy (act_tidy ht k1) k2).pages q2
  have b4' : s2.running = true := b4.trans c4
  have b1' : s2.app = a0 := b1.trans c2
  obtain ⟨_, n, t, k3, _⟩ := (showTable_eq s2).2 a0 (by rw [b1']; exact hs0.showTable_ok hA)
  have k3' : s2.act lib writable file Char.isDigit exactFm sch1 (.key (.rune 't')) = s2.showTable := by
    unfold Screen.act
    dsimp only
    rw [p4]
    rfl
  refine ⟨a0, _, s2, _, h0, ⟨fun _ => sch1, [.key (.rune 'h')], ?_⟩, q1,
    ⟨fun _ => sch1, [.key (.rune 'h'), .key .esc], ?_⟩, q2,
    ⟨fun _ => sch1, [.key (.rune 'h'), .key .esc, .key (.rune 't')], ?_⟩,
    at_of (openDialog_at (s := { s2 with content := some (" " ++ n.var.name ++ " ", t) }) p3 .table)⟩
  · simp only [Screen.run, c4, if_true, k1]
  · have : ((startScreen a0 disk).openDialog .help).running = true := c4
    simp only [Screen.run, c4, if_true, k1, this, k2]
  · have : ((startScreen a0 disk).openDialog .help).running = true := c4
    simp only [Screen.run, c4, if_true, k1, this, k2, b4', k3', k3]

/-- The conditions of C104 and C105 hold there: the page after `h`, ESC, `t` is about a variable of the network. -/
example (lib : Lib ℚ B) (writable : String → Bool) (file : String) (disk : Disk B) (sch0 : NSched ℚ) (sch1 : Nat → NSched ℚ) :
    ∃ a0 s v t, startApp exactFm sch0 sch1 umb [] = .ok a0 ∧
      Screen.Reached lib writable file Char.isDigit exactFm a0 disk s ∧ s.At .table ∧ s.blue = s.app.ignorePolicies ∧
      v ∈ umb.variables ∧ s.content = some (" " ++ v.name ++ " ", t) := by
  obtain ⟨a0, _, _, s, h0, _, _, _, _, h1, h2⟩ := umb_screens lib writable file disk sch0 sch1
  obtain ⟨v, f, t, _, hv, _, _, _, hc, _⟩ := C105_table umb_ready h0 h1 h2
  exact ⟨a0, s, v, t, h0, h1, h2, C105_border h0 h1, List.mem_of_getElem? hv, hc⟩

end Ex

end Bbn
