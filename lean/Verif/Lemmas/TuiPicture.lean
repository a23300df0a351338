import Verif.Lemmas.TuiCanvas

/-!
# What the canvas shows throughout a session
-/

set_option autoImplicit false

namespace Bbn

variable {α : Type}

/-- The number of numbers shown for a variable. -/
def Net.lines (N : Net α) (v : NVar) : Nat :=
  if v.nodeType = .utility then (if v.name = N.totalName then v.outcomes.length + 1 else 2) else v.outcomes.length

/-- Numbers of utility nodes have texts of 12 letters. -/
def App.Short (fm : Fmt α) (a : App α) : Prop :=
  ∀ m ∈ a.nodes, m.var.nodeType = .utility → ∀ x, some x ∈ (mapGet a.marginals m.var.name).getD [] → (fm.utility x).length = 12

/-- This holds at all times of a session. -/
def App.ShortRun [Zero α] [One α] [Add α] [Mul α] [Div α] [DecidableEq α] (fm : Fmt α) (sch : Nat → Nat → NSched α) :
    Nat → List Event → App α → Prop
  | _, [], a => a.Short fm
  | k, e :: es, a => a.Short fm ∧ ∀ a', a.step fm (sch k) e = .ok a' → App.ShortRun fm sch (k + 1) es a'

/-- What holds of nodes and canvas. -/
structure App.Pictured (fm : Fmt α) (N : Net α) (a : App α) : Prop where
  nodes : ∀ n ∈ a.nodes, n.Sized ∧
    ∃ F, Pictures n.runes (boxHeight n.var) (boxWidth n.var) F ∧ Prepared (α := α) n.var (N.lines n.var) F
  known : a.ParentsKnown
  canvas : ∀ h w, HasDims a.canvas h w → Pictures a.canvas h w (a.canvasRune fm)

theorem ParentsKnown.congr {a b : App α} (hn : b.nodes.map (fun n => (n.var, n.factor)) = a.nodes.map (fun n => (n.var, n.factor)))
    (h : a.ParentsKnown) : b.ParentsKnown := by
  intro n hnm
  have : (n.var, n.factor) ∈ b.nodes.map (fun n => (n.var, n.factor)) := List.mem_map_of_mem hnm
  rw [hn] at this
  obtain ⟨x, hx, e⟩ := List.mem_map.1 this
  simp only [Prod.mk.injEq] at e
  obtain ⟨f, h1, h2⟩ := h x hx
  refine ⟨f, by rw [← e.2]; exact h1, fun p hp => ?_⟩
  obtain ⟨m, hm, hmp⟩ := h2 p hp
  have : (m.var, m.factor) ∈ a.nodes.map (fun n => (n.var, n.factor)) := List.mem_map_of_mem hm
  rw [← hn] at this
  obtain ⟨z, hz, e⟩ := List.mem_map.1 this
  simp only [Prod.mk.injEq] at e
  exact ⟨z, hz, by rw [e.1]; exact hmp⟩

/-- What is shown fits. -/
theorem App.Sound.fit [Field α] [LinearOrder α] [IsStrictOrderedRing α] {N : Net α} (hN : N.AppNet) (hnn : N.Nonneg)
    {fm : Fmt α} (hfm : ∀ x, 0 ≤ x → x ≤ 1 → fm.Bar (some x)) (htx : ∀ x, 0 ≤ x → x ≤ 1 → (fm.percent x).length = 7)
    {a : App α} (hl : a.Live N) (hv : a.nodes.map TNode.var = N.variables) (hp : Possible N a) (hsh : a.Short fm) :
    ∀ v ∈ N.variables, ∀ l : Look α, l.values = (mapGet a.marginals v.name).getD [] →
      l.values.length = N.lines v ∧ l.Fits fm v := by
  intro v hmem l hlv
  obtain ⟨s1, s2, s3, _⟩ := hl.shows_ hp
  unfold Look.Fits Net.lines
  rw [hlv]
  by_cases hu : v.nodeType = .utility
  · rw [if_pos hu, if_pos hu]
    have hshort : ∀ x, some x ∈ (mapGet a.marginals v.name).getD [] → (fm.utility x).length = 12 := by
      rw [← hv] at hmem
      obtain ⟨m, hm, rfl⟩ := List.mem_map.1 hmem
      exact hsh m hm hu
    have hout := (hN.valid.outcomes v hmem).1
    by_cases ht : v.name = N.totalName
    · rw [if_pos ht]
      obtain ⟨i, hi⟩ := List.getElem?_of_mem hmem
      have htu := (totalName_iff hN.valid hi).1 ht
      obtain ⟨f, hf, e⟩ := hN.valid.hasTable v hmem (by rw [hu]; decide)
      have hs := s3 i htu f hf (e.trans ht)
      rw [← ht] at hs
      have hc := (hN.total i htu f hf (e.trans ht)).2.1
      rw [← ht, count_eq hN.valid hmem] at hc
      refine ⟨?_, ?_, hshort⟩
      · rw [hs]; simp [hc]
      · rw [hs]; simp [hc]
    · rw [if_neg ht]
      refine ⟨?_, ?_, hshort⟩
      · rw [s2 v (List.mem_filter.2 ⟨hmem, by simp [hu, ht]⟩)]; rfl
      · rw [s2 v (List.mem_filter.2 ⟨hmem, by simp [hu, ht]⟩)]
        show 2 ≤ _
        omega
  · rw [if_neg hu, if_neg hu, s1 v (mem_stateVars.2 ⟨hmem, hu⟩)]
    have hlen : ((some ((N.posterior a.evidence a.ignorePolicies v.name).map some)).getD []).length = v.outcomes.length := by
      simp [Net.posterior, count_eq hN.valid hmem]
    refine ⟨hlen, hlen, ?_⟩
    intro x hx
    simp only [Option.getD_some, List.mem_map, Option.some.injEq, exists_eq_right] at hx
    obtain ⟨h0, h1⟩ := posterior_unit hnn _ _ _ x hx
    exact ⟨htx x h0 h1, hfm x h0 h1 x rfl⟩

/-- Drawing, in a session. -/
theorem pic_session [Field α] [LinearOrder α] [IsStrictOrderedRing α] {N : Net α} (hN : N.AppNet) (hnn : N.Nonneg)
    {fm : Fmt α} (hfm : ∀ x, 0 ≤ x → x ≤ 1 → fm.Bar (some x)) (htx : ∀ x, 0 ≤ x → x ≤ 1 → (fm.percent x).length = 7)
    {c a' : App α} {u : Bool} (h : c.render fm u = .ok a') (hl : a'.Live N) (hv : a'.nodes.map TNode.var = N.variables)
    (hp : Possible N a') (hsh : a'.Short fm)
    (hplaced : ∃ h w, HasDims c.canvas h w ∧ 1 ≤ h ∧ ∀ n ∈ c.nodes, n.bounds.Inside h w)
    (hnodes : ∀ n ∈ c.nodes, n.Sized ∧
      ∃ F, Pictures n.runes (boxHeight n.var) (boxWidth n.var) F ∧ Prepared (α := α) n.var (N.lines n.var) F)
    (hk : c.ParentsKnown) (hidx : u = false → Indexed c.nodes c.byName)
    (hc : u = true → ∀ h w, HasDims c.canvas h w → ∃ F, Pictures c.canvas h w F ∧
      ∀ y x, (∀ n ∈ c.nodes, n.bounds.contains x y = false) → F y x = edgesRune c.edges y x) : a'.Pictured fm N := by
  have hS := App.render_same h
  obtain ⟨hh, w, kd, kh, kb⟩ := hplaced
  have hfit := App.Sound.fit hN hnn hfm htx hl hv hp hsh
  rw [hS.marginals] at hfit
  have hmem : ∀ n ∈ c.nodes, n.var ∈ N.variables := by
    intro n hn
    rw [← hv, hS.vars]
    exact List.mem_map_of_mem hn
  obtain ⟨F, hF⟩ : ∃ F, u = true → Pictures c.canvas hh w F ∧
      ∀ y x, (∀ n ∈ c.nodes, n.bounds.contains x y = false) → F y x = edgesRune c.edges y x := by
    by_cases hu : u = true
    · obtain ⟨F, hF⟩ := hc hu hh w kd
      exact ⟨F, fun _ => hF⟩
    · exact ⟨fun _ _ => ' ', fun h => absurd h hu⟩
  obtain ⟨b, e, r1, r2⟩ := pic_renderApp (fm := fm) (a := c) (h := hh) (w := w) (k := N.lines) (F := F) (by
    intro i n hi
    have hn := List.mem_of_getElem? hi
    obtain ⟨f1, f2⟩ := hfit n.var (hmem n hn) (c.look i n) rfl
    exact ⟨kb n hn, (hnodes n hn).1, (hnodes n hn).2, f1, f2⟩) u kd hF (fun hu => ⟨hidx hu, hk⟩)
  rw [h] at e
  cases e
  refine ⟨r1, ?_, ?_⟩
  · refine ParentsKnown.congr ?_ hk
    have := congrArg (List.map (fun p : NVar × Option (NFactor α) × Bounds × Int => (p.1, p.2.1))) hS.nodes
    rw [List.map_map, List.map_map] at this
    exact this
  · intro h' w' hd
    exact ⟨hd.1, hd.2, r2.cell⟩

/-- The canvas of a picture shows the edges outside the boxes, whatever is selected, observed and shown. -/
theorem App.Pictured.background {fm : Fmt α} {N : Net α} {a c : App α} (h : a.Pictured fm N) (hn : c.nodes = a.nodes)
    (hcv : c.canvas = a.canvas) : ∀ hh w, HasDims c.canvas hh w → ∃ F, Pictures c.canvas hh w F ∧
      ∀ y x, (∀ n ∈ c.nodes, n.bounds.contains x y = false) → F y x = edgesRune c.edges y x := by
  intro hh w hd
  rw [hcv] at hd ⊢
  refine ⟨_, h.canvas hh w hd, ?_⟩
  intro y x hx
  rw [hn] at hx
  have he : c.edges = a.edges := edges_proj (by rw [hn])
  rw [he]
  unfold App.canvasRune
  cases hf : a.nodes.zipIdx.reverse.find? (fun p => p.1.bounds.contains x y) with
  | none => rfl
  | some q =>
    have h1 := List.find?_some hf
    have h2 := List.mem_of_find?_eq_some hf
    rw [List.mem_reverse, List.mem_zipIdx_iff_getElem?] at h2
    rw [hx q.1 (List.mem_of_getElem? h2)] at h1
    cases h1

/-- What a step does before it draws. -/
inductive Drawn [Zero α] [One α] [Add α] [Mul α] [Div α] [DecidableEq α] (fm : Fmt α) (a b : App α) : Prop
  | still (h : b = a)
  | update (c : App α) (hn : c.nodes = a.nodes) (hb : c.byName = a.byName) (hc : c.canvas = a.canvas)
      (hcl : c.colors = a.colors) (hv : c.network.variables = a.network.variables) (h : c.render fm true = .ok b)
  | move (key : Char) (n : TNode α) (d : Int × Int × Bool) (v : NVar) (ns : List (TNode α)) (vs : List NVar) (g : Grid)
      (hn : goGetI a.nodes a.selectedNode = .ok n) (hd : moveDelta n a.canvas key = .ok d)
      (hv : goGetI a.network.variables a.selectedNode = .ok v)
      (hns : goSetI a.nodes a.selectedNode (n.shift d.1 d.2.1) = .ok ns)
      (hvs : goSetI a.network.variables a.selectedNode
        { v with position := (v.position.1 + d.1, v.position.2 + d.2.1) } = .ok vs)
      (hg : (bif d.2.2 then createCanvas ns else .ok a.canvas) = .ok g)
      (h : App.render fm { a with
        nodes := ns, network := { a.network with «variables» := vs }, canvas := g
        colors := bif d.2.2 then createColors g else a.colors } false = .ok b)

theorem updateMarginals_colors [Zero α] [One α] [Add α] [Mul α] [Div α] [DecidableEq α] {sch : Nat → NSched α} (a : App α) :
    (App.updateMarginals sch a).2.colors = a.colors := by
  unfold App.updateMarginals
  rcases tuiSolve sch a.network a.evidence a.nodes a.ignorePolicies with ⟨r | r, n⟩ <;> rfl

theorem inputEnter_colors [Zero α] [One α] [Add α] [Mul α] [Div α] [DecidableEq α] {sch : Nat → NSched α} {a a' : App α}
    (h : a.inputEnter sch = .ok a') : a'.colors = a.colors := by
  obtain ⟨n, _, _, _, _, _, _, _, h⟩ := inputEnter_inv h
  rcases h with ⟨_, rfl⟩ | ⟨_, value, _, h, _⟩
  · rfl
  · have := updateMarginals_colors (sch := sch) { a with evidence := toggleEvidence a.evidence n.var.name value }
    rw [h] at this
    exact this

theorem step_drawn [Zero α] [One α] [Add α] [Mul α] [Div α] [DecidableEq α] {fm : Fmt α} {sch : Nat → NSched α} {a a' : App α}
    {e : Event} (h : a.step fm sch e = .ok a') : Drawn fm a a' := by
  have enter : ∀ {i s : Int} {b : App α}, App.inputEnter sch { a with selectedNode := i, selectedState := s } = .ok b →
      b.render fm true = .ok a' → Drawn fm a a' := by
    intro i s b hb h
    have hv := inputEnter_vars hb
    obtain ⟨n, _, h1, h2, _, _, _, h3, _⟩ := inputEnter_inv hb
    have hcl := inputEnter_colors hb
    exact .update b h1 h2 h3 hcl hv h
  have sel : ∀ {i s : Int}, App.render fm { a with selectedNode := i, selectedState := s } true = .ok a' → Drawn fm a a' :=
    fun {i s} h => .update { a with selectedNode := i, selectedState := s } rfl rfl rfl rfl rfl h
  cases e with
  | tab =>
    rw [App.step] at h
    split_ifs at h
    exact sel h
  | backtab =>
    rw [App.step] at h
    exact sel h
  | space =>
    rw [App.step] at h
    obtain ⟨n, _, h⟩ := bind_inv h
    split_ifs at h
    exact sel h
  | digit c =>
    rw [App.step, App.selectNodeOutcome] at h
    cases hg : goAtoi (String.singleton c) with
    | none => rw [hg] at h; cases h
    | some i =>
      rw [hg] at h
      obtain ⟨n, _, h⟩ := bind_inv h
      split_ifs at h
      · exact sel h
      · cases h; exact .still rfl
  | enter =>
    rw [App.step] at h
    obtain ⟨b, hb, h⟩ := bind_inv h
    exact enter (i := a.selectedNode) (s := a.selectedState) hb h
  | showTable =>
    rw [App.step] at h
    obtain ⟨_, _, h⟩ := bind_inv h
    obtain ⟨_, _, h⟩ := bind_inv h
    cases h
    exact .still rfl
  | togglePolicies =>
    rw [App.step, App.toggleIgnorePolicy] at h
    have hv := updateMarginals_vars sch { a with ignorePolicies := !a.ignorePolicies }
    obtain ⟨u1, u2, _, _, _, _, u7⟩ := updateMarginals_same (sch := sch) { a with ignorePolicies := !a.ignorePolicies }
    have u8 := updateMarginals_colors (sch := sch) { a with ignorePolicies := !a.ignorePolicies }
    rcases hs : App.updateMarginals sch { a with ignorePolicies := !a.ignorePolicies } with ⟨r, b⟩
    rw [hs] at h hv u1 u2 u7 u8
    match r, h with
    | .ok (), h => exact .update b u1 u2 u7 u8 hv h
    | .error (.error _), h => exact .update b u1 u2 u7 u8 hv h
  | move key =>
    rw [App.step] at h
    unfold App.moveNode at h
    obtain ⟨n, hn, h⟩ := bind_inv h
    obtain ⟨d, hd, h⟩ := bind_inv h
    split_ifs at h
    · cases h; exact .still rfl
    · obtain ⟨v, hv, h⟩ := bind_inv h
      obtain ⟨ns, hns, h⟩ := bind_inv h
      obtain ⟨vs, hvs, h⟩ := bind_inv h
      obtain ⟨g, hg, h⟩ := bind_inv h
      exact .move key n d v ns vs g hn hd hv hns hvs hg h
  | leftClick x y =>
    rw [App.step, App.leftClick] at h
    split at h
    · cases h; exact .still rfl
    · rename_i n i _
      obtain ⟨b, hb, h⟩ := bind_inv h
      cases ho : n.selectedOutcome x y with
      | some o =>
        rw [ho] at hb
        exact enter hb h
      | none =>
        rw [ho] at hb; cases hb
        exact sel h
  | rightClick x y =>
    rw [App.step, App.rightClick] at h
    split at h
    · cases h; exact .still rfl
    · obtain ⟨b, hb, h⟩ := bind_inv h
      obtain ⟨_, _, h⟩ := bind_inv h
      obtain ⟨_, _, h⟩ := bind_inv h
      cases h
      exact sel hb

section

variable [Field α] [LinearOrder α] [IsStrictOrderedRing α]

theorem App.Pictured.step {N : Net α} (hN : N.AppNet) (hnn : N.Nonneg) {fm : Fmt α}
    (hfm : ∀ x, 0 ≤ x → x ≤ 1 → fm.Bar (some x)) (htx : ∀ x, 0 ≤ x → x ≤ 1 → (fm.percent x).length = 7)
    {sch : Nat → NSched α} {a a' : App α} {e : Event} (hpic : a.Pictured fm N) (hs : a.Sound N)
    (h : a.step fm sch e = .ok a') (hp : Possible N a') (hsh : a'.Short fm) : a'.Pictured fm N := by
  have hs' := hs.step hN h
  cases step_drawn h with
  | still e => rw [e]; exact hpic
  | update c hn hb hc _ hv h =>
    refine pic_session hN hnn hfm htx h hs'.live hs'.vars hp hsh (hs.placed.congr hn hb hc hv).canvas (by rw [hn]; exact hpic.nodes)
      (ParentsKnown.congr (by rw [hn]) hpic.known) (fun hu => by cases hu) (fun _ => hpic.background hn hc)
  | move key n d v ns vs g hn hd hv hns hvs hg h =>
    have hpl := hs.placed.moved hn hd hv hns hvs hg (bif d.2.2 then createColors g else a.colors)
    have hmap : ns.map (fun n => (n.var, n.factor)) = a.nodes.map (fun n => (n.var, n.factor)) := by
      obtain ⟨_, _, rfl⟩ := goSetI_inv hns
      exact List.map_set_congr (goGetI_inv hn).2.2 _ rfl
    refine pic_session hN hnn hfm htx h hs'.live hs'.vars hp hsh hpl.canvas ?_ (ParentsKnown.congr hmap hpic.known) (fun _ => ?_)
      (fun hu => by cases hu)
    · intro m hm
      obtain ⟨_, _, rfl⟩ := goSetI_inv hns
      rcases List.mem_or_eq_of_mem_set hm with h1 | h1
      · exact hpic.nodes m h1
      · obtain ⟨k1, k2⟩ := hpic.nodes n (List.mem_of_getElem? (goGetI_inv hn).2.2)
        rw [h1]
        exact ⟨⟨k1.w, k1.h, k1.barsX⟩, k2⟩
    · intro i m hm
      have hm : ns[i]? = some m := hm
      have : (ns.map (fun n => (n.var, n.factor)))[i]? = some (m.var, m.factor) := by rw [List.getElem?_map, hm]; rfl
      rw [hmap, List.getElem?_map] at this
      obtain ⟨x, hx, e⟩ := Option.map_eq_some_iff.1 this
      simp only [Prod.mk.injEq] at e
      rw [← e.1]
      exact hs.byName i x hx

theorem App.Pictured.run {N : Net α} (hN : N.AppNet) (hnn : N.Nonneg) {fm : Fmt α}
    (hfm : ∀ x, 0 ≤ x → x ≤ 1 → fm.Bar (some x)) (htx : ∀ x, 0 ≤ x → x ≤ 1 → (fm.percent x).length = 7)
    (sch : Nat → Nat → NSched α) : ∀ (es : List Event) (k : Nat) (a : App α), a.Sound N → Possible N a → a.Pictured fm N →
    App.CarefulRun fm sch N k es a → App.ShortRun fm sch k es a →
    ∃ a', App.run fm sch k es a = .ok a' ∧ a'.Sound N ∧ Possible N a' ∧ a'.Pictured fm N := by
  intro es
  induction es with
  | nil => intro k a hs hp hpic _ _; exact ⟨a, rfl, hs, hp, hpic⟩
  | cons e es ih =>
    intro k a hs hp hpic hc hr
    obtain ⟨b, h1, h2⟩ := hs.step_ok hN hnn hfm (sch k) hp hc.1
    have hrb := hr.2 b h1
    have hsb : b.Short fm := by
      cases es with
      | nil => exact hrb
      | cons e es => exact hrb.1
    obtain ⟨a', h3, h4⟩ := ih (k + 1) b (hs.step hN h1) h2 (hpic.step hN hnn hfm htx hs h1 h2 hsb) (hc.2 b h1) hrb
    exact ⟨a', by rw [App.run, h1, ok_bind]; exact h3, h4⟩

omit [Field α] [LinearOrder α] [IsStrictOrderedRing α] in
theorem appNodes_pictured {n : Net α} {nodes : List (TNode α)} (h : appNodes n = .ok nodes) (k : NVar → Nat) :
    ∀ m ∈ nodes, m.Sized ∧ ∃ F, Pictures m.runes (boxHeight m.var) (boxWidth m.var) F ∧ Prepared (α := α) m.var (k m.var) F := by
  have hall := mapM_forall₂ h
  clear h
  generalize n.variables = vs at hall
  intro m hm
  induction hall with
  | nil => cases hm
  | cons hx _ ih =>
    rcases List.mem_cons.1 hm with rfl | hm
    · obtain ⟨e1, e2, e3⟩ := pic_newNode hx (k m.var)
      rw [← e1] at e3
      exact ⟨e2, e3⟩
    · exact ih hm

/-- The first picture. -/
theorem startApp_pictured {n : Net α} (hr : AppReady n) {fm : Fmt α}
    (hfm : ∀ x, 0 ≤ x → x ≤ 1 → fm.Bar (some x)) (htx : ∀ x, 0 ≤ x → x ≤ 1 → (fm.percent x).length = 7)
    {sch0 : NSched α} {sch : Nat → NSched α} {evidence : List (String × String)} {a : App α}
    (h : startApp fm sch0 sch n evidence = .ok a) {N : Net α} (hN : N.AppNet) (hnn : N.Nonneg)
    (hs : a.Sound N) (hp : Possible N a) (hsh : a.Short fm) : a.Pictured fm N := by
  have hpl := hs.placed
  unfold startApp at h
  obtain ⟨nodes, h1, h⟩ := bind_inv h
  dsimp only at h
  obtain ⟨policies, h2, h⟩ := bind_inv h
  obtain ⟨ns, h3, h⟩ := bind_inv h
  obtain ⟨_, hvars, hfac⟩ := started_nodes hr h1 h2 h3
  have hsame := usePolicies_same h3
  obtain ⟨u1, u2, _⟩ := updateMarginals_same (sch := sch) (⟨ns, nodes.zipIdx.foldl (fun m p => mapSet m p.1.var.name p.2) [],
    (n.solvePolicies sch0 true).2, evidence, [], 0, 0, false, [], [], ""⟩ : App α)
  rcases hm : App.updateMarginals sch (⟨ns, nodes.zipIdx.foldl (fun m p => mapSet m p.1.var.name p.2) [],
    (n.solvePolicies sch0 true).2, evidence, [], 0, 0, false, [], [], ""⟩ : App α) with ⟨e | u, b⟩
  · rw [hm] at h; cases h
  rw [hm] at h u1 u2
  dsimp only at h u1 u2
  obtain ⟨g, hg, h⟩ := bind_inv h
  have hS := App.render_same h
  have hbd := hS.boundsEq
  obtain ⟨_, _, _, _, kb⟩ := hpl.canvas
  have hin : ∀ m ∈ b.nodes, 0 ≤ m.bounds.x ∧ 0 ≤ m.bounds.y ∧ 1 ≤ m.bounds.w ∧ 1 ≤ m.bounds.h := by
    intro m hm
    have : m.bounds ∈ a.nodes.map TNode.bounds := by rw [hbd]; exact List.mem_map_of_mem hm
    obtain ⟨x, hx, e⟩ := List.mem_map.1 this
    rw [← e]
    have := kb x hx
    exact ⟨this.x0, this.y0, this.w1, this.h1⟩
  obtain ⟨g', hh, w, e1, e2, e3, e4⟩ := createCanvas_inside hin
  rw [hg] at e1
  cases e1
  refine pic_session hN hnn hfm htx h hs.live hs.vars hp hsh ⟨hh, w, e2, e3, e4⟩ ?_ ?_ (fun _ => ?_) (fun hu => by cases hu)
  · show ∀ m ∈ b.nodes, _
    rw [u1]
    intro m hm
    have : (m.var, m.bounds, m.runes, m.barsX) ∈ ns.map (fun n => (n.var, n.bounds, n.runes, n.barsX)) :=
      List.mem_map_of_mem hm
    rw [hsame] at this
    obtain ⟨x, hx, e⟩ := List.mem_map.1 this
    simp only [Prod.mk.injEq] at e
    obtain ⟨f1, f2, f3, f4⟩ := e
    obtain ⟨k1, k2⟩ := appNodes_pictured h1 N.lines x hx
    rw [f1, f3] at k2
    exact ⟨⟨by rw [← f2, ← f1]; exact k1.w, by rw [← f2, ← f1]; exact k1.h, by rw [← f4, ← f1]; exact k1.barsX⟩, k2⟩
  · show ∀ m ∈ b.nodes, _
    rw [u1]
    intro m hm
    obtain ⟨f, k1, _, k3, _⟩ := hfac m hm
    refine ⟨f, k1, fun p hp => ?_⟩
    obtain ⟨v, hv, e⟩ := k3 p hp
    rw [← hvars] at hv
    obtain ⟨x, hx, rfl⟩ := List.mem_map.1 hv
    exact ⟨x, hx, e⟩
  · show Indexed b.nodes b.byName
    rw [u1, u2]
    have := appNodes_indexed hr.valid hvars
    have en : nodes.map (fun n => n.var.name) = ns.map (fun n => n.var.name) := by
      have := congrArg (List.map (fun p : NVar × Bounds × Grid × Int => p.1.name)) hsame
      rw [List.map_map, List.map_map] at this
      exact this.symm
    rw [zipIdx_names en 0 []]
    exact this

end

end Bbn
