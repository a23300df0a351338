import Verif.Lemmas.TuiKeep
import Verif.Props.Xml
import Verif.Props.TuiBasic

/-!
# The start of the app, and sessions
-/

set_option autoImplicit false
set_option linter.unusedSectionVars false

namespace Bbn

variable {α : Type}

theorem mapM_forall₂ {β γ : Type} {f : β → Except Fault γ} : ∀ {l : List β} {ys : List γ}, l.mapM f = .ok ys →
    List.Forall₂ (fun x y => f x = .ok y) l ys := by
  intro l
  induction l with
  | nil => intro ys h; cases h; exact .nil
  | cons x l ih =>
    intro ys h
    rw [List.mapM_cons] at h
    obtain ⟨y, h1, h⟩ := bind_inv h
    obtain ⟨zs, h2, h⟩ := bind_inv h
    cases h
    exact .cons h1 (ih h2)

theorem foldl_extend_origin : ∀ (l : List Bounds) (b : Bounds), b.x = 0 → b.y = 0 → 1 ≤ b.w → 1 ≤ b.h →
    (∀ o ∈ l, 0 ≤ o.x ∧ 0 ≤ o.y) →
    (l.foldl Bounds.extend b).x = 0 ∧ (l.foldl Bounds.extend b).y = 0 ∧
    b.w ≤ (l.foldl Bounds.extend b).w ∧ b.h ≤ (l.foldl Bounds.extend b).h ∧
    ∀ o ∈ l, o.x + o.w ≤ (l.foldl Bounds.extend b).w ∧ o.y + o.h ≤ (l.foldl Bounds.extend b).h := by
  intro l
  induction l with
  | nil => intro b h1 h2 _ _ _; exact ⟨h1, h2, le_rfl, le_rfl, by simp⟩
  | cons o l ih =>
    intro b h1 h2 h3 h4 ho
    obtain ⟨e1, e2, e3, e4⟩ := extend_sides b o
    have := ho o (by simp)
    obtain ⟨i1, i2, i3, i4, i5⟩ := ih (b.extend o) (by omega) (by omega) (by omega) (by omega)
      (fun o' h' => ho o' (by simp [h']))
    rw [List.foldl_cons]
    refine ⟨i1, i2, by omega, by omega, ?_⟩
    intro o' h'
    rcases List.mem_cons.1 h' with rfl | h'
    · omega
    · exact i5 o' h'

/-- A canvas made for nodes with no negative place holds all of them. -/
theorem createCanvas_inside {nodes : List (TNode α)}
    (hn : ∀ n ∈ nodes, 0 ≤ n.bounds.x ∧ 0 ≤ n.bounds.y ∧ 1 ≤ n.bounds.w ∧ 1 ≤ n.bounds.h) :
    ∃ g h w, createCanvas nodes = .ok g ∧ HasDims g h w ∧ 1 ≤ h ∧ ∀ n ∈ nodes, n.bounds.Inside h w := by
  have hf : nodes.foldl (fun (b : Bounds) n => b.extend n.bounds) ⟨0, 0, 1, 1⟩ =
      (nodes.map TNode.bounds).foldl Bounds.extend ⟨0, 0, 1, 1⟩ := by rw [List.foldl_map]
  obtain ⟨h1, h2, h3, h4, h5⟩ := foldl_extend_origin (nodes.map TNode.bounds) ⟨0, 0, 1, 1⟩ rfl rfl (by decide) (by decide)
    (fun o ho => by obtain ⟨n, h, rfl⟩ := List.mem_map.1 ho; exact ⟨(hn n h).1, (hn n h).2.1⟩)
  unfold createCanvas
  rw [hf]
  generalize (nodes.map TNode.bounds).foldl Bounds.extend ⟨0, 0, 1, 1⟩ = b at *
  dsimp only at h3 h4 ⊢
  rw [if_neg (by omega)]
  refine ⟨_, b.h, b.w, rfl, hasDims_replicate _ _ _ (by omega) (by omega), by omega, ?_⟩
  intro n hm
  obtain ⟨k1, k2, k3, k4⟩ := hn n hm
  obtain ⟨k5, k6⟩ := h5 n.bounds (List.mem_map_of_mem hm)
  exact ⟨k1, k2, k3, k4, k5, k6⟩

section

variable [Zero α] [One α] [Add α] [Mul α] [Div α] [DecidableEq α]

/-- A relation between a network before and after calls. -/
structure CallRel (R : Net α → Net α → Prop) : Prop where
  refl : ∀ n, R n n
  trans : ∀ {a b c}, R a b → R b c → R a c
  solve : ∀ sch n evidence query utility u ign, R n (n.solve sch evidence query utility u ign).2
  loop : ∀ n f qs r, R n (Net.queryLoop f qs r n).2

theorem CallRel.solveQueryNet_rel {R : Net α → Net α → Prop} (hR : CallRel R) (sch : NSched α) (n : Net α) (evidence : List (String × String)) (query : List String) (ign : Bool) :
    R n (n.solveQuery sch evidence query ign).2 := by
  unfold Net.solveQuery
  have h1 := hR.solve sch n evidence query false "" ign
  rcases hs : n.solve sch evidence query false "" ign with ⟨r | f, m⟩
  · rw [hs] at h1; exact h1
  · rw [hs] at h1
    dsimp only
    have h2 := hR.loop m f query []
    rcases hq : Net.queryLoop f query [] m with ⟨r | r, m'⟩
    · rw [hq] at h2; exact hR.trans h1 h2
    · rw [hq] at h2; exact hR.trans h1 h2

theorem CallRel.solveQueryLoop_rel {R : Net α → Net α → Prop} (hR : CallRel R) {sch : Nat → NSched α} {evidence : List (String × String)} {ign : Bool} :
    ∀ (qs : List String) (k : Nat) (n : Net α) (r : Shown α), R n (solveQueryLoop sch evidence ign k qs n r).2 := by
  intro qs
  induction qs with
  | nil => intro k n r; exact hR.refl _
  | cons q qs ih =>
    intro k n r
    rw [solveQueryLoop]
    have h1 := hR.solveQueryNet_rel (sch k) n evidence [q] ign
    rcases hs : n.solveQuery (sch k) evidence [q] ign with ⟨e | ⟨res, f⟩, m⟩
    · rw [hs] at h1; exact h1
    · rw [hs] at h1
      dsimp only
      cases mapGet res q with
      | none => exact h1
      | some p => exact hR.trans h1 (ih _ _ _)

theorem CallRel.solveUtilityLoop_rel {R : Net α → Net α → Prop} (hR : CallRel R) {sch : Nat → NSched α} {evidence : List (String × String)} {ign : Bool} {p t : Option α} :
    ∀ (us : List String) (k : Nat) (n : Net α) (r : Shown α), R n (solveUtilityLoop sch evidence ign p t k us n r).2 := by
  intro us
  induction us with
  | nil => intro k n r; exact hR.refl _
  | cons q qs ih =>
    intro k n r
    rw [solveUtilityLoop]
    have h1 := hR.solve (sch k) n evidence [] true q ign
    unfold Net.solveUtility
    rcases hs : n.solve (sch k) evidence [] true q ign with ⟨e | f, m⟩
    · rw [hs] at h1; exact h1
    · rw [hs] at h1
      exact hR.trans h1 (ih _ _ _)

theorem CallRel.tuiSolve_rel {R : Net α → Net α → Prop} (hR : CallRel R) (sch : Nat → NSched α) (n : Net α) (evidence : List (String × String)) (nodes : List (TNode α))
    (ign : Bool) : R n (tuiSolve sch n evidence nodes ign).2 := by
  unfold tuiSolve
  cases solveEvidence n ((sch 0).ev evidence) [] with
  | error e => exact hR.refl _
  | ok r =>
    dsimp only
    have h1 := hR.solveQueryNet_rel (sch 0) n evidence [] ign
    rcases hs : n.solveQuery (sch 0) evidence [] ign with ⟨e | ⟨res, f⟩, m⟩
    · rw [hs] at h1; exact h1
    rw [hs] at h1
    dsimp only
    have h2 := hR.solveQueryLoop_rel (sch := sch) (evidence := evidence) (ign := ign) (tuiQueries nodes evidence) 1 m r
    rcases hq : solveQueryLoop sch evidence ign 1 (tuiQueries nodes evidence) m r with ⟨e | ⟨r, k⟩, m'⟩
    · rw [hq] at h2; exact hR.trans h1 h2
    rw [hq] at h2
    dsimp only
    unfold Net.solveUtility
    have h3 := hR.solve (sch k) m' evidence [] true "" ign
    rcases hu : m'.solve (sch k) evidence [] true "" ign with ⟨e | g, l⟩
    · rw [hu] at h3; exact hR.trans (hR.trans h1 h2) h3
    rw [hu] at h3
    dsimp only
    have h4 := hR.solveUtilityLoop_rel (sch := sch) (evidence := evidence) (ign := ign) (p := onlyEntry f)
      (t := nanDiv (onlyEntry g) (onlyEntry f)) (splitUtilities m'.totalUtility nodes).1 (k + 1) l r
    rcases hl : solveUtilityLoop sch evidence ign (onlyEntry f) (nanDiv (onlyEntry g) (onlyEntry f)) (k + 1)
      (splitUtilities m'.totalUtility nodes).1 l r with ⟨e | r', l'⟩
    · rw [hl] at h4; exact hR.trans (hR.trans (hR.trans h1 h2) h3) h4
    rw [hl] at h4
    dsimp only
    cases (splitUtilities m'.totalUtility nodes).2 with
    | none => exact hR.trans (hR.trans (hR.trans h1 h2) h3) h4
    | some _ => exact hR.trans (hR.trans (hR.trans h1 h2) h3) h4

theorem tuiSolve_core (sch : Nat → NSched α) (n : Net α) (evidence : List (String × String)) (nodes : List (TNode α))
    (ign : Bool) : n.SameCore (tuiSolve sch n evidence nodes ign).2 :=
  CallRel.tuiSolve_rel (R := Net.SameCore) ⟨fun _ => .rfl, fun h h' => h.trans h', fun sch n e q ut u ign => solve_core sch n e q ut u ign,
    fun n f qs r => queryLoop_core f qs r n⟩ sch n evidence nodes ign

theorem updateMarginals_core (sch : Nat → NSched α) (a : App α) : a.network.SameCore (App.updateMarginals sch a).2.network := by
  unfold App.updateMarginals
  have h := tuiSolve_core sch a.network a.evidence a.nodes a.ignorePolicies
  rcases hs : tuiSolve sch a.network a.evidence a.nodes a.ignorePolicies with ⟨r | r, n⟩ <;>
  · rw [hs] at h
    exact h

theorem updateMarginals_vars (sch : Nat → NSched α) (a : App α) :
    (App.updateMarginals sch a).2.network.variables = a.network.variables := by
  obtain ⟨_, _, e⟩ := updateMarginals_core sch a
  rw [e]

theorem inputEnter_vars {sch : Nat → NSched α} {a a' : App α} (h : a.inputEnter sch = .ok a') :
    a'.network.variables = a.network.variables := by
  obtain ⟨n, _, _, _, _, _, _, _, h⟩ := inputEnter_inv h
  rcases h with ⟨_, rfl⟩ | ⟨_, v, _, h, _⟩
  · rfl
  · have := updateMarginals_vars sch { a with evidence := toggleEvidence a.evidence n.var.name v }
    rw [h] at this
    exact this

theorem App.Placed.enter {sch : Nat → NSched α} {a a' : App α} (hp : a.Placed) (h : a.inputEnter sch = .ok a') : a'.Placed := by
  have hv := inputEnter_vars h
  obtain ⟨n, _, h1, h2, _, _, _, h3, _⟩ := inputEnter_inv h
  exact hp.congr h1 h2 h3 hv

theorem moveDelta_inv {n : TNode α} {g : Grid} {key : Char} {d : Int × Int × Bool} (h : moveDelta n g key = .ok d)
    {hh w : Int} (hd : HasDims g hh w) (hi : n.bounds.Inside hh w) :
    (0 ≤ n.bounds.x + d.1 ∧ 0 ≤ n.bounds.y + d.2.1) ∧
    (d.2.2 = false → n.bounds.x + d.1 + n.bounds.w ≤ w ∧ n.bounds.y + d.2.1 + n.bounds.h ≤ hh) := by
  obtain ⟨i1, i2, i3, i4, i5, i6⟩ := hi
  unfold moveDelta at h
  split_ifs at h
  · cases h; dsimp only; omega
  · cases h; dsimp only; omega
  · cases h; dsimp only; omega
  · cases h; dsimp only; omega
  · cases h
    dsimp only
    refine ⟨by omega, fun h => ?_⟩
    have := of_decide_eq_false h
    rw [hd.1] at this
    omega
  · obtain ⟨row, hr, h⟩ := bind_inv h
    cases h
    rw [goGet_eq] at hr
    have hw := hd.2 row (List.mem_of_getElem? hr)
    dsimp only
    refine ⟨by omega, fun h => ?_⟩
    have := of_decide_eq_false h
    rw [hw] at this
    omega
  · cases h; dsimp only; omega

theorem List.map_set_congr {β γ : Type} {l : List β} {i : Nat} {x y : β} (hx : l[i]? = some x) (f : β → γ) (h : f y = f x) :
    (l.set i y).map f = l.map f := by
  rw [List.map_set]
  apply List.ext_getElem?
  intro j
  rw [List.getElem?_set]
  split_ifs with hj hl
  · subst hj
    rw [List.getElem?_map, hx, h]
    rfl
  · subst hj
    obtain ⟨hlt, _⟩ := List.getElem?_eq_some_iff.1 hx
    rw [List.length_map] at hl
    omega
  · rfl

theorem App.Placed.select {a : App α} (hp : a.Placed) (i s : Int) :
    App.Placed { a with selectedNode := i, selectedState := s } := hp.congr rfl rfl rfl rfl

/-- A move keeps the nodes on the canvas. -/
theorem App.Placed.moved {a : App α} (hp : a.Placed) {key : Char} {n : TNode α} (hn : goGetI a.nodes a.selectedNode = .ok n)
    {d : Int × Int × Bool} (hd : moveDelta n a.canvas key = .ok d) {v : NVar}
    (hv : goGetI a.network.variables a.selectedNode = .ok v) {ns : List (TNode α)}
    (hns : goSetI a.nodes a.selectedNode (n.shift d.1 d.2.1) = .ok ns) {vs : List NVar}
    (hvs : goSetI a.network.variables a.selectedNode
      { v with position := (v.position.1 + d.1, v.position.2 + d.2.1) } = .ok vs) {g : Grid}
    (hg : (bif d.2.2 then createCanvas ns else .ok a.canvas) = .ok g) (cs : List (List Color)) :
    App.Placed { a with nodes := ns, network := { a.network with «variables» := vs }, canvas := g, colors := cs } := by
  obtain ⟨s0, s1, hn⟩ := goGetI_inv hn
  obtain ⟨_, _, hv⟩ := goGetI_inv hv
  obtain ⟨_, _, rfl⟩ := goSetI_inv hns
  obtain ⟨_, _, rfl⟩ := goSetI_inv hvs
  obtain ⟨k1, k2, ⟨hh, w, kd, kh, kb⟩, k4⟩ := hp
  have hin := kb n (List.mem_of_getElem? hn)
  obtain ⟨m1, m2⟩ := moveDelta_inv hd kd hin
  have hfit : ∀ m ∈ a.nodes.set a.selectedNode.toNat (n.shift d.1 d.2.1), m.Fits := by
    intro m hm
    rcases List.mem_or_eq_of_mem_set hm with hm | rfl
    · exact k1 m hm
    · obtain ⟨f1, f2, f3, f4⟩ := k1 n (List.mem_of_getElem? hn)
      exact ⟨f1, f2, f3, f4⟩
  refine ⟨hfit, ?_, ?_, ?_⟩
  · intro name _
    dsimp only
    rw [List.length_set]
    exact k2 name (List.ne_nil_of_mem (List.mem_of_getElem? hn))
  · dsimp only
    cases hc : d.2.2 with
    | false =>
      rw [hc] at hg
      cases hg
      refine ⟨hh, w, kd, kh, ?_⟩
      intro m hm
      rcases List.mem_or_eq_of_mem_set hm with hm | rfl
      · exact kb m hm
      · exact ⟨m1.1, m1.2, hin.w1, hin.h1, (m2 hc).1, (m2 hc).2⟩
    | true =>
      rw [hc] at hg
      obtain ⟨g', h', w', e, d', p', b'⟩ := createCanvas_inside (nodes := a.nodes.set a.selectedNode.toNat (n.shift d.1 d.2.1)) (by
        intro m hm
        rcases List.mem_or_eq_of_mem_set hm with hm | rfl
        · exact ⟨(kb m hm).x0, (kb m hm).y0, (kb m hm).w1, (kb m hm).h1⟩
        · exact ⟨m1.1, m1.2, hin.w1, hin.h1⟩)
      have hg' : createCanvas (a.nodes.set a.selectedNode.toNat (n.shift d.1 d.2.1)) = .ok g := hg
      rw [hg'] at e
      cases e
      exact ⟨h', w', d', p', b'⟩
  · dsimp only
    rw [List.map_set, List.map_set, k4]
    have e := congrArg (fun l => l[a.selectedNode.toNat]?) k4
    simp only [List.getElem?_map, hn, hv, Option.map_some, Option.some.injEq, Prod.mk.injEq] at e
    obtain ⟨e1, e2, e3, e4⟩ := e
    rw [e1, e2, e3, e4]
    rfl

/-- A move is possible if a node is selected. -/
theorem App.Placed.move_ok {a : App α} (hp : a.Placed) (h0 : 0 ≤ a.selectedNode) (h1 : a.selectedNode < a.nodes.length)
    (key : Char) : ∃ n d, goGetI a.nodes a.selectedNode = .ok n ∧ moveDelta n a.canvas key = .ok d ∧
      ∃ v ns vs g, goGetI a.network.variables a.selectedNode = .ok v ∧
        goSetI a.nodes a.selectedNode (n.shift d.1 d.2.1) = .ok ns ∧
        goSetI a.network.variables a.selectedNode
          { v with position := (v.position.1 + d.1, v.position.2 + d.2.1) } = .ok vs ∧
        (bif d.2.2 then createCanvas ns else .ok a.canvas) = .ok g := by
  obtain ⟨hh, w, kd, kh, kb⟩ := hp.canvas
  have hlen : a.network.variables.length = a.nodes.length := by
    have := congrArg List.length hp.shown
    rwa [List.length_map, List.length_map] at this
  obtain ⟨n, hn, hmem, _⟩ := goGetI_in (l := a.nodes) h0 h1
  obtain ⟨v, hv, _⟩ := goGetI_in (l := a.network.variables) h0 (by rw [hlen]; exact h1)
  have hrow : ∃ row, goGet a.canvas 0 = .ok row := by
    match hc : a.canvas, kd with
    | [], kd => exact absurd kd.1 (by simp; omega)
    | row :: _, _ => exact ⟨row, rfl⟩
  have hd : ∃ d, moveDelta n a.canvas key = .ok d := by
    obtain ⟨row, hrow⟩ := hrow
    unfold moveDelta
    rw [hrow]
    split_ifs <;> exact ⟨_, rfl⟩
  obtain ⟨d, hd⟩ := hd
  obtain ⟨m1, _⟩ := moveDelta_inv hd kd (kb n hmem)
  have hns := goSetI_in (l := a.nodes) (n.shift d.1 d.2.1) h0 h1
  have hvs := goSetI_in (l := a.network.variables)
    { v with position := (v.position.1 + d.1, v.position.2 + d.2.1) } h0 (by rw [hlen]; exact h1)
  refine ⟨n, d, hn, hd, v, a.nodes.set a.selectedNode.toNat (n.shift d.1 d.2.1), a.network.variables.set a.selectedNode.toNat
    { v with position := (v.position.1 + d.1, v.position.2 + d.2.1) }, ?_⟩
  cases hc : d.2.2 with
  | false => exact ⟨a.canvas, hv, hns, hvs, rfl⟩
  | true =>
    obtain ⟨g', h', w', e, _⟩ := createCanvas_inside (nodes := a.nodes.set a.selectedNode.toNat (n.shift d.1 d.2.1)) (by
      intro m hm
      rcases List.mem_or_eq_of_mem_set hm with hm | rfl
      · exact ⟨(kb m hm).x0, (kb m hm).y0, (kb m hm).w1, (kb m hm).h1⟩
      · exact ⟨m1.1, m1.2, (kb n hmem).w1, (kb n hmem).h1⟩)
    exact ⟨g', hv, hns, hvs, e⟩

/-- Each successful step keeps the nodes on the canvas. -/
theorem App.Placed.step {fm : Fmt α} {sch : Nat → NSched α} {a a' : App α} {e : Event} (hp : a.Placed)
    (h : a.step fm sch e = .ok a') : a'.Placed := by
  cases e with
  | tab =>
    rw [App.step] at h
    split_ifs at h
    exact (hp.select _ _).render h
  | backtab =>
    rw [App.step] at h
    exact (hp.select _ _).render h
  | space =>
    rw [App.step] at h
    obtain ⟨n, _, h⟩ := bind_inv h
    split_ifs at h
    exact (hp.select a.selectedNode _).render h
  | digit c =>
    rw [App.step, App.selectNodeOutcome] at h
    cases hg : goAtoi (String.singleton c) with
    | none => rw [hg] at h; cases h
    | some i =>
      rw [hg] at h
      obtain ⟨n, _, h⟩ := bind_inv h
      split_ifs at h
      · exact (hp.select a.selectedNode _).render h
      · cases h; exact hp
  | enter =>
    rw [App.step] at h
    obtain ⟨b, hb, h⟩ := bind_inv h
    exact (hp.enter hb).render h
  | showTable =>
    rw [App.step] at h
    obtain ⟨_, _, h⟩ := bind_inv h
    obtain ⟨_, _, h⟩ := bind_inv h
    cases h
    exact hp
  | togglePolicies =>
    rw [App.step, App.toggleIgnorePolicy] at h
    obtain ⟨h1, h2, _, _, _, _, h3⟩ := updateMarginals_same (sch := sch) { a with ignorePolicies := !a.ignorePolicies }
    have h4 := updateMarginals_vars sch { a with ignorePolicies := !a.ignorePolicies }
    have hq := hp.congr h1 h2 h3 h4
    rcases hs : App.updateMarginals sch { a with ignorePolicies := !a.ignorePolicies } with ⟨r, b⟩
    rw [hs] at h hq
    match r, h with
    | .ok (), h => exact hq.render h
    | .error (.error _), h => exact hq.render h
  | move key =>
    rw [App.step] at h
    unfold App.moveNode at h
    obtain ⟨n, hn, h⟩ := bind_inv h
    obtain ⟨d, hd, h⟩ := bind_inv h
    split_ifs at h with hz
    · cases h; exact hp
    obtain ⟨v, hv, h⟩ := bind_inv h
    obtain ⟨ns, hns, h⟩ := bind_inv h
    obtain ⟨vs, hvs, h⟩ := bind_inv h
    obtain ⟨g, hg, h⟩ := bind_inv h
    exact (hp.moved hn hd hv hns hvs hg _).render h
  | leftClick x y =>
    rw [App.step, App.leftClick] at h
    split at h
    · cases h; exact hp
    · rename_i n i _
      obtain ⟨b, hb, h⟩ := bind_inv h
      refine App.Placed.render ?_ h
      cases ho : n.selectedOutcome x y with
      | some o =>
        rw [ho] at hb
        exact (hp.select (i : Int) (o : Int)).enter hb
      | none => rw [ho] at hb; cases hb; exact hp.congr rfl rfl rfl rfl
  | rightClick x y =>
    rw [App.step, App.rightClick] at h
    split at h
    · cases h; exact hp
    · obtain ⟨b, hb, h⟩ := bind_inv h
      obtain ⟨_, _, h⟩ := bind_inv h
      obtain ⟨_, _, h⟩ := bind_inv h
      cases h
      exact (hp.select _ a.selectedState).render hb

/-- What holds for one step holds for a session. -/
theorem run_keep (P : App α → Prop) {fm : Fmt α} {sch : Nat → Nat → NSched α}
    (hs : ∀ k a e a', P a → a.step fm (sch k) e = .ok a' → P a') :
    ∀ (es : List Event) (k : Nat) (a a' : App α), App.run fm sch k es a = .ok a' → P a → P a' := by
  intro es
  induction es with
  | nil => intro k a a' h hp; cases h; exact hp
  | cons e es ih =>
    intro k a a' h hp
    rw [App.run] at h
    obtain ⟨b, hb, h⟩ := bind_inv h
    exact ih _ _ _ h (hs _ _ _ _ hp hb)

theorem policySteps_vars [NatCast α] [LE α] [DecidableLE α] [LT α] [DecidableLT α] (sch : NSched α) (stepwise : Bool) :
    ∀ (left k : Nat) (n : Net α), (Net.policySteps sch stepwise left k n).2.variables = n.variables ∧
      (Net.policySteps sch stepwise left k n).2.factors = n.factors ∧
      (Net.policySteps sch stepwise left k n).2.totalUtility = n.totalUtility ∧
      (Net.policySteps sch stepwise left k n).2.name = n.name ∧ (Net.policySteps sch stepwise left k n).2.info = n.info := by
  intro left
  induction left with
  | zero => intro k n; exact ⟨rfl, rfl, rfl, rfl, rfl⟩
  | succ left ih =>
    intro k n
    rw [Net.policySteps]
    have h1 := enter_core sch k n []
    rcases he : n.enter sch k [] with ⟨e | ve, m⟩
    · rw [he] at h1
      obtain ⟨_, _, rfl⟩ := h1
      exact ⟨rfl, rfl, rfl, rfl, rfl⟩
    · rw [he] at h1
      obtain ⟨_, _, rfl⟩ := h1
      dsimp only
      rcases ve.solvePolicies (sch.ve k) stepwise with e | ⟨_ | solved, ve'⟩
      · exact ⟨rfl, rfl, rfl, rfl, rfl⟩
      · exact ⟨rfl, rfl, rfl, rfl, rfl⟩
      · exact ih _ _

theorem solvePolicies_vars [NatCast α] [LE α] [DecidableLE α] [LT α] [DecidableLT α] (sch : NSched α) (n : Net α)
    (stepwise : Bool) : (n.solvePolicies sch stepwise).2.variables = n.variables ∧
      (n.solvePolicies sch stepwise).2.factors = n.factors ∧
      (n.solvePolicies sch stepwise).2.totalUtility = n.totalUtility ∧
      (n.solvePolicies sch stepwise).2.name = n.name ∧ (n.solvePolicies sch stepwise).2.info = n.info := by
  unfold Net.solvePolicies
  dsimp only
  have h1 := policySteps_vars sch stepwise (n.countDecisionSteps stepwise) 0 { n with policies := [] }
  rcases hs : Net.policySteps sch stepwise (n.countDecisionSteps stepwise) 0 { n with policies := [] } with ⟨e | u, m⟩
  · rw [hs] at h1; exact h1
  · rw [hs] at h1
    dsimp only
    obtain ⟨_, _, e⟩ := withVs_core m (fun vs => m.policyTables (sch.pol (n.countDecisionSteps stepwise) m.policies) vs [])
    rw [e]
    exact h1

theorem byName_lt (l : List (TNode α)) : ∀ (k : Nat) (m : List (String × Nat)) (N : Nat), k + l.length ≤ N →
    (∀ name i, mapGet m name = some i → i < N) →
    ∀ name i, mapGet ((l.zipIdx k).foldl (fun m p => mapSet m p.1.var.name p.2) m) name = some i → i < N := by
  induction l with
  | nil => intro k m N _ hm; exact hm
  | cons x l ih =>
    intro k m N hN hm
    rw [List.zipIdx_cons, List.foldl_cons]
    rw [List.length_cons] at hN
    refine ih (k + 1) _ N (by omega) ?_
    intro name i h
    rw [mapGet_mapSet] at h
    split_ifs at h
    · cases h; omega
    · exact hm name i h

omit [Zero α] [One α] [Add α] [Mul α] [Div α] [DecidableEq α] in
theorem byName_indexed (l : List (TNode α)) : ∀ (k : Nat) (m : List (String × Nat)), (l.map (fun n => n.var.name)).Nodup →
    (∀ i n, l[i]? = some n →
      mapGet ((l.zipIdx k).foldl (fun m p => mapSet m p.1.var.name p.2) m) n.var.name = some (k + i)) ∧
    (∀ name, name ∉ l.map (fun n => n.var.name) →
      mapGet ((l.zipIdx k).foldl (fun m p => mapSet m p.1.var.name p.2) m) name = mapGet m name) := by
  induction l with
  | nil => intro k m _; exact ⟨by simp, fun _ _ => rfl⟩
  | cons x l ih =>
    intro k m hnd
    rw [List.map_cons, List.nodup_cons] at hnd
    obtain ⟨i1, i2⟩ := ih (k + 1) (mapSet m x.var.name k) hnd.2
    rw [List.zipIdx_cons, List.foldl_cons]
    refine ⟨?_, ?_⟩
    · intro i n h
      cases i with
      | zero =>
        cases h
        dsimp only
        rw [i2 _ hnd.1, mapGet_mapSet, if_pos rfl]
        rfl
      | succ i =>
        rw [List.getElem?_cons_succ] at h
        rw [i1 i n h]
        congr 1
        omega
    · intro name hname
      rw [List.map_cons, List.mem_cons, not_or] at hname
      dsimp only
      rw [i2 name hname.2, mapGet_mapSet, if_neg hname.1]

/-- What the app is when it starts. -/
structure Started (n : Net α) (evidence : List (String × String)) (a : App α) : Prop where
  vars : a.nodes.map TNode.var = n.variables
  bounds : a.nodes.map TNode.bounds = n.variables.map nodeBounds
  fits : ∀ m ∈ a.nodes, m.Fits
  factor : ∀ m ∈ a.nodes, ∃ f, m.factor = some f
  colors : ∀ v ∈ n.variables, v.color = "" ∨ ColorName v.color
  byName : a.byName = a.nodes.zipIdx.foldl (fun m p => mapSet m p.1.var.name p.2) []
  network : a.network.variables = n.variables
  evidence : a.evidence = evidence
  selectedNode : a.selectedNode = 0
  selectedState : a.selectedState = 0
  ignorePolicies : a.ignorePolicies = false

theorem usePolicies_same {byName : List (String × Nat)} {policies : List (String × NFactor α)} {nodes ns : List (TNode α)}
    (h : usePolicies byName policies nodes = .ok ns) :
    ns.map (fun n => (n.var, n.bounds, n.runes, n.barsX)) = nodes.map (fun n => (n.var, n.bounds, n.runes, n.barsX)) := by
  refine foldlM_inv (fun ms => ms.map (fun n => (n.var, n.bounds, n.runes, n.barsX)) =
    nodes.map (fun n => (n.var, n.bounds, n.runes, n.barsX))) _ _ _ _ h rfl ?_
  intro ms p ms' h e
  obtain ⟨x, hx, h⟩ := bind_inv h
  obtain ⟨hlt, rfl⟩ := goSet_inv h
  rw [goGet_eq] at hx
  rw [← e]
  exact List.map_set_congr hx _ rfl

theorem zipIdx_names {l l' : List (TNode α)} (h : l'.map (fun n => n.var.name) = l.map (fun n => n.var.name)) :
    ∀ (k : Nat) (m : List (String × Nat)), (l'.zipIdx k).foldl (fun m p => mapSet m p.1.var.name p.2) m =
      (l.zipIdx k).foldl (fun m p => mapSet m p.1.var.name p.2) m := by
  induction l generalizing l' with
  | nil =>
    intro k m
    rw [List.map_nil, List.map_eq_nil_iff] at h
    rw [h]
  | cons x l ih =>
    intro k m
    cases l' with
    | nil => simp at h
    | cons x' l' =>
      rw [List.map_cons, List.map_cons, List.cons.injEq] at h
      rw [List.zipIdx_cons, List.zipIdx_cons, List.foldl_cons, List.foldl_cons]
      dsimp only
      rw [h.1]
      exact ih h.2 _ _

theorem appNodes_spec {n : Net α} {nodes : List (TNode α)} (h : appNodes n = .ok nodes) :
    nodes.map TNode.var = n.variables ∧ nodes.map TNode.bounds = n.variables.map nodeBounds ∧
      (∀ m ∈ nodes, m.Fits) ∧ ∀ v ∈ n.variables, v.color = "" ∨ ColorName v.color := by
  have hall := mapM_forall₂ h
  clear h
  generalize n.variables = vs at hall ⊢
  induction hall with
  | nil => exact ⟨rfl, rfl, by simp, by simp⟩
  | cons hx _ ih =>
    obtain ⟨e1, e2, e3, e4, e5⟩ := newNode_inv hx
    obtain ⟨i1, i2, i3, i4⟩ := ih
    refine ⟨by rw [List.map_cons, i1, e1], by rw [List.map_cons, List.map_cons, i2, e3], ?_, ?_⟩
    · intro m hm
      rcases List.mem_cons.1 hm with rfl | hm
      · exact e4
      · exact i3 m hm
    · intro v hv
      rcases List.mem_cons.1 hv with rfl | hv
      · exact e5
      · exact i4 v hv

theorem drawNode_nonneg {n : TNode α} {g g' : Grid} (h : drawNode n g = .ok g') (hr : n.runes ≠ []) :
    0 ≤ n.bounds.x ∧ 0 ≤ n.bounds.y := by
  unfold drawNode at h
  match hl : n.runes, hr with
  | row :: rows, _ =>
    rw [hl, List.zipIdx_cons, List.foldlM_cons] at h
    obtain ⟨g1, h1, _⟩ := bind_inv h
    unfold gridCopyFrom at h1
    obtain ⟨r, h2, h1⟩ := bind_inv h1
    obtain ⟨r', h3, h1⟩ := bind_inv h1
    obtain ⟨h4, _⟩ := goGetI_inv h2
    unfold copyRange at h3
    split_ifs at h3
    dsimp only at h4
    omega

theorem renderNodes_nonneg {fm : Fmt α} {a : App α} : ∀ (l : List (TNode α)) (i : Nat) (g : Grid)
    {r : List (TNode α) × Grid}, renderNodes fm a i l g = .ok r → (∀ n ∈ l, n.Fits) →
    ∀ n ∈ l, 0 ≤ n.bounds.x ∧ 0 ≤ n.bounds.y := by
  intro l
  induction l with
  | nil => intro i g r _ _ n hn; cases hn
  | cons x l ih =>
    intro i g r h hf n hn
    rw [renderNodes] at h
    obtain ⟨x', h1, h⟩ := bind_inv h
    obtain ⟨g', h2, h⟩ := bind_inv h
    obtain ⟨r', h3, h⟩ := bind_inv h
    rcases List.mem_cons.1 hn with rfl | hn
    · obtain ⟨_, _, e, _⟩ := TNode.render_same h1
      have hfit := (hf n (by simp)).render h1
      rw [← e]
      refine drawNode_nonneg h2 ?_
      have hh := nodeBounds_h x'.var
      rw [← hfit.h, ← hfit.dims.1] at hh
      intro e'
      rw [e'] at hh
      simp only [List.length_nil] at hh
      split_ifs at hh <;> omega
    · exact ih _ _ h3 (fun m hm => hf m (by simp [hm])) n hn

theorem startApp_inv [NatCast α] [LE α] [DecidableLE α] [LT α] [DecidableLT α] {fm : Fmt α} {sch0 : NSched α}
    {sch : Nat → NSched α} {n : Net α} {evidence : List (String × String)} {a : App α}
    (h : startApp fm sch0 sch n evidence = .ok a) :
    Started n evidence a ∧ (∀ v ∈ n.variables, 0 ≤ v.position.1 ∧ 0 ≤ v.position.2) ∧ a.Placed := by
  unfold startApp at h
  obtain ⟨nodes, h1, h⟩ := bind_inv h
  dsimp only at h
  obtain ⟨policies, h2, h⟩ := bind_inv h
  obtain ⟨ns, h3, h⟩ := bind_inv h
  have hsame := usePolicies_same h3
  have hnodes := appNodes_spec h1
  obtain ⟨n1, n2, n3, n4⟩ := hnodes
  have s1 : ns.map TNode.var = nodes.map TNode.var := by
    have := congrArg (List.map Prod.fst) hsame
    rw [List.map_map, List.map_map] at this
    exact this
  have s2 : ns.map TNode.bounds = nodes.map TNode.bounds := by
    have := congrArg (List.map (fun p => p.2.1)) hsame
    rw [List.map_map, List.map_map] at this
    exact this
  have s3 : ∀ m ∈ ns, m.Fits := by
    intro m hm
    have : (m.var, m.bounds, m.runes, m.barsX) ∈ ns.map (fun n => (n.var, n.bounds, n.runes, n.barsX)) :=
      List.mem_map_of_mem hm
    rw [hsame] at this
    obtain ⟨x, hx, e⟩ := List.mem_map.1 this
    simp only [Prod.mk.injEq] at e
    obtain ⟨f1, f2, f3, f4⟩ := n3 x hx
    obtain ⟨e1, e2, e3, e4⟩ := e
    exact ⟨by rw [← e1, ← e2]; exact f1, by rw [← e1, ← e2]; exact f2, by rw [← e1, ← e4]; exact f3,
      by rw [← e2, ← e3]; exact f4⟩
  obtain ⟨p1, _⟩ := solvePolicies_vars sch0 n true
  generalize (n.solvePolicies sch0 true).2 = n' at *
  generalize hb : nodes.zipIdx.foldl (fun m p => mapSet m p.1.var.name p.2) [] = byName at *
  obtain ⟨u1, u2, u3, u4, u5, u6, u7⟩ := updateMarginals_same (sch := sch) (⟨ns, byName, n', evidence, [], 0, 0, false, [], [], ""⟩ : App α)
  have u8 := updateMarginals_vars sch (⟨ns, byName, n', evidence, [], 0, 0, false, [], [], ""⟩ : App α)
  rcases hm : App.updateMarginals sch (⟨ns, byName, n', evidence, [], 0, 0, false, [], [], ""⟩ : App α) with ⟨e | u, b⟩
  · rw [hm] at h; cases h
  rw [hm] at h u1 u2 u3 u4 u5 u6 u7 u8
  dsimp only at h u1 u2 u3 u4 u5 u6 u7 u8
  obtain ⟨g, hg, h⟩ := bind_inv h
  have hs := App.render_same h
  have e1 := hs.vars
  have e2 := hs.boundsEq
  dsimp only at e1 e2
  have en : a.nodes.map (fun n => n.var.name) = nodes.map (fun n => n.var.name) := by
    have := congrArg (List.map NVar.name) (e1.trans (by rw [u1, s1]))
    rw [List.map_map, List.map_map] at this
    exact this
  refine ⟨⟨by rw [e1, u1, s1, n1], by rw [e2, u1, s2, n2], ?_, ?_, n4, ?_, ?_, ?_, ?_, ?_, ?_⟩, ?_⟩
  · intro m hm'
    unfold App.render at h
    dsimp only at h
    rw [if_neg (by decide)] at h
    obtain ⟨g1, h1, h⟩ := bind_inv h
    obtain ⟨r, h2', h⟩ := bind_inv h
    cases h
    have hfit : ∀ m ∈ b.nodes, m.Fits := by rw [u1]; exact s3
    have fact : ∀ (c : Grid) (cs : List (List Color)) (l : List (TNode α)) (i : Nat) (g : Grid) (r : List (TNode α) × Grid),
        renderNodes fm { b with canvas := c, colors := cs } i l g = .ok r → (∀ n ∈ l, n.Fits) → ∀ n ∈ r.1, n.Fits := by
      intro c cs l
      induction l with
      | nil => intro i g r h _; cases h; simp
      | cons x l ih =>
        intro i g r h hn
        rw [renderNodes] at h
        obtain ⟨x', k1, h⟩ := bind_inv h
        obtain ⟨g', k2, h⟩ := bind_inv h
        obtain ⟨r', k3, h⟩ := bind_inv h
        cases h
        intro m hm
        rcases List.mem_cons.1 hm with rfl | hm
        · exact (hn x (by simp)).render k1
        · exact ih _ _ _ k3 (fun m hm => hn m (by simp [hm])) m hm
    exact fact _ _ _ _ _ _ h2' hfit m hm'
  · have hfac : ∀ m ∈ b.nodes, ∃ f, m.factor = some f := by
      unfold App.render at h
      dsimp only at h
      rw [if_neg (by decide)] at h
      obtain ⟨g1, h1, h⟩ := bind_inv h
      exact renderEdges_factor h1
    intro m hm'
    have : (m.var, m.factor, m.bounds, m.barsX) ∈ a.nodes.map (fun n => (n.var, n.factor, n.bounds, n.barsX)) :=
      List.mem_map_of_mem hm'
    rw [hs.nodes] at this
    obtain ⟨x, hx, e⟩ := List.mem_map.1 this
    simp only [Prod.mk.injEq] at e
    rw [← e.2.1]
    exact hfac x hx
  · rw [hs.byName]
    show b.byName = _
    rw [u2, ← hb]
    exact (zipIdx_names en 0 []).symm
  · rw [hs.network]; exact u8.trans p1
  · rw [hs.evidence]; exact u3
  · rw [hs.selectedNode]; exact u4
  · rw [hs.selectedState]; exact u5
  · rw [hs.ignorePolicies]; exact u6
  · have hpos : ∀ v ∈ n.variables, 0 ≤ v.position.1 ∧ 0 ≤ v.position.2 := by
      unfold App.render at h
      dsimp only at h
      rw [if_neg (by decide)] at h
      obtain ⟨g1, h1, h⟩ := bind_inv h
      obtain ⟨r, h2', h⟩ := bind_inv h
      have hnn := renderNodes_nonneg _ _ _ h2' (by rw [u1]; exact s3)
      intro v hv
      have : nodeBounds v ∈ b.nodes.map TNode.bounds := by
        rw [u1, s2, n2]
        exact List.mem_map_of_mem hv
      obtain ⟨m, hm', e⟩ := List.mem_map.1 this
      have := hnn m hm'
      rw [e] at this
      exact this
    refine ⟨hpos, ?_⟩
    have hbnd : ∀ m ∈ b.nodes, ∃ v ∈ n.variables, m.bounds = nodeBounds v := by
      intro m hm'
      have : m.bounds ∈ b.nodes.map TNode.bounds := List.mem_map_of_mem hm'
      rw [u1, s2, n2] at this
      obtain ⟨v, hv, e⟩ := List.mem_map.1 this
      exact ⟨v, hv, e.symm⟩
    obtain ⟨g', hh, w, k1, k2, k3, k4⟩ := createCanvas_inside (nodes := b.nodes) (by
      intro m hm'
      obtain ⟨v, hv, e⟩ := hbnd m hm'
      have hw := nodeBounds_w v
      have hh := nodeBounds_h v
      obtain ⟨q1, q2⟩ := hpos v hv
      rw [e]
      refine ⟨q1, q2, ?_, ?_⟩
      · split_ifs at hw <;> omega
      · split_ifs at hh <;> omega)
    rw [k1] at hg
    cases hg
    refine App.Placed.render ?_ h
    refine ⟨by rw [u1]; exact s3, ?_, ⟨hh, w, k2, k3, k4⟩, ?_⟩
    · intro name hne
      dsimp only
      have hlen : b.nodes.length = nodes.length := by
        rw [u1]
        have := congrArg List.length hsame
        rwa [List.length_map, List.length_map] at this
      rw [u2, hlen]
      unfold intGet
      have hlt := byName_lt nodes 0 [] nodes.length (by omega) (by intro name i h; cases h) name
      rw [hb] at hlt
      cases hq : mapGet byName name with
      | none =>
        rw [Option.getD_none, ← hlen]
        exact List.length_pos_iff.2 hne
      | some i => exact hlt i hq
    · dsimp only
      rw [u8, p1, u1]
      have hv : ns.map TNode.var = n.variables := s1.trans n1
      have hbd : ns.map TNode.bounds = n.variables.map nodeBounds := s2.trans n2
      rw [← hv, List.map_map]
      rw [← hv, List.map_map] at hbd
      apply List.map_congr_left
      intro x hx
      have e := List.map_inj_left.1 hbd x hx
      simp only [Function.comp_apply] at e ⊢
      rw [e]
      rfl

end

end Bbn
