import Verif.Lemmas.Save
import Verif.Lemmas.TuiSession
import Verif.Model.TrainCsv

/-!
# The network behind the app, after training and during a session
-/

set_option autoImplicit false

namespace Bbn

variable {α B : Type}

/-! ## Training -/

theorem updateCells_length [Div α] [NatCast α] {data : List (List α)} {cnt j cols : Nat} : ∀ {ks : List Nat} {tab tab' : List α},
    updateCells data cnt j cols ks tab = .ok tab' → tab'.length = tab.length := by
  intro ks
  induction ks with
  | nil => intro tab tab' h; cases h; rfl
  | cons k ks ih =>
    intro tab tab' h
    rw [updateCells] at h
    obtain ⟨_, _, h⟩ := bind_inv h
    obtain ⟨_, _, h⟩ := bind_inv h
    obtain ⟨t, ht, h⟩ := bind_inv h
    obtain ⟨_, rfl⟩ := goSet_inv ht
    rw [ih h, List.length_set]

theorem updateRows_length [Div α] [NatCast α] {data : List (List α)} {counter : List Nat} {cols : Nat} :
    ∀ {js : List Nat} {tab : List α} {r : List α × Option String},
    updateRows data counter cols js tab = .ok r → r.1.length = tab.length := by
  intro js
  induction js with
  | nil => intro tab r h; cases h; rfl
  | cons j js ih =>
    intro tab r h
    rw [updateRows] at h
    obtain ⟨_, _, h⟩ := bind_inv h
    split_ifs at h
    · cases h; rfl
    · obtain ⟨t, ht, h⟩ := bind_inv h
      rw [ih h, updateCells_length ht]

theorem updateNodes_same [Div α] [NatCast α] {t : Trainer α} : ∀ {l : List (NVar × Nat)} {fs : List (NFactor α)}
    {r : List (NFactor α) × Option String}, updateNodes t l fs = .ok r → SameTables fs r.1 := by
  intro l
  induction l with
  | nil => intro fs r h; cases h; exact .refl _
  | cons x l ih =>
    obtain ⟨v, i⟩ := x
    intro fs r h
    rw [updateNodes] at h
    obtain ⟨_, _, h⟩ := bind_inv h
    cases hp : v.factor with
    | none => rw [hp] at h; cases h
    | some p =>
      rw [hp] at h
      dsimp only at h
      obtain ⟨f, hf, h⟩ := bind_inv h
      have hf' : fs[p]? = some f := by
        unfold goGet at hf
        split at hf
        · cases hf; assumption
        · cases hf
      split_ifs at h
      obtain ⟨_, _, h⟩ := bind_inv h
      obtain ⟨u, hu, h⟩ := bind_inv h
      have hs : SameTables fs (fs.set p { f with table := f.table.map (fun _ => u.1) }) := by
        refine SameTables.set hf' ?_
        have := updateRows_length hu
        unfold NFactor.tab at this
        cases e : f.table with
        | none => rfl
        | some t => rw [e] at this; simpa using this
      cases hu2 : u.2 with
      | some e => rw [hu2] at h; cases h; exact hs
      | none => rw [hu2] at h; exact hs.trans (ih h)

/-- Training changes nothing but the entries of tables. -/
theorem trainNetwork_same [Zero α] [Add α] [One α] [Div α] [NatCast α] {pf : String → Option (Option α)} {n n' : Net α}
    {header : List String} {records : List (List String)} {noData : String}
    (h : trainNetwork pf n header records noData = .ok n') : SameNetwork n n' := by
  unfold trainNetwork at h
  obtain ⟨_, _, h⟩ := bind_inv h
  obtain ⟨_, _, h⟩ := bind_inv h
  obtain ⟨t, _, h⟩ := bind_inv h
  obtain ⟨r, hr, h⟩ := bind_inv h
  cases hr2 : r.2 with
  | some e => rw [hr2] at h; cases h
  | none =>
    rw [hr2] at h
    cases h
    unfold updateNetwork at hr
    obtain ⟨x, hx, hr⟩ := bind_inv hr
    cases hr
    exact ⟨rfl, updateNodes_same hx⟩

theorem loadApp_same [Zero α] [Add α] [One α] [Div α] [NatCast α] {pf : String → Option (Option α)}
    {csv : String → Char → Except Fault (List String × List (List String))} {n n' : Net α} {a : AppArgs}
    (h : loadApp pf csv n a = .ok n') : SameNetwork n n' := by
  unfold loadApp at h
  split_ifs at h
  · obtain ⟨x, _, h⟩ := bind_inv h
    exact trainNetwork_same h
  · cases h; exact .refl _

/-! ## Sessions -/

/-- The network behind the app is `n` up to the places of boxes, policies and what is kept between calls. -/
structure App.Holds (n : Net α) (a : App α) : Prop where
  name : a.network.name = n.name
  vars : a.network.variables.map NVar.still = n.variables.map NVar.still
  factors : a.network.factors = n.factors
  total : a.network.totalUtility = n.totalUtility
  info : a.network.info = n.info

theorem App.Holds.core {n : Net α} {a b : App α} (h : a.Holds n) (hc : a.network.SameCore b.network) : b.Holds n := by
  obtain ⟨vs, names, e⟩ := hc
  obtain ⟨h1, h2, h3, h4, h5⟩ := h
  exact ⟨by rw [e]; exact h1, by rw [e]; exact h2, by rw [e]; exact h3, by rw [e]; exact h4, by rw [e]; exact h5⟩

theorem App.Holds.same {n : Net α} {a b : App α} (h : a.Holds n) (hs : SameApp a b) : b.Holds n :=
  h.core (by rw [hs.network]; exact .rfl)

section

variable [Zero α] [One α] [Add α] [Mul α] [Div α] [DecidableEq α]

theorem inputEnter_core {sch : Nat → NSched α} {a a' : App α} (h : a.inputEnter sch = .ok a') :
    a.network.SameCore a'.network := by
  unfold App.inputEnter at h
  obtain ⟨n, _, h⟩ := bind_inv h
  split_ifs at h
  · cases h; exact .rfl
  · obtain ⟨value, _, h⟩ := bind_inv h
    have hc := updateMarginals_core sch { a with evidence := toggleEvidence a.evidence n.var.name value }
    rcases hm : App.updateMarginals sch { a with evidence := toggleEvidence a.evidence n.var.name value } with ⟨r, b⟩
    rw [hm] at h hc
    match r, h with
    | .ok (), h => cases h; exact hc

theorem App.Holds.step {n : Net α} {a a' : App α} (h : a.Holds n) {fm : Fmt α} {sch : Nat → NSched α} {e : Event}
    (hs : a.step fm sch e = .ok a') : a'.Holds n := by
  rcases step_shape hs with ⟨i, s, hsame⟩ | ⟨i, s, c, hc, hsame⟩ | ⟨r, c, hc, hsame⟩ | ⟨ns, vs, g, cs, hns, hvs, hsame⟩
  · exact App.Holds.same (a := { a with selectedNode := i, selectedState := s }) ⟨h.name, h.vars, h.factors, h.total, h.info⟩ hsame
  · exact (App.Holds.core (a := { a with selectedNode := i, selectedState := s }) ⟨h.name, h.vars, h.factors, h.total, h.info⟩
      (inputEnter_core hc)).same hsame
  · have := updateMarginals_core sch { a with ignorePolicies := !a.ignorePolicies }
    rw [hc] at this
    exact (App.Holds.core h this).same hsame
  · exact App.Holds.same (a := { a with nodes := ns, network := { a.network with «variables» := vs }, canvas := g, colors := cs })
      ⟨h.name, hvs.trans h.vars, h.factors, h.total, h.info⟩ hsame

theorem startApp_holds [NatCast α] [LE α] [DecidableLE α] [LT α] [DecidableLT α] {fm : Fmt α} {sch0 : NSched α}
    {sch : Nat → NSched α} {n : Net α} {evidence : List (String × String)} {a : App α}
    (h : startApp fm sch0 sch n evidence = .ok a) : a.Holds n := by
  unfold startApp at h
  obtain ⟨nodes, h1, h⟩ := bind_inv h
  dsimp only at h
  obtain ⟨policies, h2, h⟩ := bind_inv h
  obtain ⟨ns, h3, h⟩ := bind_inv h
  obtain ⟨p1, p2, p3, p4, p5⟩ := solvePolicies_vars sch0 n true
  generalize (n.solvePolicies sch0 true).2 = m at *
  have hc := updateMarginals_core sch (⟨ns, nodes.zipIdx.foldl (fun m p => mapSet m p.1.var.name p.2) [], m, evidence, [], 0, 0,
    false, [], [], ""⟩ : App α)
  rcases hm : App.updateMarginals sch (⟨ns, nodes.zipIdx.foldl (fun m p => mapSet m p.1.var.name p.2) [], m, evidence, [], 0, 0,
    false, [], [], ""⟩ : App α) with ⟨e | u, b⟩
  · rw [hm] at h; cases h
  rw [hm] at h hc
  dsimp only at h hc
  obtain ⟨g, hg, h⟩ := bind_inv h
  obtain ⟨vs, names, e⟩ := hc
  refine App.Holds.same (a := { b with canvas := g, colors := createColors g }) ⟨?_, ?_, ?_, ?_, ?_⟩ (App.render_same h) <;> dsimp only <;> rw [e]
  · exact p4
  · dsimp only; rw [p1]
  · exact p2
  · exact p3
  · exact p5

end

end Bbn
