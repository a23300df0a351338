import Verif.Model.Commands
import Verif.Props.Yaml
import Verif.Lemmas.NetStill
import Verif.Lemmas.TrainRun

/-!
# Networks that can be saved and loaded again
-/

set_option autoImplicit false

namespace Bbn

variable {α B : Type}

/-- What of a variable counts for `New`. -/
def NVar.key (v : NVar) : String × NodeType × List String := (v.name, v.nodeType, v.outcomes)

/-- What of a table counts for `New`. -/
def NFactor.head (f : NFactor α) : String × List String := (f.forVar, f.given)

theorem tableFor_head {fs fs' : List (NFactor α)} (h : fs'.map NFactor.head = fs.map NFactor.head) {v v' : NVar}
    (e : v'.name = v.name) : (tableFor fs' v').map NFactor.given = (tableFor fs v).map NFactor.given := by
  unfold tableFor
  rw [e]
  induction fs' generalizing fs with
  | nil => cases fs with | nil => rfl | cons => simp at h
  | cons a fs' ih =>
    cases fs with
    | nil => simp at h
    | cons b fs =>
      rw [List.map_cons, List.map_cons, List.cons.injEq] at h
      have e1 : a.forVar = b.forVar := congrArg Prod.fst h.1
      have e2 : a.given = b.given := congrArg Prod.snd h.1
      rw [List.find?_cons, List.find?_cons, e1]
      split
      · simp [e2]
      · exact ih h.2

theorem isUtility_key {vars vars' : List NVar} (h : vars'.map NVar.key = vars.map NVar.key) (g : String) :
    IsUtility vars' g ↔ IsUtility vars g := by
  have key : ∀ l : List NVar, IsUtility l g ↔ ∃ k ∈ l.map NVar.key, k.1 = g ∧ k.2.1 = .utility := by
    intro l
    unfold IsUtility
    constructor
    · rintro ⟨u, hu, h1, h2⟩; exact ⟨_, List.mem_map_of_mem hu, h1, h2⟩
    · rintro ⟨k, hk, h1, h2⟩
      obtain ⟨u, hu, rfl⟩ := List.mem_map.1 hk
      exact ⟨u, hu, h1, h2⟩
  rw [key, key, h]

theorem isTotal_key {vars vars' : List NVar} {fs fs' : List (NFactor α)} (hv : vars'.map NVar.key = vars.map NVar.key)
    (hf : fs'.map NFactor.head = fs.map NFactor.head) {v v' : NVar} (e : v'.key = v.key) :
    IsTotal vars' fs' v' ↔ IsTotal vars fs v := by
  have e1 : v'.name = v.name := congrArg Prod.fst e
  have e2 : v'.nodeType = v.nodeType := congrArg (fun k => k.2.1) e
  have ht := tableFor_head hf e1
  have key : ∀ (l : List NVar) (gs : List (NFactor α)) (w : NVar), IsTotal l gs w ↔ w.nodeType = .utility ∧
      ∃ g, (tableFor gs w).map NFactor.given = some g ∧ g ≠ [] ∧ ∀ x ∈ g, IsUtility l x := by
    intro l gs w
    unfold IsTotal
    constructor
    · rintro ⟨h1, f, h2, h3⟩; exact ⟨h1, f.given, by rw [h2]; rfl, h3⟩
    · rintro ⟨h1, g, h2, h3⟩
      obtain ⟨f, h4, rfl⟩ := Option.map_eq_some_iff.1 h2
      exact ⟨h1, f, h4, h3⟩
  rw [key, key, e2, ht]
  simp only [isUtility_key hv]

theorem key_mem {vars vars' : List NVar} (h : vars'.map NVar.key = vars.map NVar.key) {v' : NVar} (hv : v' ∈ vars') :
    ∃ v ∈ vars, v'.key = v.key := by
  have : v'.key ∈ vars.map NVar.key := h ▸ List.mem_map_of_mem hv
  obtain ⟨v, hv, e⟩ := List.mem_map.1 this
  exact ⟨v, hv, e.symm⟩

theorem key_names {vars vars' : List NVar} (h : vars'.map NVar.key = vars.map NVar.key) :
    vars'.map NVar.name = vars.map NVar.name := by
  have := congrArg (List.map Prod.fst) h
  rw [List.map_map, List.map_map] at this
  exact this

theorem accepted_key {vars vars' : List NVar} {fs fs' : List (NFactor α)} (hv : vars'.map NVar.key = vars.map NVar.key)
    (hf : fs'.map NFactor.head = fs.map NFactor.head) (h : Accepted vars fs) : Accepted vars' fs' := by
  have hname : ∀ {v v' : NVar}, v'.key = v.key → v'.name = v.name := fun e => congrArg Prod.fst e
  have htab : ∀ {v v' : NVar}, v'.key = v.key → ∀ f', tableFor fs' v' = some f' →
      ∃ f, tableFor fs v = some f ∧ f.given = f'.given := by
    intro v v' e f' hf'
    have := tableFor_head hf (hname e)
    rw [hf'] at this
    exact Option.map_eq_some_iff.1 this.symm
  have htab' : ∀ {v v' : NVar}, v'.key = v.key → ∀ f, tableFor fs v = some f →
      ∃ f', tableFor fs' v' = some f' ∧ f'.given = f.given := by
    intro v v' e f hf'
    have := tableFor_head hf (hname e)
    rw [hf'] at this
    exact Option.map_eq_some_iff.1 this
  have hnd : (vars'.map NVar.name).Nodup := by rw [key_names hv]; exact h.names
  refine ⟨hnd, ?_, ?_, ?_, ?_⟩
  · intro v' hv' f' hf' g hg
    obtain ⟨v, hvm, e⟩ := key_mem hv hv'
    obtain ⟨f, h1, h2⟩ := htab e f' hf'
    obtain ⟨u, hu, e'⟩ := h.parents v hvm f h1 g (h2 ▸ hg)
    obtain ⟨u', hu', e''⟩ := key_mem hv.symm hu
    exact ⟨u', hu', (hname e'').symm.trans e'⟩
  · intro v' hv' ht
    obtain ⟨v, hvm, e⟩ := key_mem hv hv'
    have e2 : v'.nodeType = v.nodeType := congrArg (fun k => k.2.1) e
    obtain ⟨f, h1, h2, h3⟩ := h.utility v hvm (e2 ▸ ht)
    obtain ⟨f', h4, h5⟩ := htab' e f h1
    refine ⟨f', h4, by rw [h5]; exact h2, ?_⟩
    simp only [h5, isUtility_key hv]
    exact h3
  · intro v' hv' w' hw' h1 h2
    obtain ⟨v, hvm, e⟩ := key_mem hv hv'
    obtain ⟨w, hwm, e'⟩ := key_mem hv hw'
    have := h.oneTotal v hvm w hwm ((isTotal_key hv hf e).1 h1) ((isTotal_key hv hf e').1 h2)
    subst this
    exact List.inj_on_of_nodup_map hnd hv' hw' ((hname e).trans (hname e').symm)
  · intro v' hv' h1 f' hf'
    obtain ⟨v, hvm, e⟩ := key_mem hv hv'
    obtain ⟨f, h2, h3⟩ := htab e f' hf'
    have e3 : v'.outcomes = v.outcomes := congrArg (fun k => k.2.2) e
    rw [e3, ← h3]
    exact h.weights v hvm ((isTotal_key hv hf e).1 h1) f h2

/-- What a network needs to be saved and loaded again. `New` makes such networks if every variable has an outcome and a
table of full rows. -/
structure Net.Saveable (n : Net α) : Prop where
  accepted : Accepted n.variables n.factors
  total : ∀ i v, n.variables[i]? = some v → IsTotal n.variables n.factors v → n.totalUtility = some i
  noTotal : (∀ v ∈ n.variables, ¬ IsTotal n.variables n.factors v) → n.totalUtility = none
  tables : ∀ v ∈ n.variables, 0 < v.outcomes.length ∧ ∃ j f, v.factor = some j ∧ n.factors[j]? = some f ∧
    f.forVar = v.name ∧ (∀ k g, k < j → n.factors[k]? = some g → g.forVar ≠ v.name) ∧ v.outcomes.length ∣ f.tab.length

theorem tableFor_first {fs : List (NFactor α)} {v : NVar} {j : Nat} {f : NFactor α} (h1 : fs[j]? = some f)
    (h2 : f.forVar = v.name) (h3 : ∀ k g, k < j → fs[k]? = some g → g.forVar ≠ v.name) : tableFor fs v = some f := by
  obtain ⟨hj, e⟩ := List.getElem?_eq_some_iff.1 h1
  unfold tableFor
  rw [List.find?_eq_some_iff_getElem]
  refine ⟨by simpa using h2, j, hj, e, ?_⟩
  intro k hk
  simpa using h3 k _ hk (List.getElem?_eq_getElem (by omega))

theorem core_head {fs fs' : List (NFactor α)} (h : fs'.map NFactor.core = fs.map NFactor.core) :
    fs'.map NFactor.head = fs.map NFactor.head := by
  have e : ∀ l : List (NFactor α), l.map NFactor.head = (l.map NFactor.core).map NFactor.head := by
    intro l; rw [List.map_map]; rfl
  rw [e fs', e fs, h]

theorem linked_key (fs : List (NFactor α)) (v : NVar) : (linked fs v).key = v.key := by
  unfold linked; split <;> rfl

theorem linked_keys (fs : List (NFactor α)) (vars : List NVar) : (vars.map (linked fs)).map NVar.key = vars.map NVar.key := by
  rw [List.map_map]
  exact List.map_congr_left (fun v _ => linked_key fs v)

/-- `New` makes such networks. -/
theorem new_saveable (name info : String) {vars : List NVar} {factors : List (NFactor α)}
    (hptr : ∀ v ∈ vars, v.factor = none) {n : Net α} (hnew : newNet name info vars factors = .ok n)
    (hall : ∀ v ∈ vars, 0 < v.outcomes.length ∧ ∃ f, tableFor factors v = some f ∧ v.outcomes.length ∣ f.tab.length) :
    n.Saveable := by
  have hb := C35_new_result name info vars factors hptr hnew
  have ha := (C35_new_partial name info vars factors hptr).1.1 ⟨n, hnew⟩
  have hk : n.variables.map NVar.key = vars.map NVar.key := by rw [hb.links]; exact linked_keys _ _
  have hh := core_head hb.tables
  refine ⟨accepted_key hk hh ha, ?_, ?_, ?_⟩
  · intro i v' hi ht
    rw [hb.links, List.getElem?_map] at hi
    obtain ⟨v, hv, rfl⟩ := Option.map_eq_some_iff.1 hi
    exact hb.total i v hv ((isTotal_key hk hh (linked_key _ _)).1 ht)
  · intro hno
    apply hb.noTotal
    intro v hv ht
    refine hno (linked factors v) (by rw [hb.links]; exact List.mem_map_of_mem hv) ?_
    exact (isTotal_key hk hh (linked_key _ _)).2 ht
  · intro v' hv'
    rw [hb.links] at hv'
    obtain ⟨v, hv, rfl⟩ := List.mem_map.1 hv'
    obtain ⟨h0, f, hf, hd⟩ := hall v hv
    have ho : (linked factors v).outcomes = v.outcomes := congrArg (fun k => k.2.2) (linked_key factors v)
    rw [ho]
    refine ⟨h0, ?_⟩
    obtain ⟨g, hg, hgc⟩ := tableFor_core hb.tables hf
    obtain ⟨hgf, i, hi, e, hi'⟩ := List.find?_eq_some_iff_getElem.1 (show n.factors.find? (fun f => f.forVar = v.name) = some g from hg)
    have hlen : n.factors.length = factors.length := by
      have := congrArg List.length hb.tables; simpa using this
    have hfor : ∀ (k : Nat) (h1 : k < n.factors.length) (h2 : k < factors.length),
        n.factors[k].forVar = factors[k].forVar := by
      intro k h1 h2
      have := congrArg (fun l => l[k]?) hh
      simp only [List.getElem?_map, List.getElem?_eq_getElem h1, List.getElem?_eq_getElem h2, Option.map_some,
        Option.some.injEq] at this
      exact congrArg Prod.fst this
    have hfi : factors.findIdx? (fun f => f.forVar = v.name) = some i := by
      rw [List.findIdx?_eq_some_iff_getElem]
      refine ⟨by omega, ?_, ?_⟩
      · rw [← hfor i hi (by omega), e]; exact hgf
      · intro k hk
        rw [← hfor k (by omega) (by omega)]
        simpa using hi' k hk
    refine ⟨i, g, ?_, by rw [List.getElem?_eq_getElem hi, e], by rw [linked_name]; simpa using hgf, ?_, ?_⟩
    · unfold linked; rw [hfi]
    · intro k x hk hx
      rw [linked_name]
      have := hi' k hk
      rw [List.getElem?_eq_getElem (by omega)] at hx
      cases hx
      simpa using this
    · rw [(core_parts hgc).2.2]; exact hd

/-- Saving and loading such a network, and how the loaded one is made. -/
theorem Net.Saveable.reload [Zero α] [One α] {n : Net α} (h : n.Saveable) :
    ∃ y n', toYaml n = .ok y ∧ (∀ lower hp, fromYaml lower y hp = (.ok n', hp)) ∧ SameNet n n' ∧
      newNet n.name "" ((n.variables.map (fun v => { v with factor := none })).map reloadedVar)
        ((n.variables.map (fun v => { v with factor := none })).map (reloadedTable n.factors)) = .ok n' := by
  let vars := n.variables.map (fun v => { v with factor := none })
  have hptr : ∀ v ∈ vars, v.factor = none := by
    intro v hv; obtain ⟨u, _, rfl⟩ := List.mem_map.1 hv; rfl
  have hk : vars.map NVar.key = n.variables.map NVar.key := by
    simp only [vars, List.map_map]; rfl
  have ha : Accepted vars n.factors := accepted_key hk rfl h.accepted
  obtain ⟨n0, hn0⟩ := (C35_new_partial n.name n.info vars n.factors hptr).1.2 ha
  have hb := C35_new_result n.name n.info vars n.factors hptr hn0
  have htf : ∀ v : NVar, tableFor n.factors { v with factor := none } = tableFor n.factors v := fun v => rfl
  have hall : ∀ v ∈ vars, 0 < v.outcomes.length ∧ ∃ f, tableFor n.factors v = some f ∧ v.outcomes.length ∣ f.tab.length := by
    intro v' hv'
    obtain ⟨v, hv, rfl⟩ := List.mem_map.1 hv'
    obtain ⟨h0, j, f, _, h1, h2, h3, h4⟩ := h.tables v hv
    exact ⟨h0, f, tableFor_first h1 h2 h3, h4⟩
  obtain ⟨y, n', h1, h2, h3, _, _, h4⟩ := Bbn.round_trip n.name n.info hptr hn0 hall
  refine ⟨y, n', ?_, h2, ?_, h4⟩
  · rw [← h1]
    unfold toYaml
    rw [hb.links, hb.sameName]
    have e1 : (vars.map (linked n.factors)).mapM (toYamlVar n0.factors) = .ok (vars.map (savedVar n.factors)) :=
      mapM_map_ok (fun v hv => by
        obtain ⟨h0, f, hf, _⟩ := hall v hv
        exact toYamlVar_linked hb.tables (hptr v hv) hf h0)
    have e2 : n.variables.mapM (toYamlVar n.factors) = .ok (vars.map (savedVar n.factors)) := by
      have : n.variables = n.variables.map id := (List.map_id _).symm
      rw [List.map_map, this, mapM_map_ok (h := savedVar n.factors ∘ (fun v => { v with factor := none })), ← this]
      intro v hv
      obtain ⟨h0, j, f, g1, g2, g5, g6, g4⟩ := h.tables v hv
      have g3 := tableFor_first g2 g5 g6
      unfold toYamlVar derefFactor
      simp only [id, g1]
      unfold goGet
      rw [g2]
      dsimp only
      rw [ok_bind]
      unfold tableRows
      rw [if_neg (by omega), ok_bind]
      simp only [Function.comp_apply, savedVar, htf, g3, Option.getD_some]
      rfl
    rw [e1, e2]
  · obtain ⟨s1, s2, s3, s4, s5⟩ := h3
    have hv : n0.variables.map (fun v => (v.name, v.nodeType, v.outcomes, v.position)) =
        n.variables.map (fun v => (v.name, v.nodeType, v.outcomes, v.position)) := by
      rw [hb.links, List.map_map, List.map_map]
      apply List.map_congr_left
      intro v _
      simp only [Function.comp_apply]
      unfold linked; split <;> rfl
    refine ⟨s1.trans hb.sameName, s2.trans hv, ?_, s4, ?_⟩
    · intro v hvm
      have hm : (v.name, v.nodeType, v.outcomes, v.position) ∈
          n0.variables.map (fun v => (v.name, v.nodeType, v.outcomes, v.position)) := by
        rw [hv]; exact List.mem_map_of_mem hvm
      obtain ⟨u, hu, e⟩ := List.mem_map.1 hm
      have en : u.name = v.name := congrArg Prod.fst e
      have et : ∀ fs : List (NFactor α), tableFor fs u = tableFor fs v := by intro fs; unfold tableFor; rw [en]
      obtain ⟨f, f', a1, a2, a3, a4⟩ := s3 u hu
      rw [et] at a1 a2
      obtain ⟨_, _, f0, _, b2, b3, b4, _⟩ := h.tables v hvm
      have b1 := tableFor_first b2 b3 b4
      obtain ⟨f1, c1, c2⟩ := tableFor_core hb.tables b1
      rw [a1] at c1
      cases c1
      exact ⟨f0, f', b1, a2, a3.trans (core_parts c2).2.1, a4.trans (core_parts c2).2.2⟩
    · rw [s5]
      by_cases ht : ∃ v ∈ n.variables, IsTotal n.variables n.factors v
      · obtain ⟨v, hvm, ht⟩ := ht
        obtain ⟨i, hi⟩ := List.mem_iff_getElem?.1 hvm
        rw [h.total i v hi ht]
        refine hb.total i { v with factor := none } (by simp [vars, hi]) ?_
        exact (isTotal_key (v' := { v with factor := none }) hk rfl rfl).2 ht
      · rw [h.noTotal (fun v hvm h => ht ⟨v, hvm, h⟩)]
        apply hb.noTotal
        intro v' hv' h1
        obtain ⟨v, hvm, rfl⟩ := List.mem_map.1 hv'
        exact ht ⟨v, hvm, (isTotal_key (v' := { v with factor := none }) hk rfl rfl).1 h1⟩

/-- Saving and loading such a network. -/
theorem Net.Saveable.round_trip [Zero α] [One α] {n : Net α} (h : n.Saveable) :
    ∃ y n', toYaml n = .ok y ∧ (∀ lower hp, fromYaml lower y hp = (.ok n', hp)) ∧ SameNet n n' := by
  obtain ⟨y, n', h1, h2, h3, _⟩ := h.reload
  exact ⟨y, n', h1, h2, h3⟩

/-- Training keeps this. -/
theorem SameNetwork.saveable {n n' : Net α} (h : SameNetwork n n') (hs : n.Saveable) : n'.Saveable := by
  obtain ⟨e, hl, ht⟩ := h
  have ev : n'.variables = n.variables := by rw [e]
  have et : n'.totalUtility = n.totalUtility := by rw [e]
  have hh : n'.factors.map NFactor.head = n.factors.map NFactor.head := by
    apply List.ext_getElem?
    intro i
    rw [List.getElem?_map, List.getElem?_map]
    cases hx : n.factors[i]? with
    | none =>
      have : n'.factors[i]? = none := by
        rw [List.getElem?_eq_none_iff] at hx ⊢; omega
      rw [this]
    | some f =>
      obtain ⟨tb, h1, _⟩ := ht i f hx
      rw [h1]; rfl
  have hk : n'.variables.map NVar.key = n.variables.map NVar.key := by rw [ev]
  refine ⟨accepted_key hk hh hs.accepted, ?_, ?_, ?_⟩
  · intro i v hi h1
    rw [et]
    exact hs.total i v (ev ▸ hi) ((isTotal_key hk hh rfl).1 h1)
  · intro hno
    rw [et]
    exact hs.noTotal (fun v hv h1 => hno v (ev ▸ hv) ((isTotal_key hk hh rfl).2 h1))
  · intro v hv
    obtain ⟨h0, j, f, h1, h2, h3, h4, h5⟩ := hs.tables v (ev ▸ hv)
    obtain ⟨tb, h6, h7⟩ := ht j f h2
    refine ⟨h0, j, _, h1, h6, h3, ?_, ?_⟩
    · intro k g hk hg
      have hk' : k < n.factors.length := by
        have := (List.getElem?_eq_some_iff.1 h2).1; omega
      obtain ⟨tb', h8, _⟩ := ht k _ (List.getElem?_eq_getElem hk')
      rw [h8] at hg
      cases hg
      exact h4 k n.factors[k] hk (List.getElem?_eq_getElem hk')
    · rw [tab_length h7]
      exact h5

/-- Moving boxes and solving policies keep this. -/
theorem moved_saveable {n m : Net α} (hs : n.Saveable) (hv : m.variables.map NVar.still = n.variables.map NVar.still)
    (hf : m.factors = n.factors) (ht : m.totalUtility = n.totalUtility) : m.Saveable := by
  have hk : m.variables.map NVar.key = n.variables.map NVar.key := by
    have := congrArg (List.map NVar.key) hv
    rw [List.map_map, List.map_map] at this
    exact this
  have hh : m.factors.map NFactor.head = n.factors.map NFactor.head := by rw [hf]
  have hmem : ∀ v ∈ m.variables, ∃ u ∈ n.variables, v.still = u.still := by
    intro v hvm
    have : v.still ∈ n.variables.map NVar.still := hv ▸ List.mem_map_of_mem hvm
    obtain ⟨u, hu, e⟩ := List.mem_map.1 this
    exact ⟨u, hu, e.symm⟩
  have hmem' : ∀ v ∈ n.variables, ∃ u ∈ m.variables, u.still = v.still := by
    intro v hvm
    have : v.still ∈ m.variables.map NVar.still := hv ▸ List.mem_map_of_mem hvm
    obtain ⟨u, hu, e⟩ := List.mem_map.1 this
    exact ⟨u, hu, e⟩
  refine ⟨accepted_key hk hh hs.accepted, ?_, ?_, ?_⟩
  · intro i v hi h1
    have := congrArg (fun l => l[i]?) hv
    simp only [List.getElem?_map, hi, Option.map_some] at this
    obtain ⟨u, hu, e⟩ := Option.map_eq_some_iff.1 this.symm
    rw [ht]
    exact hs.total i u hu ((isTotal_key hk hh (congrArg NVar.key e).symm).1 h1)
  · intro hno
    rw [ht]
    refine hs.noTotal (fun v hv' h1 => ?_)
    obtain ⟨u, hu, e⟩ := hmem' v hv'
    exact hno u hu ((isTotal_key hk hh (congrArg NVar.key e)).2 h1)
  · intro v hvm
    obtain ⟨u, hu, e⟩ := hmem v hvm
    have e1 : v.still.name = u.still.name := congrArg NVar.name e
    have e2 : v.still.outcomes = u.still.outcomes := congrArg NVar.outcomes e
    have e3 : v.still.factor = u.still.factor := congrArg NVar.factor e
    rw [show v.name = u.name from e1, show v.outcomes = u.outcomes from e2, show v.factor = u.factor from e3, hf]
    exact hs.tables u hu

end Bbn
