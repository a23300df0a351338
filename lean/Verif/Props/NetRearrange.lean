import Verif.Props.NetUtility

/-!
# `Rearrange` of a network
-/

set_option autoImplicit false

namespace Bbn

variable {α : Type}

/-- The names of a factor's variables, in order. -/
def Net.scopeNames (n : Net α) (f : Factor α) : List String :=
  f.vars.map (fun w => ((n.variables[w.id]?).map NVar.name).getD "")

/-- After a successful call, the network has a solver for its variables. -/
theorem solve_ready [Field α] [DecidableEq α] {sch : NSched α} {n : Net α} (hn : n.Valid) (hp : n.PoliciesOK)
    {evidence : List (String × String)} {query : List String} {util : Bool} {u : String} {ign : Bool} {r : Factor α}
    {n' : Net α} (h : n.solve sch evidence query util u ign = (.ok r, n')) :
    ∃ vs, n' = { n with vs := some vs, names := n.nameTable } := by
  obtain ⟨vs, fs, ps, deps, h1, _⟩ := toVE_spec sch 0 hn hp (if ign then evidence else [])
  unfold Net.solve Net.enter at h
  rw [h1] at h
  dsimp only at h
  split at h
  · simp at h
  · simp only [Prod.mk.injEq] at h
    exact ⟨_, h.2.symm⟩

/-- A requested variable. -/
structure Net.Found (n : Net α) (f : Factor α) (s : String) (w : Var) : Prop where
  mem : w ∈ f.vars
  id : w.id = (n.varOf s).id

theorem requested_spec {n m : Net α} (hn : n.Valid) (hm : m.names = n.nameTable) {f : Factor α} {s : String}
    (hs : n.IsVar s) (hf : ∃ w ∈ f.vars, w.id = (n.varOf s).id) :
    ∃ j w, m.requestedIndex f s = .ok j ∧ f.vars[j]? = some w ∧ n.Found f s w := by
  obtain ⟨i, v, h1, rfl, h3⟩ := hs
  obtain ⟨w, hw, hwi⟩ := hf
  have hget := (selfVars n).get_of hn h1 h3
  cases hj : firstIdx (n.varOf v.name).id f.vars with
  | none => rw [firstIdx_none] at hj; exact absurd (hwi ▸ List.mem_map_of_mem hw) hj
  | some j =>
    obtain ⟨x, k1, k2⟩ := firstIdx_some hj
    refine ⟨j, x, ?_, k1, List.mem_of_getElem? k1, k2⟩
    unfold Net.requestedIndex Net.variableIndex
    rw [hm, hget]
    dsimp only
    rw [varOf_eq hn h1 h3] at hj
    rw [hj]; rfl

theorem requested_list {n m : Net α} (hn : n.Valid) (hm : m.names = n.nameTable) {f : Factor α} :
    ∀ l : List String, (∀ s ∈ l, n.IsVar s ∧ ∃ w ∈ f.vars, w.id = (n.varOf s).id) →
    ∃ js ws, l.mapM (m.requestedIndex f) = .ok js ∧ js.mapM (goGet f.vars) = .ok ws ∧
      List.Forall₂ (n.Found f) l ws ∧ List.Forall₂ (fun j w => f.vars[j]? = some w) js ws := by
  intro l
  induction l with
  | nil => intro _; exact ⟨[], [], rfl, rfl, .nil, .nil⟩
  | cons s l ih =>
    intro h
    obtain ⟨js, ws, h1, h2, h3, h4⟩ := ih (fun t ht => h t (List.mem_cons_of_mem _ ht))
    obtain ⟨j, w, k1, k2, k3⟩ := requested_spec hn hm (h s List.mem_cons_self).1 (h s List.mem_cons_self).2
    refine ⟨j :: js, w :: ws, ?_, ?_, .cons k3 h3, .cons k2 h4⟩
    · rw [List.mapM_cons, k1, h1]; rfl
    · rw [List.mapM_cons, goGet_eq.2 k2, h2]; rfl

theorem found_name {n : Net α} (hn : n.Valid) {f : Factor α} {s : String} (hs : n.IsVar s) {w : Var} (h : n.Found f s w) :
    ((n.variables[w.id]?).map NVar.name).getD "" = s := by
  obtain ⟨i, v, h1, rfl, h3⟩ := hs
  rw [h.id, varOf_eq hn h1 h3]
  simp [Net.solverVar, h1]

theorem map_fst_zipIdx_filter {β : Type} (p : β → Bool) (l : List β) (k : Nat) :
    ((l.zipIdx k).filter (fun e => p e.1)).map Prod.fst = l.filter p := by
  induction l generalizing k with
  | nil => rfl
  | cons a l ih =>
    rw [List.zipIdx_cons]
    by_cases h : p a = true
    · rw [List.filter_cons_of_pos (by simpa using h), List.filter_cons_of_pos h, List.map_cons, ih]
    · rw [List.filter_cons_of_neg (by simpa using h), List.filter_cons_of_neg h, ih]

/-- `Rearrange` of a network that has been asked before. -/
theorem rearrange_ready [Zero α] {n : Net α} (hn : n.Valid) (vs : Vs) {f : Factor α} (hf : f.WF)
    (hvars : ∀ w ∈ f.vars, ∃ v, n.variables[w.id]? = some v ∧ v.name ≠ n.totalName) {names : List String} {last : String}
    (hnd : (names ++ [last]).Nodup) (hin : ∀ s ∈ names ++ [last], s ∈ n.scopeNames f) :
    ∃ g vs', Net.rearrange { n with vs := some vs, names := n.nameTable } f (names ++ [last]) =
        (.ok g, { n with vs := some vs', names := n.nameTable }) ∧ g.WF ∧
      n.scopeNames g = names ++ (n.scopeNames f).filter (· ∉ names ++ [last]) ++ [last] ∧
      g.vars.Perm f.vars ∧ ∀ σ, Fits σ f.vars → g.val σ = f.val σ := by
  set n' : Net α := { n with vs := some vs, names := n.nameTable } with hn'
  have hnames : n'.names = n.nameTable := rfl
  have hnv : f.vars.Nodup := List.Nodup.of_map _ hf.nodup
  have hreq : ∀ s ∈ names ++ [last], n.IsVar s ∧ ∃ w ∈ f.vars, w.id = (n.varOf s).id := by
    intro s hs
    obtain ⟨w, hw, e⟩ := List.mem_map.1 (hin s hs)
    obtain ⟨v, h1, h2⟩ := hvars w hw
    simp only [h1, Option.map_some, Option.getD_some] at e
    subst e
    have h3 : n.totalUtility ≠ some w.id := fun e => h2 ((totalName_iff hn h1).2 e)
    exact ⟨⟨w.id, v, h1, rfl, h3⟩, w, hw, by rw [varOf_eq hn h1 h3]; rfl⟩
  obtain ⟨js, ws, a1, a2, a3, a4⟩ := requested_list hn hnames names (fun s hs => hreq s (List.mem_append_left _ hs))
  obtain ⟨j, w, b1, b2, b3⟩ := requested_spec hn hnames (hreq last (by simp)).1 (hreq last (by simp)).2
  have hnm : ∀ x ∈ f.vars, ∀ s, n.IsVar s →
      (((n.variables[x.id]?).map NVar.name).getD "" = s ↔ x.id = (n.varOf s).id) := by
    intro x hx s hs
    obtain ⟨v, h1, h2⟩ := hvars x hx
    have h3 : n.totalUtility ≠ some x.id := fun e => h2 ((totalName_iff hn h1).2 e)
    simp only [h1, Option.map_some, Option.getD_some]
    have hxv : (n.varOf v.name).id = x.id := by rw [varOf_eq hn h1 h3]; rfl
    constructor
    · rintro rfl; exact hxv.symm
    · intro e; exact Net.IsVar.inj hn ⟨x.id, v, h1, rfl, h3⟩ hs (hxv.trans e)
  have hwsmem : ∀ x, x ∈ ws ↔ x ∈ f.vars ∧ ((n.variables[x.id]?).map NVar.name).getD "" ∈ names := by
    intro x
    constructor
    · intro hx
      obtain ⟨s, hs, k⟩ := forall₂_mem_right a3 hx
      exact ⟨k.mem, by rw [found_name hn (hreq s (by simp [hs])).1 k]; exact hs⟩
    · rintro ⟨hx, hs⟩
      obtain ⟨y, hy, k⟩ := forall₂_mem_left a3 hs
      have e := (hnm x hx _ (hreq _ (by simp [hs])).1).1 rfl
      have := coherent_of_nodup hf.nodup x hx y k.mem (e.trans k.id.symm)
      rw [this]; exact hy
  have hwmem : ∀ x ∈ f.vars, (x.is w = true ↔ ((n.variables[x.id]?).map NVar.name).getD "" = last) := by
    intro x hx
    rw [hnm x hx _ (hreq last (by simp)).1, ← b3.id]
    simp [Var.is]
  have hrest : (f.vars.zipIdx.filter (fun p => p.2 ∉ js ∧ ¬ p.1.is w)).map Prod.fst =
      f.vars.filter (fun x => ((n.variables[x.id]?).map NVar.name).getD "" ∉ names ++ [last]) := by
    rw [← map_fst_zipIdx_filter _ f.vars 0]
    congr 1
    apply List.filter_congr
    intro p hp
    obtain ⟨x, i⟩ := p
    have hxi : f.vars[i]? = some x := by simpa using List.mem_zipIdx_iff_getElem?.1 hp
    have hx := List.mem_of_getElem? hxi
    have hij : i ∈ js ↔ ((n.variables[x.id]?).map NVar.name).getD "" ∈ names := by
      have : i ∈ js ↔ x ∈ ws := by
        constructor
        · intro hi
          obtain ⟨y, hy, k⟩ := forall₂_mem_left a4 hi
          rw [hxi] at k
          injection k with k
          rw [k]; exact hy
        · intro hy
          obtain ⟨i', hi, k⟩ := forall₂_mem_right a4 hy
          have hlt : i < f.vars.length := (List.getElem?_eq_some_iff.1 hxi).1
          have := (List.getElem?_inj hlt hnv (j := i')).1 (by rw [hxi, k])
          rw [this]; exact hi
      rw [this, hwsmem]
      simp [hx]
    have h2 := hwmem x hx
    simp only [List.mem_append, List.mem_singleton, not_or, hij, h2]
  have hperm : (ws ++ f.vars.filter (fun x => ((n.variables[x.id]?).map NVar.name).getD "" ∉ names ++ [last]) ++ [w]).Perm
      f.vars := by
    rw [List.perm_ext_iff_of_nodup _ hnv]
    · intro x
      simp only [List.mem_append, hwsmem, List.mem_filter, List.mem_singleton, decide_eq_true_eq, not_or]
      constructor
      · rintro ((h | h) | rfl)
        · exact h.1
        · exact h.1
        · exact b3.mem
      · intro hx
        by_cases c1 : ((n.variables[x.id]?).map NVar.name).getD "" ∈ names
        · exact .inl (.inl ⟨hx, c1⟩)
        · by_cases c2 : ((n.variables[x.id]?).map NVar.name).getD "" = last
          · right
            have := (hwmem x hx).2 c2
            exact coherent_of_nodup hf.nodup x hx w b3.mem (by simpa [Var.is] using this)
          · exact .inl (.inr ⟨hx, c1, c2⟩)
    · have hl : ((n.variables[w.id]?).map NVar.name).getD "" = last := found_name hn (hreq last (by simp)).1 b3
      have hnl : last ∉ names := by
        rw [List.nodup_append] at hnd
        exact fun h => hnd.2.2 last h last (by simp) rfl
      have hwsn : ws.Nodup := by
        have e : ws.map (fun w => ((n.variables[w.id]?).map NVar.name).getD "") = names := by
          have : ∀ {l : List String} {ys : List Var}, List.Forall₂ (n.Found f) l ys → (∀ s ∈ l, n.IsVar s) →
              ys.map (fun w => ((n.variables[w.id]?).map NVar.name).getD "") = l := by
            intro l ys hh
            induction hh with
            | nil => intro _; rfl
            | @cons s y l ys hsy _ ih =>
              intro hs
              rw [List.map_cons, ih (fun t ht => hs t (List.mem_cons_of_mem _ ht)), found_name hn (hs s List.mem_cons_self) hsy]
          exact this a3 (fun s hs => (hreq s (by simp [hs])).1)
        apply List.Nodup.of_map (fun w : Var => ((n.variables[w.id]?).map NVar.name).getD "")
        rw [e]
        exact (List.nodup_append.1 hnd).1
      rw [List.nodup_append, List.nodup_append]
      refine ⟨⟨hwsn, hnv.filter _, ?_⟩, by simp, ?_⟩
      · rintro a ha b hb rfl
        simp only [List.mem_filter, List.mem_append, decide_eq_true_eq, not_or] at hb
        exact hb.2.1 ((hwsmem a).1 ha).2
      · rintro a ha b hb rfl
        simp only [List.mem_singleton] at hb
        subst hb
        rcases List.mem_append.1 ha with ha | ha
        · exact hnl (hl ▸ ((hwsmem a).1 ha).2)
        · simp only [List.mem_filter, List.mem_append, List.mem_singleton, decide_eq_true_eq, not_or] at ha
          exact ha.2.2 hl
  obtain ⟨g, g1, g2, _, g4, g5⟩ := rearrange_spec vs f hf _ hperm
  refine ⟨g, { vs with factorCounter := vs.factorCounter + 1 }, ?_, g2, ?_, by rw [g4]; exact hperm, g5⟩
  · have e : n'.rearrangeVariables f (names ++ [last]) = .ok (ws ++ f.vars.filter (fun x => ((n.variables[x.id]?).map NVar.name).getD "" ∉ names ++ [last]) ++ [w]) := by
      unfold Net.rearrangeVariables
      rw [List.dropLast_concat, a1, ok_bind, List.getLast?_concat]
      dsimp only
      rw [b1, ok_bind, a2, ok_bind, goGet_eq.2 b2, ok_bind, ← hrest]
      rfl
    unfold Net.rearrange Net.withVs
    rw [e]
    dsimp only
    rw [hn']
    dsimp only
    rw [g1]
  · unfold Net.scopeNames
    rw [g4, List.map_append, List.map_append, List.map_cons, List.map_nil, found_name hn (hreq last (by simp)).1 b3,
      List.filter_map]
    congr 2
    have : ∀ {l : List String} {ys : List Var}, List.Forall₂ (n.Found f) l ys → (∀ s ∈ l, n.IsVar s) →
        ys.map (fun w => ((n.variables[w.id]?).map NVar.name).getD "") = l := by
      intro l ys hh
      induction hh with
      | nil => intro _; rfl
      | @cons s y l ys hsy _ ih =>
        intro hs
        rw [List.map_cons, ih (fun t ht => hs t (List.mem_cons_of_mem _ ht)), found_name hn (hs s List.mem_cons_self) hsy]
    exact this a3 (fun s hs => (hreq s (by simp [hs])).1)

/-- **C44.** After a call, `Rearrange` of a factor that has all the named variables (each named once) gives the same
function, with all but the last named variable first, in the given order, then the variables not named, in their old
order, then the last named variable. -/
theorem C44_rearrange [Field α] [DecidableEq α] {sch : NSched α} {n : Net α} (hn : n.Valid) (hp : n.PoliciesOK)
    {evidence : List (String × String)} {query : List String} {util : Bool} {u : String} {ign : Bool} {r : Factor α}
    {n' : Net α} (h : n.solve sch evidence query util u ign = (.ok r, n')) {f : Factor α} (hf : f.WF)
    (hvars : ∀ w ∈ f.vars, ∃ v, n.variables[w.id]? = some v ∧ v.name ≠ n.totalName) {names : List String} {last : String}
    (hnd : (names ++ [last]).Nodup) (hin : ∀ s ∈ names ++ [last], s ∈ n.scopeNames f) :
    ∃ g n'', n'.rearrange f (names ++ [last]) = (.ok g, n'') ∧
      n.scopeNames g = names ++ (n.scopeNames f).filter (· ∉ names ++ [last]) ++ [last] ∧
      g.vars.Perm f.vars ∧
      ∀ σ, Fits σ f.vars → g.get (ints (tupleOf g.vars σ)) = f.get (ints (tupleOf f.vars σ)) := by
  obtain ⟨vs, rfl⟩ := solve_ready hn hp h
  obtain ⟨g, vs', h1, h2, h3, h4, h5⟩ := rearrange_ready hn vs hf hvars hnd hin
  refine ⟨g, _, h1, h3, h4, fun σ hσ => ?_⟩
  rw [get_eq_val hf hσ, get_eq_val h2 (fun x hx => hσ x (h4.subset hx)), h5 σ hσ]

/-- The refusals: no name, a name the network does not have, a variable that is not in the factor. -/
theorem C44_rearrange_panics [Field α] [DecidableEq α] {sch : NSched α} {n : Net α} (hn : n.Valid) (hp : n.PoliciesOK)
    {evidence : List (String × String)} {query : List String} {util : Bool} {u : String} {ign : Bool} {r : Factor α}
    {n' : Net α} (h : n.solve sch evidence query util u ign = (.ok r, n')) {f : Factor α} {names : List String}
    (hbad : names = [] ∨ ∃ s ∈ names, s ∉ n.scopeNames f) : Panics (n'.rearrange f names).1 := by
  obtain ⟨vs, rfl⟩ := solve_ready hn hp h
  set n' : Net α := { n with vs := some vs, names := n.nameTable } with hn'
  have hone : ∀ s, (∃ e, n'.requestedIndex f s = .error (.panic e)) ∨ ∃ j, n'.requestedIndex f s = .ok j := by
    intro s
    unfold Net.requestedIndex Net.variableIndex
    cases mapGet n'.names s with
    | none => exact .inl ⟨_, rfl⟩
    | some p =>
      dsimp only
      cases firstIdx p.2.id f.vars with
      | none => exact .inl ⟨_, rfl⟩
      | some j => exact .inr ⟨j, rfl⟩
  have hmiss : ∀ s, s ∉ n.scopeNames f → ∃ e, n'.requestedIndex f s = .error (.panic e) := by
    intro s hs
    unfold Net.requestedIndex Net.variableIndex
    cases hm : mapGet n'.names s with
    | none => exact ⟨_, rfl⟩
    | some p =>
      dsimp only
      cases hj : firstIdx p.2.id f.vars with
      | none => exact ⟨_, rfl⟩
      | some j =>
        exfalso
        apply hs
        obtain ⟨i, h1, h2, _, h4⟩ := ((selfVars n).get hn).1 hm
        obtain ⟨w, k1, k2⟩ := firstIdx_some hj
        refine List.mem_map.2 ⟨w, List.mem_of_getElem? k1, ?_⟩
        rw [k2, h4]
        simp [Net.solverVar, h1, h2]
  have hlist : ∀ l : List String, ((∃ e, l.mapM (n'.requestedIndex f) = .error (.panic e)) ∨
      ((∃ js, l.mapM (n'.requestedIndex f) = .ok js) ∧ ∀ s ∈ l, s ∈ n.scopeNames f)) := by
    intro l
    induction l with
    | nil => exact .inr ⟨⟨[], rfl⟩, by simp⟩
    | cons s l ih =>
      rw [List.mapM_cons]
      rcases hone s with ⟨e, he⟩ | ⟨j, hj⟩
      · rw [he]; exact .inl ⟨e, rfl⟩
      · have hsin : s ∈ n.scopeNames f := by
          by_contra hc
          obtain ⟨e, he⟩ := hmiss s hc
          rw [he] at hj; cases hj
        rw [hj]
        rcases ih with ⟨e, he⟩ | ⟨⟨js, hjs⟩, hall⟩
        · rw [he]; exact .inl ⟨e, rfl⟩
        · rw [hjs]
          exact .inr ⟨⟨_, rfl⟩, fun t ht => by rcases List.mem_cons.1 ht with rfl | ht; exacts [hsin, hall t ht]⟩
  have key : ∃ e, n'.rearrangeVariables f names = .error (.panic e) := by
    unfold Net.rearrangeVariables
    rcases hlist names.dropLast with ⟨e, he⟩ | ⟨⟨js, hjs⟩, hall⟩
    · rw [he]; exact ⟨e, rfl⟩
    · rw [hjs, ok_bind]
      cases hl : names.getLast? with
      | none => exact ⟨_, rfl⟩
      | some l =>
        dsimp only
        have hne : names ≠ [] := by rintro rfl; simp at hl
        have hlm : l ∉ n.scopeNames f := by
          rcases hbad with hbad | ⟨s, hs, hns⟩
          · exact absurd hbad hne
          · have : names = names.dropLast ++ [l] := by
              rw [List.getLast?_eq_getLast_of_ne_nil hne, Option.some.injEq] at hl
              rw [← hl, List.dropLast_append_getLast hne]
            rw [this, List.mem_append, List.mem_singleton] at hs
            rcases hs with hs | rfl
            · exact absurd (hall s hs) hns
            · exact hns
        obtain ⟨e, he⟩ := hmiss l hlm
        rw [he]; exact ⟨e, rfl⟩
  obtain ⟨e, he⟩ := key
  unfold Net.rearrange
  rw [he]
  exact ⟨e, rfl⟩

/-- A factor over weather, forecast and umbrella, rearranged to umbrella, forecast, weather. -/
example : ∃ n' g n'', (Ex.umb.solve Ex.back [] ["Weather"] true "" false).2 = n' ∧
    n'.rearrange ⟨7, [1, 2, 3, 4, 5, 6, 7, 8], [⟨0, 0, 2, .chance⟩, ⟨1, 1, 2, .chance⟩, ⟨2, 2, 2, .decision⟩]⟩
      ["Umbrella", "Weather"] = (.ok g, n'') ∧ Ex.umb.scopeNames g = ["Umbrella", "Forecast", "Weather"] := by
  obtain ⟨r, n', h1, _⟩ := C75_solveUtility_exact Ex.back Ex.umb_valid (Ex.noPolicies rfl)
    (evidence := []) ⟨by decide, by decide⟩ (query := ["Weather"]) (by decide) (u := "") (.inl ⟨rfl, by decide⟩) false
  obtain ⟨g, n'', h2, h3, _⟩ := C44_rearrange Ex.umb_valid (Ex.noPolicies rfl) h1
    (f := ⟨7, [1, 2, 3, 4, 5, 6, 7, 8], [⟨0, 0, 2, .chance⟩, ⟨1, 1, 2, .chance⟩, ⟨2, 2, 2, .decision⟩]⟩)
    ⟨by decide, by decide⟩ (by
      intro w hw
      simp only [List.mem_cons, List.not_mem_nil, or_false] at hw
      rcases hw with rfl | rfl | rfl <;> exact ⟨_, rfl, by decide⟩)
    (names := ["Umbrella"]) (last := "Weather") (by decide) (by decide)
  exact ⟨n', g, n'', congrArg Prod.snd h1, h2, h3⟩

/-- The umbrella is not in that factor. -/
example : Panics ((Ex.umb.solve Ex.back [] ["Weather"] true "" false).2.rearrange
    ⟨7, [1, 2], [⟨0, 0, 2, .chance⟩]⟩ ["Umbrella"]).1 := by
  obtain ⟨r, n', h1, _⟩ := C75_solveUtility_exact Ex.back Ex.umb_valid (Ex.noPolicies rfl)
    (evidence := []) ⟨by decide, by decide⟩ (query := ["Weather"]) (by decide) (u := "") (.inl ⟨rfl, by decide⟩) false
  have e : (Ex.umb.solve Ex.back [] ["Weather"] true "" false).2 = n' := congrArg Prod.snd h1
  rw [e]
  exact C44_rearrange_panics Ex.umb_valid (Ex.noPolicies rfl) h1 (.inr ⟨"Umbrella", by decide, by decide⟩)

end Bbn
