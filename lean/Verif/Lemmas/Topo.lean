import Verif.Model.VE
import Verif.Spec.Topo
import Verif.Lemmas.Repeat
import Mathlib.Data.List.Nodup
import Mathlib.Data.Finset.Card

/-!
# The topological sort of decisions
-/

set_option autoImplicit false

namespace Bbn

variable {α : Type}

/-- What a (partial) run of the depth-first search does to `visited` and `result`. -/
structure TPost (dec : List Var) (vis : List Bool) (res : List Var) (vis' : List Bool) (res' : List Var) : Prop where
  len : vis'.length = vis.length
  mono : ∀ j : Nat, vis[j]? = some true → vis'[j]? = some true
  ext : ∃ e, res' = res ++ e ∧ e.Nodup ∧
    ∀ v ∈ e, ∃ j : Nat, dec[j]? = some v ∧ vis[j]? = some false ∧ vis'[j]? = some true
  done : ∀ (j : Nat) v, vis[j]? = some false → vis'[j]? = some true → dec[j]? = some v → v ∈ res'

theorem TPost.refl (dec : List Var) (vis : List Bool) (res : List Var) : TPost dec vis res vis res where
  len := rfl
  mono _ h := h
  ext := ⟨[], by simp, by simp, by simp⟩
  done j v h1 h2 := by rw [h1] at h2; simp at h2

theorem getElem?_bool {vis : List Bool} {j : Nat} (h : j < vis.length) : vis[j]? = some true ∨ vis[j]? = some false := by
  rw [List.getElem?_eq_getElem h]; cases vis[j] <;> simp

theorem TPost.trans {dec : List Var} (hd : dec.Nodup) {v1 v2 v3 : List Bool} {r1 r2 r3 : List Var}
    (h : TPost dec v1 r1 v2 r2) (k : TPost dec v2 r2 v3 r3) : TPost dec v1 r1 v3 r3 := by
  obtain ⟨e, he1, he2, he3⟩ := h.ext
  obtain ⟨e', he1', he2', he3'⟩ := k.ext
  refine ⟨k.len.trans h.len, fun j hj => k.mono j (h.mono j hj), ⟨e ++ e', ?_, ?_, ?_⟩, ?_⟩
  · rw [he1', he1, List.append_assoc]
  · rw [List.nodup_append]
    refine ⟨he2, he2', ?_⟩
    rintro a ha b hb rfl
    obtain ⟨j, hj1, _, hj3⟩ := he3 a ha
    obtain ⟨j', hj1', hj2', _⟩ := he3' a hb
    have hlt : j < dec.length := by
      by_contra hc; rw [List.getElem?_eq_none (by omega)] at hj1; simp at hj1
    have : j = j' := ((List.getElem?_inj hlt hd).1 (hj1.trans hj1'.symm))
    subst this
    rw [hj3] at hj2'; simp at hj2'
  · intro v hv
    rcases List.mem_append.1 hv with hv | hv
    · obtain ⟨j, h1, h2, h3⟩ := he3 v hv
      exact ⟨j, h1, h2, k.mono j h3⟩
    · obtain ⟨j, h1, h2, h3⟩ := he3' v hv
      refine ⟨j, h1, ?_, h3⟩
      have hlt : j < v1.length := by
        rw [← h.len]
        by_contra hc; rw [List.getElem?_eq_none (by omega)] at h2; simp at h2
      rcases getElem?_bool hlt with h4 | h4
      · rw [h.mono j h4] at h2; simp at h2
      · exact h4
  · intro j v h1 h2 h3
    have hlt : j < v2.length := by
      rw [h.len]
      by_contra hc; rw [List.getElem?_eq_none (by omega)] at h1; simp at h1
    rcases getElem?_bool hlt with h4 | h4
    · rw [he1']; exact List.mem_append_left _ (h.done j v h1 h4 h3)
    · exact k.done j v h4 h2 h3

/-- Visited but not yet finished. -/
def Grey (dec : List Var) (vis : List Bool) (res : List Var) (g : Var) : Prop :=
  ∃ j : Nat, dec[j]? = some g ∧ vis[j]? = some true ∧ g ∉ res

theorem TPost.grey {dec : List Var} {v1 v2 : List Bool} {r1 r2 : List Var}
    (h : TPost dec v1 r1 v2 r2) {g : Var} (hg : Grey dec v2 r2 g) : Grey dec v1 r1 g := by
  obtain ⟨j, h1, h2, h3⟩ := hg
  obtain ⟨e, he, _⟩ := h.ext
  have hlt : j < v1.length := by
    rw [← h.len]
    by_contra hc; rw [List.getElem?_eq_none (by omega)] at h2; simp at h2
  rcases getElem?_bool hlt with h4 | h4
  · exact ⟨j, h1, h4, fun hin => h3 (by rw [he]; exact List.mem_append_left _ hin)⟩
  · exact absurd (h.done j g h4 h2 h1) h3

theorem topoOrdered_snoc {deps : List (Var × List Var)} {res : List Var} {v : Var} (h : TopoOrdered deps res)
    (hv : ∀ p, DecEdge deps p v → p ∈ res) : TopoOrdered deps (res ++ [v]) := by
  intro l1 w l2 e p hp
  rcases List.eq_nil_or_concat l2 with rfl | ⟨l2', x, rfl⟩
  · have e1 := List.append_inj' e rfl
    simp at e1
    obtain ⟨rfl, rfl⟩ := e1
    exact hv p hp
  · have e2 : res ++ [v] = (l1 ++ w :: l2') ++ [x] := by rw [e]; simp
    have e3 := List.append_inj' e2 rfl
    exact h l1 w l2' e3.1 p hp

/-- The unvisited positions. -/
def unvisited (vis : List Bool) : Finset Nat := (Finset.range vis.length).filter (fun j => vis[j]? = some false)

theorem TPost.card_le {dec : List Var} {v1 v2 : List Bool} {r1 r2 : List Var} (h : TPost dec v1 r1 v2 r2) :
    (unvisited v2).card ≤ (unvisited v1).card := by
  apply Finset.card_le_card
  intro j hj
  simp only [unvisited, Finset.mem_filter, Finset.mem_range] at hj ⊢
  refine ⟨h.len ▸ hj.1, ?_⟩
  rcases getElem?_bool (h.len ▸ hj.1 : j < v1.length) with h4 | h4
  · rw [h.mono j h4] at hj; simp at hj
  · exact h4

/-- The result of one call at the position `i`. -/
def TCall (dec : List Var) (deps : List (Var × List Var)) (i : Nat) (vis : List Bool) (res : List Var)
    (vis' : List Bool) (res' : List Var) : Prop :=
  TPost dec vis res vis' res' ∧ vis'[i]? = some true ∧
    ∀ v, dec[i]? = some v → DecAcyclic deps → TopoOrdered deps res →
      (∀ g, Grey dec vis res g → Relation.TransGen (DecEdge deps) v g) → TopoOrdered deps res' ∧ v ∈ res'

/-- All decision parents listed for decisions are themselves listed decisions. -/
def DepsClosed (dec : List Var) (deps : List (Var × List Var)) : Prop :=
  ∀ v ∈ dec, ∀ p, DecEdge deps p v → p ∈ dec

/-- The parents loop. -/
theorem topoParents_spec {dec : List Var} (hd : dec.Nodup) {deps : List (Var × List Var)}
    {call : Nat → TopoState → Except Fault TopoState} {fuel : Nat} {v : Var}
    (hcall : ∀ i vis res t, i < dec.length → vis.length = dec.length → (unvisited vis).card < fuel →
      ∃ vis' res' t', call i (vis, res, t) = .ok (vis', res', t') ∧ TCall dec deps i vis res vis' res') :
    ∀ (ps : List Var) vis res t, (∀ p ∈ ps, p.nodeType = .decision → p ∈ dec ∧ DecEdge deps p v) →
      vis.length = dec.length → (unvisited vis).card < fuel →
      ∃ vis' res' t', topoParents dec call ps (vis, res, t) = .ok (vis', res', t') ∧
        TPost dec vis res vis' res' ∧
        (DecAcyclic deps → TopoOrdered deps res → (∀ g, Grey dec vis res g → Relation.ReflTransGen (DecEdge deps) v g) →
          TopoOrdered deps res' ∧ ∀ p ∈ ps, p.nodeType = .decision → p ∈ res') := by
  intro ps
  induction ps with
  | nil =>
    intro vis res t _ _ _
    exact ⟨vis, res, t, rfl, TPost.refl .., fun _ h _ => ⟨h, by simp⟩⟩
  | cons p ps ih =>
    intro vis res t hps hlen hfuel
    by_cases hp : p.nodeType = .decision
    · obtain ⟨hpd, hpe⟩ := hps p (by simp) hp
      obtain ⟨i, hi⟩ := slicesIndex_mem hpd
      have hi2 := slicesIndex_some hi
      have hilt : i < dec.length := by
        by_contra hc; rw [List.getElem?_eq_none (by omega)] at hi2; simp at hi2
      obtain ⟨vis1, res1, t1, h1, h2, h3, h4⟩ := hcall i vis res t hilt hlen hfuel
      obtain ⟨vis2, res2, t2, k1, k2, k3⟩ := ih vis1 res1 t1 (fun q hq => hps q (by simp [hq]))
        (h2.len.trans hlen) (lt_of_le_of_lt h2.card_le hfuel)
      refine ⟨vis2, res2, t2, ?_, h2.trans hd k2, ?_⟩
      · rw [topoParents, if_neg (by simp [hp]), hi]
        simp only [h1, ok_bind]; exact k1
      · intro ha ho hg
        obtain ⟨m1, m2⟩ := h4 p hi2 ha ho
          (fun g hg' => Relation.TransGen.head'_iff.2 ⟨v, hpe, hg g hg'⟩)
        obtain ⟨n1, n2⟩ := k3 ha m1 (fun g hg' => hg g (h2.grey hg'))
        refine ⟨n1, ?_⟩
        intro q hq hqd
        rcases List.mem_cons.1 hq with rfl | hq
        · obtain ⟨e, he, _⟩ := k2.ext
          rw [he]; exact List.mem_append_left _ m2
        · exact n2 q hq hqd
    · obtain ⟨vis2, res2, t2, k1, k2, k3⟩ := ih vis res t (fun q hq => hps q (by simp [hq])) hlen hfuel
      refine ⟨vis2, res2, t2, ?_, k2, ?_⟩
      · rw [topoParents, if_pos hp]; exact k1
      · intro ha ho hg
        obtain ⟨n1, n2⟩ := k3 ha ho hg
        refine ⟨n1, ?_⟩
        intro q hq hqd
        rcases List.mem_cons.1 hq with rfl | hq
        · exact absurd hqd hp
        · exact n2 q hq hqd

/-- The loop over the dependency map. -/
theorem topoEntries_spec {dec : List Var} (hd : dec.Nodup) {deps : List (Var × List Var)}
    {call : Nat → TopoState → Except Fault TopoState} {fuel : Nat} {v : Var} (hv : v ∈ dec) (hc : DepsClosed dec deps)
    (hcall : ∀ i vis res t, i < dec.length → vis.length = dec.length → (unvisited vis).card < fuel →
      ∃ vis' res' t', call i (vis, res, t) = .ok (vis', res', t') ∧ TCall dec deps i vis res vis' res') :
    ∀ (es : List (Var × List Var)) vis res t, (∀ e ∈ es, e ∈ deps) →
      vis.length = dec.length → (unvisited vis).card < fuel →
      ∃ vis' res' t', topoEntries dec call v es (vis, res, t) = .ok (vis', res', t') ∧
        TPost dec vis res vis' res' ∧
        (DecAcyclic deps → TopoOrdered deps res → (∀ g, Grey dec vis res g → Relation.ReflTransGen (DecEdge deps) v g) →
          TopoOrdered deps res' ∧ ∀ e ∈ es, e.1.id = v.id → ∀ p ∈ e.2, p.nodeType = .decision → p ∈ res') := by
  intro es
  induction es with
  | nil =>
    intro vis res t _ _ _
    exact ⟨vis, res, t, rfl, TPost.refl .., fun _ h _ => ⟨h, by simp⟩⟩
  | cons e es ih =>
    intro vis res t hes hlen hfuel
    by_cases he : e.1.id = v.id
    · have hedge : ∀ p ∈ e.2, p.nodeType = .decision → p ∈ dec ∧ DecEdge deps p v := by
        intro p hp hpd
        have : DecEdge deps p v := ⟨e, hes e (by simp), he, hp, hpd⟩
        exact ⟨hc v hv p this, this⟩
      obtain ⟨vis1, res1, t1, h1, h2, h3⟩ := topoParents_spec hd hcall e.2 vis res t hedge hlen hfuel
      obtain ⟨vis2, res2, t2, k1, k2, k3⟩ := ih vis1 res1 t1 (fun q hq => hes q (by simp [hq]))
        (h2.len.trans hlen) (lt_of_le_of_lt h2.card_le hfuel)
      refine ⟨vis2, res2, t2, ?_, h2.trans hd k2, ?_⟩
      · rw [topoEntries, if_pos he, h1, ok_bind]; exact k1
      · intro ha ho hg
        obtain ⟨m1, m2⟩ := h3 ha ho hg
        obtain ⟨n1, n2⟩ := k3 ha m1 (fun g hg' => hg g (h2.grey hg'))
        refine ⟨n1, ?_⟩
        intro e' he' hid p hp hpd
        rcases List.mem_cons.1 he' with rfl | he'
        · obtain ⟨x, hx, _⟩ := k2.ext
          rw [hx]; exact List.mem_append_left _ (m2 p hp hpd)
        · exact n2 e' he' hid p hp hpd
    · obtain ⟨vis2, res2, t2, k1, k2, k3⟩ := ih vis res t (fun q hq => hes q (by simp [hq])) hlen hfuel
      refine ⟨vis2, res2, t2, ?_, k2, ?_⟩
      · rw [topoEntries, if_neg he]; exact k1
      · intro ha ho hg
        obtain ⟨n1, n2⟩ := k3 ha ho hg
        refine ⟨n1, ?_⟩
        intro e' he' hid p hp hpd
        rcases List.mem_cons.1 he' with rfl | he'
        · exact absurd hid he
        · exact n2 e' he' hid p hp hpd

/-- One call. -/
theorem topoRec_spec (sch : Sched α) {dec : List Var} (hd : dec.Nodup) {deps : List (Var × List Var)}
    (hc : DepsClosed dec deps) : ∀ fuel i vis res t, i < dec.length → vis.length = dec.length →
      (unvisited vis).card < fuel →
      ∃ vis' res' t', topoRec sch dec deps fuel i (vis, res, t) = .ok (vis', res', t') ∧
        TCall dec deps i vis res vis' res' := by
  intro fuel
  induction fuel with
  | zero => intro i vis res t _ _ h; omega
  | succ fuel ih =>
    intro i vis res t hi hlen hfuel
    have hiv : i < vis.length := by omega
    rcases getElem?_bool hiv with hvis | hvis
    · refine ⟨vis, res, t, ?_, TPost.refl .., hvis, ?_⟩
      · rw [topoRec, goGet_eq.2 hvis, ok_bind]; rfl
      · intro v hv ha ho hg
        refine ⟨ho, ?_⟩
        by_contra hnot
        exact ha v (hg v ⟨i, hv, hvis, hnot⟩)
    · have hset : goSet vis i true = .ok (vis.set i true) := goSet_ok hiv
      have hdi : dec[i]? = some dec[i] := List.getElem?_eq_getElem hi
      set v := dec[i] with hvdef
      have hcard : (unvisited (vis.set i true)).card < fuel := by
        have : unvisited (vis.set i true) ⊂ unvisited vis := by
          rw [Finset.ssubset_iff_of_subset]
          · refine ⟨i, ?_, ?_⟩
            · exact Finset.mem_filter.2 ⟨Finset.mem_range.2 hiv, hvis⟩
            · simp [unvisited, hiv]
          · intro j hj
            simp only [unvisited, Finset.mem_filter, Finset.mem_range, List.length_set] at hj ⊢
            refine ⟨hj.1, ?_⟩
            by_cases e : i = j
            · subst e; simp [hiv] at hj
            · rw [List.getElem?_set_ne e] at hj; exact hj.2
        have := Finset.card_lt_card this
        omega
      obtain ⟨vis2, res2, t2, k1, k2, k3⟩ := topoEntries_spec hd (List.getElem_mem hi) hc ih (sch.dep t deps)
        (vis.set i true) res (t + 1) (fun e he => (sch.dep_perm t deps).subset he) (by simpa using hlen) hcard
      have hset_i : (vis.set i true)[i]? = some true := by simp [hiv]
      obtain ⟨e, he1, he2, he3⟩ := k2.ext
      refine ⟨vis2, res2 ++ [v], t2, ?_, ⟨?_, ?_, ?_, ?_⟩, k2.mono i hset_i, ?_⟩
      · rw [topoRec, goGet_eq.2 hvis, ok_bind]
        simp only [Bool.false_eq_true, if_false]
        rw [hset, ok_bind, goGet_eq.2 hdi, ok_bind, k1, ok_bind]
        rfl
      · simpa using k2.len
      · intro j hj
        apply k2.mono
        by_cases e : i = j
        · subst e; exact hset_i
        · rw [List.getElem?_set_ne e]; exact hj
      · refine ⟨e ++ [v], by rw [he1, List.append_assoc], ?_, ?_⟩
        · rw [List.nodup_append]
          refine ⟨he2, by simp, ?_⟩
          rintro a ha b hb rfl
          simp at hb
          subst hb
          obtain ⟨j, h1, h2, _⟩ := he3 _ ha
          have : i = j := (List.getElem?_inj hi hd).1 (hdi.trans h1.symm)
          subst this
          rw [hset_i] at h2; simp at h2
        · intro w hw
          rcases List.mem_append.1 hw with hw | hw
          · obtain ⟨j, h1, h2, h3⟩ := he3 w hw
            refine ⟨j, h1, ?_, h3⟩
            by_cases e : i = j
            · subst e; rw [hset_i] at h2; simp at h2
            · rwa [List.getElem?_set_ne e] at h2
          · simp at hw; subst hw
            exact ⟨i, hdi, hvis, k2.mono i hset_i⟩
      · intro j w h1 h2 h3
        by_cases e : i = j
        · subst e
          rw [hdi] at h3
          simp at h3; subst h3; simp
        · exact List.mem_append_left _ (k2.done j w (by rw [List.getElem?_set_ne e]; exact h1) h2 h3)
      · intro w hw ha ho hg
        rw [hdi] at hw
        simp at hw
        subst hw
        obtain ⟨m1, m2⟩ := k3 ha ho (by
          rintro g ⟨j, h1, h2, h3⟩
          by_cases e : i = j
          · subst e
            rw [hdi] at h1
            simp at h1; subst h1; exact Relation.ReflTransGen.refl
          · rw [List.getElem?_set_ne e] at h2
            exact (hg g ⟨j, h1, h2, h3⟩).to_reflTransGen)
        refine ⟨topoOrdered_snoc m1 ?_, by simp⟩
        rintro p ⟨x, hx, hid, hpx, hpd⟩
        exact m2 x ((sch.dep_perm t deps).symm.subset hx) hid p hpx hpd

/-- `sortTopological` never panics on closed dependencies, returns each decision exactly once, and respects
acyclic dependencies. -/
theorem sortTopological_spec (sch : Sched α) {dec : List Var} (hd : dec.Nodup) {deps : List (Var × List Var)}
    (hc : DepsClosed dec deps) (t : Nat) :
    ∃ res t', sortTopological sch dec deps t = .ok (res, t') ∧ res.Perm dec ∧
      (DecAcyclic deps → TopoOrdered deps res) := by
  have loop : ∀ (is : List Nat) vis res t, (∀ i ∈ is, i < dec.length) → vis.length = dec.length →
      ∃ vis' res' t', is.foldlM (fun (st : TopoState) i => topoRec sch dec deps (dec.length + 1) i st) (vis, res, t) =
          .ok (vis', res', t') ∧ TPost dec vis res vis' res' ∧ (∀ i ∈ is, vis'[i]? = some true) ∧
        (DecAcyclic deps → TopoOrdered deps res → (∀ g, ¬ Grey dec vis res g) →
          TopoOrdered deps res' ∧ ∀ g, ¬ Grey dec vis' res' g) := by
    intro is
    induction is with
    | nil =>
      intro vis res t _ _
      exact ⟨vis, res, t, rfl, TPost.refl .., by simp, fun _ h1 h2 => ⟨h1, h2⟩⟩
    | cons i is ih =>
      intro vis res t his hlen
      have hcard : (unvisited vis).card < dec.length + 1 := by
        have := Finset.card_filter_le (Finset.range vis.length) (fun j => vis[j]? = some false)
        simp only [Finset.card_range] at this
        unfold unvisited; omega
      obtain ⟨v1, r1, t1, h1, h2, h3, h4⟩ := topoRec_spec sch hd hc (dec.length + 1) i vis res t (his i (by simp)) hlen hcard
      obtain ⟨v2, r2, t2, k1, k2, k3, k4⟩ := ih v1 r1 t1 (fun j hj => his j (by simp [hj])) (h2.len.trans hlen)
      refine ⟨v2, r2, t2, ?_, h2.trans hd k2, ?_, ?_⟩
      · rw [List.foldlM_cons, h1, ok_bind]; exact k1
      · intro j hj
        rcases List.mem_cons.1 hj with rfl | hj
        · exact k2.mono _ h3
        · exact k3 j hj
      · intro ha ho hg
        obtain ⟨m1, m2⟩ := h4 _ (List.getElem?_eq_getElem (his i (by simp))) ha ho (fun g h => absurd h (hg g))
        exact k4 ha m1 (fun g h => hg g (h2.grey h))
  obtain ⟨vis', res', t', h1, h2, h3, h4⟩ := loop (List.range dec.length) (List.replicate dec.length false) [] t
    (by simp) (by simp)
  refine ⟨res', t', ?_, ?_, ?_⟩
  · unfold sortTopological; rw [h1, ok_bind]; rfl
  · obtain ⟨e, he1, he2, he3⟩ := h2.ext
    simp only [List.nil_append] at he1
    subst he1
    rw [List.perm_ext_iff_of_nodup he2 hd]
    intro v
    constructor
    · intro hv
      obtain ⟨j, hj, _⟩ := he3 v hv
      exact List.mem_of_getElem? hj
    · intro hv
      obtain ⟨j, hj, rfl⟩ := List.getElem_of_mem hv
      exact h2.done j _ (by simp [hj]) (h3 j (by simpa using hj)) (List.getElem?_eq_getElem hj)
  · intro ha
    refine (h4 ha ?_ ?_).1
    · intro l1 v l2 e; simp at e
    · rintro g ⟨j, _, hj, _⟩
      rw [List.getElem?_replicate] at hj
      split at hj <;> simp at hj

end Bbn
