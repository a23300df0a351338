import Verif.Lemmas.TrainHits

/-!
# The invariant of a training run
-/

set_option autoImplicit false

namespace Bbn

variable {α : Type}

theorem sum_zipIdx_single {M : Type} [AddCommMonoid M] (F : NVar × Nat → M) (i : Nat) : ∀ (vs : List NVar) (o : Nat),
    (∀ x ∈ vs.zipIdx o, x.2 ≠ i → F x = 0) →
    ((vs.zipIdx o).map F).sum = if o ≤ i then ((vs[i - o]?).map (fun v => F (v, i))).getD 0 else 0 := by
  intro vs
  induction vs with
  | nil => intro o _; simp
  | cons v vs ih =>
    intro o h
    rw [List.zipIdx_cons, List.map_cons, List.sum_cons, ih (o + 1) (fun x hx => h x (by rw [List.zipIdx_cons]; simp [hx]))]
    by_cases h1 : o = i
    · subst h1
      rw [if_neg (by omega), if_pos (le_refl _), Nat.sub_self]
      simp
    · rw [h (v, o) (by rw [List.zipIdx_cons]; simp) h1, zero_add]
      by_cases h2 : o + 1 ≤ i
      · rw [if_pos h2, if_pos (by omega)]
        have : i - o = (i - (o + 1)) + 1 := by omega
        rw [this, List.getElem?_cons_succ]
      · rw [if_neg h2, if_neg (by omega)]

theorem SameNetwork.refl (n : Net α) : SameNetwork n n := ⟨rfl, .refl _⟩

theorem SameNetwork.vars {n n' : Net α} (h : SameNetwork n n') : n'.variables = n.variables := by
  rw [h.1]

theorem SameNetwork.trans {n n' n'' : Net α} (h : SameNetwork n n') (h' : SameNetwork n' n'') : SameNetwork n n'' := by
  refine ⟨?_, h.2.trans h'.2⟩
  have h1 := h.1
  have h2 := h'.1
  rw [h1] at h2
  exact h2

theorem SameNetwork.position {n n' : Net α} (h : SameNetwork n n') : n'.position = n.position := by
  funext g; unfold Net.position; rw [h.vars]

theorem SameNetwork.count {n n' : Net α} (h : SameNetwork n n') : n'.count = n.count := by
  funext g; unfold Net.count; rw [h.vars]

theorem SameNetwork.known {n n' : Net α} (h : SameNetwork n n') (s : Sample α) : s.known n' = s.known n := by
  funext g; unfold Sample.known; rw [h.position]

theorem SameNetwork.gain {n n' : Net α} (h : SameNetwork n n') (s : Sample α) : s.gain n' = s.gain n := by
  funext g; unfold Sample.gain; rw [h.position]

theorem SameNetwork.row {n n' : Net α} (h : SameNetwork n n') (s : Sample α) (given : List String) :
    s.row n' given = s.row n given := by
  unfold Sample.row; rw [h.known, h.count]

theorem SameNetwork.hit [One α] {n n' : Net α} (h : SameNetwork n n') (s : Sample α) (given : List String) (v : NVar)
    (i : Nat) : s.hit n' given v i = s.hit n given v i := by
  unfold Sample.hit; rw [h.known, h.row, h.gain]

theorem SameNetwork.ok {n n' : Net α} (h : SameNetwork n n') {s : Sample α} (hs : s.OK n) : s.OK n' := by
  constructor
  · rw [h.vars]; exact hs.values
  · rw [h.vars]; exact hs.range
  · rw [h.vars]; exact hs.utility
  · rw [h.vars]; exact hs.utilities

theorem SameTables.back {fs fs' : List (NFactor α)} (h : SameTables fs fs') {p : Nat} {f' : NFactor α}
    (hf : fs'[p]? = some f') : ∃ f tb, fs[p]? = some f ∧ f' = { f with table := tb } ∧
      tb.map List.length = f.table.map List.length := by
  have hp := (List.getElem?_eq_some_iff.1 hf).1
  rw [h.1] at hp
  obtain ⟨tb, h1, h2⟩ := h.2 p fs[p] (by simp [hp])
  rw [hf] at h1
  injection h1 with h1
  exact ⟨fs[p], tb, by simp [hp], h1, h2⟩

theorem SameTables.forVars {fs fs' : List (NFactor α)} (h : SameTables fs fs') :
    fs'.map NFactor.forVar = fs.map NFactor.forVar := by
  apply List.ext_getElem?
  intro p
  rw [List.getElem?_map, List.getElem?_map]
  cases e : fs'[p]? with
  | none =>
    have : fs[p]? = none := by
      rw [List.getElem?_eq_none_iff] at e ⊢
      rw [← h.1]; exact e
    rw [this]
  | some f' =>
    obtain ⟨f, tb, h1, rfl, _⟩ := h.back e
    rw [h1]
    rfl

theorem SameNetwork.trainable {n n' : Net α} (h : SameNetwork n n') (hn : n.Trainable) : n'.Trainable := by
  have hv := h.vars
  constructor
  · rw [hv]; exact hn.names
  · rw [hv]; exact hn.outcomes
  · rw [h.2.forVars]; exact hn.tables
  · intro v hvm
    rw [hv] at hvm
    obtain ⟨p, f, h1, h2, h3, h4, h5⟩ := hn.linked v hvm
    obtain ⟨tb, h6, _⟩ := h.2.2 p f h2
    exact ⟨p, _, h1, h6, h3, by rw [h.count]; exact h4, h5⟩
  · intro v hvm f hf hfv
    rw [hv] at hvm ⊢
    obtain ⟨p, hp⟩ := List.getElem?_of_mem hf
    obtain ⟨f0, tb, h1, rfl, _⟩ := h.2.back hp
    exact hn.parents v hvm f0 (List.mem_of_getElem? h1) hfv
  · intro v hvm hd f hf hfv
    rw [hv] at hvm
    obtain ⟨p, hp⟩ := List.getElem?_of_mem hf
    obtain ⟨f0, tb, h1, rfl, h2⟩ := h.2.back hp
    rw [tab_length h2, h.count]
    exact hn.size v hvm hd f0 (List.mem_of_getElem? h1) hfv

theorem SameNetwork.fit {n n' : Net α} (h : SameNetwork n n') {S : List (List Nat) × List Nat × List (List Nat)}
    (hS : Fit n S) : Fit n' S := by
  refine ⟨by rw [h.vars]; exact hS.data, by rw [h.vars]; exact hS.counter, ?_⟩
  intro i v p f' hv hp hf'
  rw [h.vars] at hv
  obtain ⟨f, tb, h1, rfl, h2⟩ := h.2.back hf'
  rw [tab_length h2, h.position]
  exact hS.own i v p f hv hp h1

/-- The sums and counters are those of the samples. -/
def Counted [AddCommMonoid α] [One α] (n : Net α) (samples : List (Sample α)) (t : Trainer α) : Prop :=
  ∀ (i : Nat) (v : NVar) (p : Nat) (f : NFactor α), n.variables[i]? = some v → v.factor = some p → n.factors[p]? = some f →
    (∀ j k, t.at i j k = (samples.map (fun s => Delta.sums (s.hit n f.given v i) i j k)).sum) ∧
    ∀ j, t.cnt i j = (samples.map (fun s => Delta.counts (s.hit n f.given v i) i j)).sum

theorem Counted.same [AddCommMonoid α] [One α] {n n' : Net α} (h : SameNetwork n n') {samples : List (Sample α)}
    {t : Trainer α} (ht : Counted n samples t) : Counted n' samples t := by
  intro i v p f' hv hp hf'
  rw [h.vars] at hv
  obtain ⟨f, tb, h1, rfl, _⟩ := h.2.back hf'
  obtain ⟨h2, h3⟩ := ht i v p f hv hp h1
  simp only [h.hit]
  exact ⟨h2, h3⟩

theorem addSample_counted [AddCommMonoid α] [One α] {n : Net α} (hn : n.Trainable) {t : Trainer α}
    (hS : Fit n t.shape) {samples : List (Sample α)} (ht : Counted n samples t) {s : Sample α} (hs : s.OK n) :
    ∃ t', addSample n t s = .ok t' ∧ t'.shape = t.shape ∧ Counted n (samples ++ [s]) t' := by
  have hadd := addSample_adds n t.shape s t rfl
  have hplan : ∀ x ∈ n.variables.zipIdx, ∃ p f, x.1.factor = some p ∧ n.factors[p]? = some f ∧
      n.variables[x.2]? = some x.1 ∧ addPlan n t.shape.2.2 s x.1 x.2 = .ok (s.hit n f.given x.1 x.2) := by
    intro x hx
    have hv := List.mem_zipIdx_iff_getElem?.1 hx
    obtain ⟨p, f, h1, h2, _⟩ := hn.linked x.1 (List.mem_of_getElem? hv)
    exact ⟨p, f, h1, h2, hv, plan_hit hn hS hs hv h1 h2⟩
  obtain ⟨t', e⟩ := hadd.1 (fun x hx => by
    obtain ⟨p, f, h1, h2, hv, h3⟩ := hplan x hx
    exact ⟨_, h3, fun d hd => (hit_fits hn hS hs hv h1 h2 hd).1⟩)
  obtain ⟨_, h2, h3, h4⟩ := hadd.2 t' e
  refine ⟨t', e, h2, ?_⟩
  intro i v p f hv hp hf
  obtain ⟨c1, c2⟩ := ht i v p f hv hp hf
  have hother : ∀ x ∈ n.variables.zipIdx 0, x.2 ≠ i → (∀ j k, Delta.sumsOf (addPlan n t.shape.2.2 s x.1 x.2) i j k = 0) ∧
      ∀ j, Delta.countsOf (addPlan n t.shape.2.2 s x.1 x.2) i j = 0 := by
    intro x hx hne
    obtain ⟨p', f', h1', h2', hv', h3'⟩ := hplan x hx
    rw [h3']
    unfold Delta.sumsOf Delta.countsOf
    dsimp only
    cases hh : s.hit n f'.given x.1 x.2 with
    | none => exact ⟨fun _ _ => rfl, fun _ => rfl⟩
    | some d =>
      have hdi := (hit_fits hn hS hs hv' h1' h2' hh).2
      refine ⟨fun j k => ?_, fun j => ?_⟩
      · unfold Delta.sums
        exact if_neg (by rintro ⟨h, _⟩; exact hne (by omega))
      · unfold Delta.counts
        exact if_neg (by rintro ⟨h, _⟩; exact hne (by omega))
  have hown := plan_hit hn hS hs hv hp hf
  constructor
  · intro j k
    rw [h3, c1, List.map_append, List.sum_append, List.map_cons, List.map_nil, List.sum_singleton]
    congr 1
    have := sum_zipIdx_single (fun x => Delta.sumsOf (addPlan n t.shape.2.2 s x.1 x.2) i j k) i n.variables 0
      (fun x hx hne => (hother x hx hne).1 j k)
    refine Eq.trans this ?_
    rw [if_pos (Nat.zero_le _), Nat.sub_zero, hv]
    dsimp only [Option.map_some, Option.getD_some]
    rw [hown]
    rfl
  · intro j
    rw [h4, c2, List.map_append, List.sum_append, List.map_cons, List.map_nil, List.sum_singleton]
    congr 1
    have := sum_zipIdx_single (fun x => Delta.countsOf (addPlan n t.shape.2.2 s x.1 x.2) i j) i n.variables 0
      (fun x hx hne => (hother x hx hne).2 j)
    refine Eq.trans this ?_
    rw [if_pos (Nat.zero_le _), Nat.sub_zero, hv]
    dsimp only [Option.map_some, Option.getD_some]
    rw [hown]
    rfl

theorem newTrainer_spec [AddCommMonoid α] [One α] {n : Net α} (hn : n.Trainable) :
    ∃ t, newTrainer n = .ok t ∧ Fit n t.shape ∧ Counted n [] t := by
  have hder : ∀ v ∈ n.variables, ∃ p f, v.factor = some p ∧ n.factors[p]? = some f ∧ derefFactor n.factors v = .ok f ∧
      trainerNode n v = .ok (List.replicate (f.tab.length / v.outcomes.length) (List.replicate v.outcomes.length 0),
        List.replicate (f.tab.length / v.outcomes.length) 0, f.given.map n.position) := by
    intro v hv
    obtain ⟨p, f, h1, h2, h3, h4, h5⟩ := hn.linked v hv
    have hd : derefFactor n.factors v = .ok f := by
      unfold derefFactor
      rw [h1]
      exact goGet_eq.2 h2
    refine ⟨p, f, h1, h2, hd, ?_⟩
    unfold trainerNode
    rw [hd, ok_bind, if_neg (by have := hn.outcomes v hv; omega)]
    have : parentIndices n.variables f.given = .ok (f.given.map n.position) := by
      unfold parentIndices
      apply mapM_ok
      intro g hg
      rw [nodeIndex_known hn.names (hn.parents v hv f (List.mem_of_getElem? h2) h3 g hg)]
    rw [this, ok_bind]
    rfl
  -- the table of a variable
  let own : NVar → NFactor α := fun v => ((v.factor.bind (fun p => n.factors[p]?))).getD ⟨"", [], none, [], 0⟩
  have hown : ∀ v p f, v.factor = some p → n.factors[p]? = some f → own v = f := by
    intro v p f h1 h2
    simp [own, h1, h2]
  have e1 : n.variables.mapM (derefFactor n.factors) = .ok (n.variables.map own) := by
    apply mapM_ok
    intro v hv
    obtain ⟨p, f, h1, h2, h3, _⟩ := hder v hv
    rw [h3, hown v p f h1 h2]
  have e2 : n.variables.mapM (trainerNode n) = .ok (n.variables.map (fun v =>
      ((List.replicate ((own v).tab.length / v.outcomes.length) (List.replicate v.outcomes.length 0),
        List.replicate ((own v).tab.length / v.outcomes.length) 0, (own v).given.map n.position) :
        List (List α) × List Nat × List Nat))) := by
    apply mapM_ok
    intro v hv
    obtain ⟨p, f, h1, h2, _, h3⟩ := hder v hv
    rw [h3, hown v p f h1 h2]
  unfold newTrainer
  rw [e1, ok_bind, e2, ok_bind]
  refine ⟨_, rfl, ?_, ?_⟩
  · unfold Trainer.shape
    dsimp only
    refine ⟨by simp, by simp, ?_⟩
    intro i v p f hv hp hf
    simp only [List.getElem?_map, hv, Option.map_some, hown v p f hp hf]
    simp
  · intro i v p f hv hp hf
    unfold Trainer.at Trainer.cnt
    simp only [List.getD, List.getElem?_map, hv, Option.map_some, hown v p f hp hf, Option.getD_some, List.map_nil,
      List.sum_nil, List.getElem?_replicate]
    constructor
    · intro j k
      split
      · simp only [Option.getD_some, List.getElem?_replicate]
        split <;> rfl
      · simp
    · intro j
      split <;> rfl

theorem nodeFits_of [Zero α] {n : Net α} (hn : n.Trainable) {t : Trainer α} (hS : Fit n t.shape) :
    ∀ e ∈ n.variables.zipIdx, NodeFits t n.factors e.1 e.2 := by
  intro e he
  have hv := List.mem_zipIdx_iff_getElem?.1 he
  have hvm := List.mem_of_getElem? hv
  obtain ⟨p, f, h1, h2, h3, h4, h5⟩ := hn.linked e.1 hvm
  obtain ⟨s1, s2, _⟩ := hS.own e.2 e.1 p f hv h1 h2
  have hi := (List.getElem?_eq_some_iff.1 hv).1
  have l1 := hS.data
  have l2 := hS.counter
  unfold Trainer.shape at s1 s2 l1 l2
  dsimp only at s1 s2 l1 l2
  rw [List.length_map] at l1 l2
  have g1 : (t.data.getD e.2 []).map List.length =
      List.replicate (f.tab.length / e.1.outcomes.length) e.1.outcomes.length := by
    rw [← getD_map_map_length]
    simp only [List.getD, s1, Option.getD_some]
  have g2 : (t.counter.getD e.2 []).length = f.tab.length / e.1.outcomes.length := by
    rw [← getD_map_length]
    simp only [List.getD, s2, Option.getD_some]
  refine ⟨p, f, h1, h2, by rw [h5]; exact hn.outcomes e.1 hvm, by omega, by omega, ?_, ?_, ?_⟩
  · rw [h5]; simpa using congrArg List.length g1
  · rw [h5]; exact g2
  · intro j hj
    rw [h5] at hj ⊢
    have := congrArg (fun l => l.getD j 0) g1
    simp only [getD_map_length] at this
    rw [this]
    simp [List.getD, hj]

theorem factors_nodup {n : Net α} (hn : n.Trainable) : (n.variables.zipIdx.map (fun e => e.1.factor)).Nodup := by
  have h1 : n.variables.zipIdx.map (fun e => e.1.factor) = n.variables.map NVar.factor := by
    rw [show (fun e : NVar × Nat => e.1.factor) = NVar.factor ∘ Prod.fst from rfl, ← List.map_map]
    simp
  rw [h1]
  have h2 := hn.names
  unfold List.Nodup at h2 ⊢
  rw [List.pairwise_map] at h2 ⊢
  refine List.Pairwise.imp_of_mem ?_ h2
  intro a b ha hb hab he
  apply hab
  obtain ⟨p, f, a1, a2, a3, _⟩ := hn.linked a ha
  obtain ⟨q, g, b1, b2, b3, _⟩ := hn.linked b hb
  rw [a1, b1] at he
  injection he with he
  subst he
  rw [a2] at b2
  injection b2 with b2
  subst b2
  rw [← a3, ← b3]

/-- What `updateNetwork` does with the sums and counters of the samples. -/
theorem updateNetwork_spec [Zero α] [Div α] [NatCast α] {n : Net α} (hn : n.Trainable) {t : Trainer α}
    (hS : Fit n t.shape) :
    ∃ n' e, updateNetwork t n = .ok (n', e) ∧ SameNetwork n n' ∧
      (∀ p, (∀ v ∈ n.variables, v.factor ≠ some p) → n'.factors[p]? = n.factors[p]?) ∧
      (e = none ↔ ∀ (i : Nat) (v : NVar) (p : Nat) (f : NFactor α), n.variables[i]? = some v → v.factor = some p →
        n.factors[p]? = some f → ∀ j < f.tab.length / v.outcomes.length, t.cnt i j ≠ 0) ∧
      (e = none → ∀ (i : Nat) (v : NVar), n.variables[i]? = some v → Written t n'.factors v i) ∧
      (e ≠ none → ∃ (i : Nat) (v : NVar) (p : Nat) (f : NFactor α), n.variables[i]? = some v ∧ v.factor = some p ∧
        n.factors[p]? = some f ∧ (∃ j < f.tab.length / v.outcomes.length, t.cnt i j = 0) ∧
        (∀ i' < i, ∀ v', n.variables[i']? = some v' → Written t n'.factors v' i') ∧
        ∀ i' v' q, i < i' → n.variables[i']? = some v' → v'.factor = some q → n'.factors[q]? = n.factors[q]?) := by
  obtain ⟨fs', e, e1, h1, h2, h3, h4, h5⟩ := updateNodes_spec t n.variables.zipIdx n.factors (nodeFits_of hn hS)
    (factors_nodup hn)
  refine ⟨{ n with factors := fs' }, e, ?_, ⟨rfl, h1⟩, ?_, ?_, ?_, ?_⟩
  · unfold updateNetwork
    rw [e1, ok_bind]
    rfl
  · intro p hp
    refine h2 p (fun x hx => hp x.1 (List.mem_of_getElem? (List.mem_zipIdx_iff_getElem?.1 hx)))
  · rw [h3]
    constructor
    · intro h i v p f hv hp hf j hj
      refine h (v, i) (List.mem_zipIdx_iff_getElem?.2 hv) p f hp hf j ?_
      rw [(own_mem hn (List.mem_of_getElem? hv) hp hf).2.2.2]
      exact hj
    · intro h x hx p f hp hf j hj
      have hv := List.mem_zipIdx_iff_getElem?.1 hx
      rw [(own_mem hn (List.mem_of_getElem? hv) hp hf).2.2.2] at hj
      exact h x.2 x.1 p f hv hp hf j hj
  · intro he i v hv
    exact h4 he (v, i) (List.mem_zipIdx_iff_getElem?.2 hv)
  · intro he
    obtain ⟨L1, a, L2, hL, ⟨p, f, hp, hf, hj⟩, hL1, hL2⟩ := h5 he
    have hidx : ∀ x (k : Nat), n.variables.zipIdx[k]? = some x → x.2 = k ∧ n.variables[k]? = some x.1 := by
      intro x k hk
      rw [List.getElem?_zipIdx] at hk
      cases hv : n.variables[k]? with
      | none => rw [hv] at hk; cases hk
      | some v =>
        rw [hv] at hk
        injection hk with hk
        subst hk
        exact ⟨by simp, rfl⟩
    have ha := hidx a L1.length (by rw [hL]; simp)
    have hcol := (own_mem hn (List.mem_of_getElem? ha.2) hp hf).2.2.2
    rw [hcol] at hj
    refine ⟨L1.length, a.1, p, f, ha.2, hp, hf, by rw [← ha.1]; exact hj, ?_, ?_⟩
    · intro i' hi' v' hv'
      have hx : L1[i']? = some (v', i') := by
        have : n.variables.zipIdx[i']? = some (v', i') := by
          rw [List.getElem?_zipIdx, hv']; simp
        rw [hL, List.getElem?_append_left hi'] at this
        exact this
      exact hL1 _ (List.mem_of_getElem? hx)
    · intro i' v' q hi' hv' hq
      have hx : L2[i' - L1.length - 1]? = some (v', i') := by
        have : n.variables.zipIdx[i']? = some (v', i') := by
          rw [List.getElem?_zipIdx, hv']; simp
        rw [hL, List.getElem?_append_right (by omega)] at this
        have h6 : i' - L1.length = (i' - L1.length - 1) + 1 := by omega
        rw [h6, List.getElem?_cons_succ] at this
        exact this
      exact hL2 _ (List.mem_of_getElem? hx) q hq

end Bbn
