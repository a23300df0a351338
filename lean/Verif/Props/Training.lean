import Verif.Lemmas.TrainRun
import Mathlib.Data.Nat.Cast.Basic
import Mathlib.Algebra.CharZero.Defs

/-!
# Training (C60 to C64)
-/

set_option autoImplicit false

namespace Bbn

variable {α : Type}

theorem run_calls [Field α] {n : Net α} (hn : n.Trainable) : ∀ (calls : List (TrainCall α)) (done : List (Sample α))
    (t : Trainer α) (n1 : Net α), SameNetwork n n1 → Fit n1 t.shape → Counted n1 done t →
    (∀ s ∈ samplesOf calls, s.OK n) → ∃ t' n', calls.foldlM TrainCall.run (t, n1) = .ok (t', n') ∧ SameNetwork n n' ∧
      Fit n' t'.shape ∧ Counted n' (done ++ samplesOf calls) t' := by
  intro calls
  induction calls with
  | nil =>
    intro done t n1 h1 h2 h3 _
    exact ⟨t, n1, rfl, h1, h2, by simpa [samplesOf] using h3⟩
  | cons c calls ih =>
    intro done t n1 h1 h2 h3 h4
    rw [List.foldlM_cons]
    cases c with
    | add s =>
      obtain ⟨t', e, hsh, hc⟩ := addSample_counted (h1.trainable hn) h2 h3 (h1.ok (h4 s (by simp [samplesOf])))
      have e' : TrainCall.run (t, n1) (.add s) = .ok (t', n1) := by
        unfold TrainCall.run
        dsimp only
        rw [e, ok_bind]
        rfl
      rw [e', ok_bind]
      obtain ⟨t2, n2, q1, q2, q3, q4⟩ := ih (done ++ [s]) t' n1 h1 (by rw [hsh]; exact h2) hc
        (fun s' hs' => h4 s' (by simp [samplesOf, hs']))
      exact ⟨t2, n2, q1, q2, q3, by simpa [samplesOf] using q4⟩
    | update =>
      obtain ⟨n', e, eu, hs, _⟩ := updateNetwork_spec (h1.trainable hn) h2
      have e' : TrainCall.run (t, n1) .update = .ok (t, n') := by
        unfold TrainCall.run
        dsimp only
        rw [eu, ok_bind]
        rfl
      rw [e', ok_bind]
      exact ih done t n' (h1.trans hs) (hs.fit h2) (h3.same hs) (fun s' hs' => h4 s' (by simpa [samplesOf] using hs'))

theorem run_inv [Field α] {n : Net α} (hn : n.Trainable) (calls : List (TrainCall α))
    (hs : ∀ s ∈ samplesOf calls, s.OK n) : ∃ t n1, trainRun n calls = .ok (t, n1) ∧ SameNetwork n n1 ∧
      Fit n1 t.shape ∧ Counted n1 (samplesOf calls) t := by
  obtain ⟨t0, e0, hf, hc⟩ := newTrainer_spec hn
  unfold trainRun
  rw [e0, ok_bind]
  exact run_calls hn calls [] t0 n (.refl n) hf hc hs

/-- **C60 (calls).** With samples that fit the network no call panics, `UpdateNetwork` changes only entries of tables,
and the trainer goes on counting after it. -/
theorem C60_calls [Field α] {n : Net α} (hn : n.Trainable) (calls : List (TrainCall α))
    (hs : ∀ s ∈ samplesOf calls, s.OK n) :
    ∃ t n1, trainRun n calls = .ok (t, n1) ∧ SameNetwork n n1 ∧
      ∃ n' e, updateNetwork t n1 = .ok (n', e) ∧ SameNetwork n n' := by
  obtain ⟨t, n1, e, h1, h2, _⟩ := run_inv hn calls hs
  obtain ⟨n', e', eu, hs', _⟩ := updateNetwork_spec (h1.trainable hn) h2
  exact ⟨t, n1, e, h1, n', e', eu, h1.trans hs'⟩

theorem sum_indicator [AddCommMonoidWithOne α] (P : Sample α → Prop) [DecidablePred P] (l : List (Sample α)) :
    (l.map (fun s => if P s then (1 : α) else 0)).sum = (l.countP (fun s => P s) : α) := by
  induction l with
  | nil => simp
  | cons s l ih =>
    rw [List.map_cons, List.sum_cons, ih, List.countP_cons]
    by_cases h : P s
    · simp [h, add_comm]
    · simp [h]

theorem sum_indicator_nat (P : Sample α → Prop) [DecidablePred P] (c : Nat) (l : List (Sample α)) :
    (l.map (fun s => if P s then c else 0)).sum = c * l.countP (fun s => P s) := by
  induction l with
  | nil => simp
  | cons s l ih =>
    rw [List.map_cons, List.sum_cons, ih, List.countP_cons]
    by_cases h : P s
    · simp only [h, if_true, decide_true]; ring
    · simp [h]

theorem sum_filterMap [AddCommMonoid α] (P : Sample α → Prop) [DecidablePred P] (g : Sample α → Option α)
    (l : List (Sample α)) :
    (l.map (fun s => if P s then (g s).getD 0 else 0)).sum = ((l.filter (fun s => P s)).filterMap g).sum := by
  induction l with
  | nil => simp
  | cons s l ih =>
    rw [List.map_cons, List.sum_cons, ih, List.filter_cons]
    by_cases h : P s
    · simp only [h, if_true, decide_true, List.filterMap_cons]
      cases g s <;> simp
    · simp [h]

theorem hit_chance [One α] {n : Net α} {given : List String} {v : NVar} {i : Nat} {s : Sample α}
    (h : v.nodeType = .chance) : s.hit n given v i =
      match s.row n given with
      | none => none
      | some r => (s.known n v.name).map (fun k => ⟨i, r, k, 1, 1⟩) := by
  unfold Sample.hit
  rw [if_neg (by rw [h]; simp)]
  cases s.row n given with
  | none => rfl
  | some r => exact if_neg (by rw [h]; simp)

theorem hit_utility [One α] {n : Net α} {given : List String} {v : NVar} {i : Nat} {s : Sample α}
    (h : v.nodeType = .utility) : s.hit n given v i =
      match s.row n given with
      | none => none
      | some r => (s.gain n v.name).map (fun u => ⟨i, r, 0, u, 2⟩) := by
  unfold Sample.hit
  rw [if_neg (by rw [h]; simp)]
  cases s.row n given with
  | none => rfl
  | some r => exact if_pos h

/-- A trained table is the table of a variable. -/
theorem table_own {n : Net α} (hn : n.Trainable) {f : NFactor α} (hf : f ∈ n.factors) {v : NVar} (hv : v ∈ n.variables)
    (he : v.name = f.forVar) : ∃ p, v.factor = some p ∧ n.factors[p]? = some f := by
  obtain ⟨p, g, h1, h2, h3, _⟩ := hn.linked v hv
  refine ⟨p, h1, ?_⟩
  rw [h2]
  congr 1
  exact List.inj_on_of_nodup_map hn.tables (List.mem_of_getElem? h2) hf (by rw [h3, he])

/-- An entry of a trained table. -/
theorem trained_entry [Field α] {n : Net α} (hn : n.Trainable) {calls : List (TrainCall α)}
    (hs : ∀ s ∈ samplesOf calls, s.OK n) {t : Trainer α} {n1 n' : Net α} (h1 : trainRun n calls = .ok (t, n1))
    (h2 : updateNetwork t n1 = .ok (n', none)) {f : NFactor α} (hf : f ∈ n'.factors) {i : Nat} {v : NVar}
    (hv : n.variables[i]? = some v) (hvn : v.name = f.forVar) (hd : v.nodeType ≠ .decision) {w : World}
    (hw : ∀ g ∈ f.dims, w g < n.count g) :
    n'.entry f w = ((samplesOf calls).map (fun s => Delta.sums (s.hit n f.given v i) i
        (rowMajor (f.given.map (fun g => (n.count g, w g)))) (w f.forVar))).sum /
      (((samplesOf calls).map (fun s => Delta.counts (s.hit n f.given v i) i
        (rowMajor (f.given.map (fun g => (n.count g, w g)))))).sum : Nat) ∧
    ((samplesOf calls).map (fun s => Delta.counts (s.hit n f.given v i) i
        (rowMajor (f.given.map (fun g => (n.count g, w g)))))).sum ≠ 0 ∧
    ∀ g ∈ f.given, ∃ u ∈ n.variables, u.name = g := by
  obtain ⟨t', n1', e, q1, q2, q3⟩ := run_inv hn calls hs
  rw [h1] at e
  injection e with e
  injection e with et en
  subst et
  subst en
  have hn1 := q1.trainable hn
  obtain ⟨n'', e', eu, r1, _, r3, r4, _⟩ := updateNetwork_spec hn1 q2
  rw [h2] at eu
  injection eu with eu
  injection eu with ea eb
  subst ea
  subst eb
  have hsame := q1.trans r1
  have hn' := hsame.trainable hn
  have hv' : n'.variables[i]? = some v := by rw [hsame.vars]; exact hv
  have hvm' := List.mem_of_getElem? hv'
  obtain ⟨p, hp, hfp⟩ := table_own hn' hf hvm' hvn
  obtain ⟨f1, tb, hf1, rfl, hlen⟩ := r1.2.back hfp
  have hv1 : n1.variables[i]? = some v := by rw [q1.vars]; exact hv
  obtain ⟨c1, c2⟩ := q3 i v p f1 hv1 hp hf1
  simp only [q1.hit] at c1 c2
  have hcount : n.count f1.forVar = v.outcomes.length := by
    have h := count_at hn.names (List.mem_of_getElem? hv)
    rw [hvn] at h
    exact h
  have hcol : f1.columns = v.outcomes.length := (own_mem hn1 (List.mem_of_getElem? hv1) hp hf1).2.2.2
  have hpos := hn.outcomes v (List.mem_of_getElem? hv)
  have hrows : f1.tab.length / v.outcomes.length = (f1.given.map n.count).prod := by
    rw [rows_eq hn1 (List.mem_of_getElem? hv1) hd hp hf1, q1.count]
  have hrow : rowMajor (f1.given.map (fun g => (n.count g, w g))) < (f1.given.map n.count).prod := by
    have := rowMajor_lt (f1.given.map (fun g => (n.count g, w g))) ?_
    · rw [List.map_map] at this; exact this
    · intro d hdm
      obtain ⟨g, hg, rfl⟩ := List.mem_map.1 hdm
      exact hw g (by unfold NFactor.dims; exact List.mem_append_left _ hg)
  have hwf : w f1.forVar < v.outcomes.length := by
    rw [← hcount]
    exact hw f1.forVar (by unfold NFactor.dims; simp)
  set r := rowMajor (f1.given.map (fun g => (n.count g, w g))) with hr
  refine ⟨?_, ?_, ?_⟩
  · unfold Net.entry
    rw [hsame.count]
    have hx : rowMajor (({ f1 with table := tb } : NFactor α).dims.map (fun s => (n.count s, w s))) =
        r * v.outcomes.length + w f1.forVar := by
      show rowMajor ((f1.given ++ [f1.forVar]).map _) = _
      rw [List.map_append, List.map_cons, List.map_nil, rowMajor_snoc, hcount]
    rw [hx]
    have hdiv : (r * v.outcomes.length + w f1.forVar) / v.outcomes.length = r := by
      rw [Nat.mul_comm, Nat.mul_add_div hpos, Nat.div_eq_of_lt hwf, Nat.add_zero]
    have hmod : (r * v.outcomes.length + w f1.forVar) % v.outcomes.length = w f1.forVar := by
      rw [Nat.mul_comm, Nat.mul_add_mod, Nat.mod_eq_of_lt hwf]
    have hwr := r4 rfl i v hv1 p _ hp hfp (r * v.outcomes.length + w f1.forVar) (by
      show _ / f1.columns < _ / f1.columns
      rw [tab_length hlen, hcol, hdiv, hrows]
      exact hrow)
    rw [hwr]
    unfold newEntry
    show _ / ((((t.counter.getD i []).getD _ 0 : Nat)) : α) = _
    dsimp only
    rw [hcol, hdiv, hmod]
    have a1 := c1 r (w f1.forVar)
    have a2 := c2 r
    unfold Trainer.at at a1
    unfold Trainer.cnt at a2
    rw [a1, a2]
  · have := r3.1 rfl i v p f1 hv1 hp hf1 r (by rw [hrows]; exact hrow)
    rw [c2] at this
    exact this
  · have := hn'.parents v hvm' _ hf hvn.symm
    rw [hsame.vars] at this
    exact this

/-- **C60.** After any sequence of added samples and updates, an update that returns no error sets each entry of each
chance table to the number of samples with the parents' outcomes and the variable's outcome divided by the number of
samples with the parents' outcomes and any known outcome of the variable (of which there is at least one). -/
theorem C60_relative_frequencies [Field α] {n : Net α} (hn : n.Trainable) {calls : List (TrainCall α)}
    (hs : ∀ s ∈ samplesOf calls, s.OK n) {t : Trainer α} {n1 n' : Net α} (h1 : trainRun n calls = .ok (t, n1))
    (h2 : updateNetwork t n1 = .ok (n', none)) : ∀ f ∈ n'.chanceTables, ∀ w : World,
    (∀ g ∈ f.dims, w g < n.count g) →
      n'.entry f w = ((samplesOf calls).countP (fun s => s.InRow n f.dims w) : α) /
        ((samplesOf calls).countP (fun s => s.InRow n f.given w ∧ s.known n f.forVar ≠ none) : α) ∧
      0 < (samplesOf calls).countP (fun s => s.InRow n f.given w ∧ s.known n f.forVar ≠ none) := by
  intro f hf w hw
  unfold Net.chanceTables at hf
  rw [List.mem_filter] at hf
  obtain ⟨hf, hk⟩ := hf
  unfold Net.isKind at hk
  rw [List.any_eq_true] at hk
  obtain ⟨v, hvm, hk⟩ := hk
  simp only [decide_eq_true_eq] at hk
  obtain ⟨hvn, hch⟩ := hk
  have hsame : n'.variables = n.variables := by
    obtain ⟨t', n1', e, q1, q2, _⟩ := run_inv hn calls hs
    rw [h1] at e
    injection e with e
    injection e with et en
    subst et
    subst en
    obtain ⟨n'', e', eu, r1, _⟩ := updateNetwork_spec (q1.trainable hn) q2
    rw [h2] at eu
    injection eu with eu
    injection eu with ea eb
    subst ea
    exact (q1.trans r1).vars
  rw [hsame] at hvm
  obtain ⟨i, hv⟩ := List.getElem?_of_mem hvm
  obtain ⟨e1, e2, hpar⟩ := trained_entry hn hs h1 h2 hf hv hvn (by rw [hch]; simp) hw
  have hwg : ∀ g ∈ f.given, w g < n.count g := fun g hg => hw g (by unfold NFactor.dims; exact List.mem_append_left _ hg)
  have hcounts : ((samplesOf calls).map (fun s => Delta.counts (s.hit n f.given v i) i
      (rowMajor (f.given.map (fun g => (n.count g, w g)))))).sum =
      (samplesOf calls).countP (fun s => s.InRow n f.given w ∧ s.known n f.forVar ≠ none) := by
    rw [← Nat.one_mul (List.countP _ _), ← sum_indicator_nat]
    congr 1
    apply List.map_congr_left
    intro s hsm
    have hri := row_iff hn.names (hs s hsm) hpar hwg
    rw [hit_chance hch, hvn]
    cases hr : s.row n f.given with
    | none =>
      rw [hr] at hri
      rw [if_neg (fun h => by have := hri.2 h.1; cases this)]
      rfl
    | some r =>
      rw [hr] at hri
      dsimp only
      cases hkn : s.known n f.forVar with
      | none =>
        rw [if_neg (fun h => h.2 rfl)]
        rfl
      | some k =>
        dsimp only [Option.map_some, Delta.counts]
        by_cases hin : s.InRow n f.given w
        · have := hri.2 hin
          injection this with this
          rw [if_pos ⟨rfl, this⟩, if_pos ⟨hin, by simp⟩]
        · rw [if_neg (fun h => hin (hri.1 (by rw [h.2]))), if_neg (fun h => hin h.1)]
  have hsums : ((samplesOf calls).map (fun s => Delta.sums (s.hit n f.given v i) i
      (rowMajor (f.given.map (fun g => (n.count g, w g)))) (w f.forVar))).sum =
      ((samplesOf calls).countP (fun s => s.InRow n f.dims w) : α) := by
    rw [← sum_indicator]
    congr 1
    apply List.map_congr_left
    intro s hsm
    have hri := row_iff hn.names (hs s hsm) hpar hwg
    have hdims : s.InRow n f.dims w ↔ s.InRow n f.given w ∧ s.known n f.forVar = some (w f.forVar) := by
      unfold Sample.InRow NFactor.dims
      simp only [List.mem_append, List.mem_singleton]
      constructor
      · exact fun h => ⟨fun g hg => h g (.inl hg), h _ (.inr rfl)⟩
      · rintro ⟨ha, hb⟩ g (hg | rfl)
        · exact ha g hg
        · exact hb
    rw [hit_chance hch, hvn]
    cases hr : s.row n f.given with
    | none =>
      rw [hr] at hri
      rw [if_neg (fun h => by have := hri.2 (hdims.1 h).1; cases this)]
      rfl
    | some r =>
      rw [hr] at hri
      dsimp only
      cases hkn : s.known n f.forVar with
      | none =>
        rw [if_neg (fun h => by have := (hdims.1 h).2; rw [hkn] at this; cases this)]
        rfl
      | some k =>
        dsimp only [Option.map_some, Delta.sums]
        by_cases hin : s.InRow n f.dims w
        · obtain ⟨ha, hb⟩ := hdims.1 hin
          have := hri.2 ha
          injection this with this
          rw [hkn] at hb
          injection hb with hb
          rw [if_pos ⟨rfl, this, hb⟩, if_pos hin]
        · rw [if_neg hin, if_neg]
          rintro ⟨_, ha, hb⟩
          exact hin (hdims.2 ⟨hri.1 (by rw [ha]), by rw [hkn, hb]⟩)
  rw [hcounts] at e1 e2
  rw [hsums] at e1
  exact ⟨e1, by omega⟩

/-- **C61, partial.** After training the entry of a utility table (first outcome; the only one of a utility variable
other than the total-utility node) is the sum of the utility values of the samples with the parents' outcomes divided
by *twice* their number; entries of further outcomes are zero. Missing: the factor two, see `C61_refuted`. -/
theorem C61_partial [Field α] {n : Net α} (hn : n.Trainable) {calls : List (TrainCall α)}
    (hs : ∀ s ∈ samplesOf calls, s.OK n) {t : Trainer α} {n1 n' : Net α} (h1 : trainRun n calls = .ok (t, n1))
    (h2 : updateNetwork t n1 = .ok (n', none)) : ∀ f ∈ n'.factors, n.isKind .utility f.forVar = true → ∀ w : World, (∀ g ∈ f.dims, w g < n.count g) →
      n'.entry f w = (if w f.forVar = 0 then
          (((samplesOf calls).filter (fun s => s.InRow n f.given w)).filterMap (fun s => s.gain n f.forVar)).sum else 0) /
        ((2 * (((samplesOf calls).filter (fun s => s.InRow n f.given w)).filterMap (fun s => s.gain n f.forVar)).length :
          Nat) : α) := by
  intro f hf hk w hw
  unfold Net.isKind at hk
  rw [List.any_eq_true] at hk
  obtain ⟨v, hvm, hk⟩ := hk
  simp only [decide_eq_true_eq] at hk
  obtain ⟨hvn, hut⟩ := hk
  obtain ⟨i, hv⟩ := List.getElem?_of_mem hvm
  have hnd : v.nodeType ≠ .decision := by rw [hut]; simp
  obtain ⟨e1, _, hpar⟩ := trained_entry hn hs h1 h2 hf hv hvn hnd hw
  have hwg : ∀ g ∈ f.given, w g < n.count g := fun g hg => hw g (by unfold NFactor.dims; exact List.mem_append_left _ hg)
  rw [e1]
  congr 1
  · by_cases hz : w f.forVar = 0
    · rw [if_pos hz, ← sum_filterMap (fun s => s.InRow n f.given w)]
      congr 1
      apply List.map_congr_left
      intro s hsm
      have hri := row_iff hn.names (hs s hsm) hpar hwg
      rw [hit_utility hut, hvn, hz]
      cases hr : s.row n f.given with
      | none =>
        rw [hr] at hri
        rw [if_neg (fun h => by have := hri.2 h; cases this)]
        rfl
      | some r =>
        rw [hr] at hri
        dsimp only
        cases hg : s.gain n f.forVar with
        | none => simp [Delta.sums]
        | some u =>
          dsimp only [Option.map_some, Delta.sums, Option.getD_some]
          by_cases hin : s.InRow n f.given w
          · have := hri.2 hin
            injection this with this
            rw [if_pos ⟨rfl, this, rfl⟩, if_pos hin]
          · rw [if_neg hin, if_neg (fun h => hin (hri.1 (by rw [h.2.1])))]
    · rw [if_neg hz]
      rw [List.map_congr_left (g := fun _ => 0), List.map_const', List.sum_replicate, nsmul_zero]
      intro s _
      rw [hit_utility hut]
      cases s.row n f.given with
      | none => rfl
      | some r =>
        dsimp only
        cases s.gain n v.name with
        | none => rfl
        | some u =>
          dsimp only [Option.map_some, Delta.sums]
          exact if_neg (fun h => hz h.2.2.symm)
  · congr 1
    have : (((samplesOf calls).filter (fun s => s.InRow n f.given w)).filterMap (fun s => s.gain n f.forVar)).length =
        (samplesOf calls).countP (fun s => s.InRow n f.given w ∧ s.gain n f.forVar ≠ none) := by
      rw [List.length_filterMap_eq_countP, List.countP_filter]
      congr 1
      funext s
      cases s.gain n f.forVar <;> simp
    rw [this, ← sum_indicator_nat]
    congr 1
    apply List.map_congr_left
    intro s hsm
    have hri := row_iff hn.names (hs s hsm) hpar hwg
    rw [hit_utility hut, hvn]
    cases hr : s.row n f.given with
    | none =>
      rw [hr] at hri
      rw [if_neg (fun h => by have := hri.2 h.1; cases this)]
      rfl
    | some r =>
      rw [hr] at hri
      dsimp only
      cases hg : s.gain n f.forVar with
      | none =>
        rw [if_neg (fun h => h.2 rfl)]
        rfl
      | some u =>
        dsimp only [Option.map_some, Delta.counts]
        by_cases hin : s.InRow n f.given w
        · have := hri.2 hin
          injection this with this
          rw [if_pos ⟨rfl, this⟩, if_pos ⟨hin, by simp⟩]
        · rw [if_neg (fun h => hin (hri.1 (by rw [h.2]))), if_neg (fun h => hin h.1)]

/-- **C62.** Training with the samples in another order gives the same network and the same error, for any network
and any samples. -/
theorem C62_order [Field α] (n : Net α) {l l' : List (Sample α)} (h : l.Perm l') (r : Net α × Option String) :
    trainOn n l = .ok r ↔ trainOn n l' = .ok r := by
  have key : ∀ {l l' : List (Sample α)}, l.Perm l' → trainOn n l = .ok r → trainOn n l' = .ok r := by
    intro l l' h e
    unfold trainOn at e ⊢
    obtain ⟨t, e1, e⟩ := bind_inv e
    obtain ⟨t', e2, e⟩ := bind_inv e
    rw [e1, ok_bind, Adds.perm (fun s => addSample_adds n t.shape s) h rfl e2, ok_bind]
    exact e
  exact ⟨key h, key h.symm⟩

end Bbn
