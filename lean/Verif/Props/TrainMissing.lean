import Verif.Props.Training

/-!
# Missing values and rows without samples (C63, C64)
-/

set_option autoImplicit false

namespace Bbn

variable {α : Type}

theorem adds_foldlM [Field α] (n : Net α) : ∀ (l : List (Sample α)) (t : Trainer α),
    (l.map TrainCall.add).foldlM TrainCall.run (t, n) = (do
      let t' ← l.foldlM (addSample n) t
      return (t', n)) := by
  intro l
  induction l with
  | nil => intro t; rfl
  | cons s l ih =>
    intro t
    rw [List.map_cons, List.foldlM_cons, List.foldlM_cons]
    unfold TrainCall.run
    dsimp only
    cases e : addSample n t s with
    | error x => rfl
    | ok t' =>
      rw [ok_bind, ok_bind]
      show (pure (t', n) >>= _) = _
      rw [pure_bind]
      exact ih t'

theorem samplesOf_adds (l : List (Sample α)) : samplesOf (l.map TrainCall.add) = l := by
  induction l with
  | nil => rfl
  | cons s l ih => rw [List.map_cons, samplesOf, ih]

theorem trainOn_run [Field α] {n : Net α} {l : List (Sample α)} {r : Net α × Option String} (h : trainOn n l = .ok r) :
    ∃ t, trainRun n (l.map TrainCall.add) = .ok (t, n) ∧ updateNetwork t n = .ok r := by
  unfold trainOn at h
  obtain ⟨t, e1, h⟩ := bind_inv h
  obtain ⟨t', e2, h⟩ := bind_inv h
  refine ⟨t', ?_, h⟩
  unfold trainRun
  rw [e1, ok_bind, adds_foldlM, e2, ok_bind]
  rfl

/-- What training makes of the table of a variable: each entry is a sum over the samples divided by a count. -/
theorem trained_table [Field α] {n : Net α} (hn : n.Trainable) {l : List (Sample α)} (hl : ∀ s ∈ l, s.OK n) {n1 : Net α}
    (h1 : trainOn n l = .ok (n1, none)) {i : Nat} {v : NVar} (hv : n.variables[i]? = some v) (hd : v.nodeType ≠ .decision)
    {p : Nat} {f : NFactor α} (hp : v.factor = some p) (hf : n.factors[p]? = some f) :
    ∃ tb, n1.factors[p]? = some { f with table := tb } ∧ tb.map List.length = f.table.map List.length ∧
      ∀ x < f.tab.length, ({ f with table := tb } : NFactor α).tab.getD x 0 =
        (l.map (fun s => Delta.sums (s.hit n f.given v i) i (x / v.outcomes.length) (x % v.outcomes.length))).sum /
        ((l.map (fun s => Delta.counts (s.hit n f.given v i) i (x / v.outcomes.length))).sum : Nat) := by
  have hvm := List.mem_of_getElem? hv
  obtain ⟨hfm, hfor, _, hcol⟩ := own_mem hn hvm hp hf
  obtain ⟨t, e1, e2⟩ := trainOn_run h1
  obtain ⟨t', n', e, q1, q2, q3⟩ := run_inv hn (l.map TrainCall.add) (by rw [samplesOf_adds]; exact hl)
  rw [samplesOf_adds] at q3
  rw [e1] at e
  injection e with e
  injection e with et en
  subst et
  subst en
  obtain ⟨n'', e', eu, r1, _, r3, r4, _⟩ := updateNetwork_spec hn q2
  rw [e2] at eu
  injection eu with eu
  injection eu with ea eb
  subst ea
  subst eb
  obtain ⟨tb, a1, a2⟩ := r1.2.2 p f hf
  refine ⟨tb, a1, a2, fun x hx => ?_⟩
  obtain ⟨c1, c2⟩ := q3 i v p f hv hp hf
  have hlen : f.tab.length = f.tab.length / v.outcomes.length * v.outcomes.length := by
    have := hn.size v hvm hd f hfm hfor
    rw [prod_dims, hfor, count_at hn.names hvm] at this
    rw [this, Nat.mul_div_cancel _ (hn.outcomes v hvm)]
  have := r4 rfl i v hv p _ hp a1 x (by
    show x / f.columns < _ / f.columns
    rw [tab_length a2, hcol]
    exact Nat.div_lt_of_lt_mul (by rw [Nat.mul_comm, ← hlen]; exact hx))
  rw [this]
  unfold newEntry
  dsimp only
  rw [hcol]
  have b1 := c1 (x / v.outcomes.length) (x % v.outcomes.length)
  have b2 := c2 (x / v.outcomes.length)
  unfold Trainer.at at b1
  unfold Trainer.cnt at b2
  rw [b1, b2]

/-- What training makes of the table of a variable depends only on what the samples add for this variable. -/
theorem table_hits [Field α] {n : Net α} (hn : n.Trainable) {l l' : List (Sample α)} (hl : ∀ s ∈ l, s.OK n)
    (hl' : ∀ s ∈ l', s.OK n) {n1 n2 : Net α} (h1 : trainOn n l = .ok (n1, none)) (h2 : trainOn n l' = .ok (n2, none))
    {i : Nat} {v : NVar} (hv : n.variables[i]? = some v) (hd : v.nodeType ≠ .decision) {p : Nat} {f : NFactor α}
    (hp : v.factor = some p) (hf : n.factors[p]? = some f)
    (hsum : ∀ j k, (l.map (fun s => Delta.sums (s.hit n f.given v i) i j k)).sum =
      (l'.map (fun s => Delta.sums (s.hit n f.given v i) i j k)).sum)
    (hcnt : ∀ j, (l.map (fun s => Delta.counts (s.hit n f.given v i) i j)).sum =
      (l'.map (fun s => Delta.counts (s.hit n f.given v i) i j)).sum) : n1.factors[p]? = n2.factors[p]? := by
  obtain ⟨tb, a1, a2, a3⟩ := trained_table hn hl h1 hv hd hp hf
  obtain ⟨tb', b1, b2, b3⟩ := trained_table hn hl' h2 hv hd hp hf
  rw [a1, b1]
  congr 2
  have htab : ({ f with table := tb } : NFactor α).tab = ({ f with table := tb' } : NFactor α).tab := by
    apply list_ext_getD 0
    · rw [tab_length a2, tab_length b2]
    · intro x hx
      rw [tab_length a2] at hx
      rw [a3 x hx, b3 x hx, hsum, hcnt]
  unfold NFactor.tab at htab
  dsimp only at htab
  cases tb <;> cases tb' <;> cases e : f.table <;> simp_all

theorem row_none {n : Net α} {s : Sample α} {given : List String} {g : String} (hg : g ∈ given)
    (h : s.known n g = none) : s.row n given = none := by
  unfold Sample.row
  exact if_neg (fun hall => hall g hg h)

theorem row_congr {n : Net α} {s s' : Sample α} {given : List String} (h : ∀ g ∈ given, s.known n g = s'.known n g) :
    s.row n given = s'.row n given := by
  unfold Sample.row
  have h1 : (∀ g ∈ given, s.known n g ≠ none) ↔ ∀ g ∈ given, s'.known n g ≠ none := by
    constructor
    · intro hh g hg; rw [← h g hg]; exact hh g hg
    · intro hh g hg; rw [h g hg]; exact hh g hg
  have h2 : given.map (fun g => (n.count g, (s.known n g).getD 0)) =
      given.map (fun g => (n.count g, (s'.known n g).getD 0)) := by
    apply List.map_congr_left
    intro g hg
    rw [h g hg]
  simp only [h1, h2]

/-- **C63, partial.** Take samples of which one, `s`, has no known outcome of the chance or decision variable `g`. The
tables of `g` and of its children become what they become without `s`. All other tables become what they become with
`s` replaced by a sample that differs at most in the outcome of `g`. Missing: utility variables, see `C63_refuted` and
`C63_utility_partial`. -/
theorem C63_partial [Field α] {n : Net α} (hn : n.Trainable) {l1 l2 : List (Sample α)} {s s' : Sample α} {g : String}
    (hl : ∀ x ∈ l1 ++ l2, x.OK n) (hs : s.OK n) (hs' : s'.OK n) (hkind : n.isKind .utility g = false)
    (hmiss : s.known n g = none) (hsame : ∀ x, x ≠ g → s'.known n x = s.known n x)
    (hgain : ∀ x, s'.gain n x = s.gain n x) {n1 n2 n3 : Net α} (h1 : trainOn n (l1 ++ s :: l2) = .ok (n1, none))
    (h2 : trainOn n (l1 ++ l2) = .ok (n2, none)) (h3 : trainOn n (l1 ++ s' :: l2) = .ok (n3, none)) :
    ∀ v ∈ n.variables, v.nodeType ≠ .decision → ∀ p f, v.factor = some p → n.factors[p]? = some f →
      (v.name = g ∨ g ∈ f.given → n1.factors[p]? = n2.factors[p]?) ∧
      (v.name ≠ g ∧ g ∉ f.given → n1.factors[p]? = n3.factors[p]?) := by
  intro v hvm hd p f hp hf
  obtain ⟨i, hv⟩ := List.getElem?_of_mem hvm
  have hl1 : ∀ x ∈ l1 ++ s :: l2, x.OK n := by
    intro x hx
    rcases List.mem_append.1 hx with hx | hx
    · exact hl x (List.mem_append_left _ hx)
    · rcases List.mem_cons.1 hx with rfl | hx
      · exact hs
      · exact hl x (List.mem_append_right _ hx)
  have hl3 : ∀ x ∈ l1 ++ s' :: l2, x.OK n := by
    intro x hx
    rcases List.mem_append.1 hx with hx | hx
    · exact hl x (List.mem_append_left _ hx)
    · rcases List.mem_cons.1 hx with rfl | hx
      · exact hs'
      · exact hl x (List.mem_append_right _ hx)
  constructor
  · intro hg
    have hhit : s.hit n f.given v i = none := by
      unfold Sample.hit
      rw [if_neg hd]
      rcases hg with hg | hg
      · have hu : v.nodeType ≠ .utility := by
          intro hu
          unfold Net.isKind at hkind
          rw [List.any_eq_false] at hkind
          exact hkind v hvm (by simp [hg, hu])
        cases s.row n f.given with
        | none => rfl
        | some r =>
          dsimp only
          rw [if_neg hu, hg, hmiss]
          rfl
      · rw [row_none hg hmiss]
    refine table_hits hn hl1 hl h1 h2 hv hd hp hf ?_ ?_
    · intro j k
      simp [hhit, Delta.sums]
    · intro j
      simp [hhit, Delta.counts]
  · rintro ⟨hg1, hg2⟩
    have hhit : s.hit n f.given v i = s'.hit n f.given v i := by
      unfold Sample.hit
      rw [row_congr (s := s) (s' := s') (fun x hx => (hsame x (by rintro rfl; exact hg2 hx)).symm),
        hsame v.name hg1, hgain]
    refine table_hits hn hl1 hl3 h1 h3 hv hd hp hf ?_ ?_
    · intro j k
      simp [hhit]
    · intro j
      simp [hhit]

/-- **C63 for utility variables, partial.** If `s` has no utility value (NaN) for the utility variable `g`, the table of
`g` becomes what it becomes without `s`, and all other tables (also that of the total-utility node, a child of `g`)
what they become with `s` replaced by a sample that differs at most in the utility value of `g`. -/
theorem C63_utility_partial [Field α] {n : Net α} (hn : n.Trainable) {l1 l2 : List (Sample α)} {s s' : Sample α}
    {g : String} (hl : ∀ x ∈ l1 ++ l2, x.OK n) (hs : s.OK n) (hs' : s'.OK n) (hkind : n.isKind .utility g = true)
    (hmiss : s.gain n g = none) (hsame : ∀ x, s'.known n x = s.known n x)
    (hgain : ∀ x, x ≠ g → s'.gain n x = s.gain n x) {n1 n2 n3 : Net α}
    (h1 : trainOn n (l1 ++ s :: l2) = .ok (n1, none)) (h2 : trainOn n (l1 ++ l2) = .ok (n2, none))
    (h3 : trainOn n (l1 ++ s' :: l2) = .ok (n3, none)) :
    ∀ v ∈ n.variables, v.nodeType ≠ .decision → ∀ p f, v.factor = some p → n.factors[p]? = some f →
      (v.name = g → n1.factors[p]? = n2.factors[p]?) ∧ (v.name ≠ g → n1.factors[p]? = n3.factors[p]?) := by
  intro v hvm hd p f hp hf
  obtain ⟨i, hv⟩ := List.getElem?_of_mem hvm
  have hl1 : ∀ x ∈ l1 ++ s :: l2, x.OK n := by
    intro x hx
    rcases List.mem_append.1 hx with hx | hx
    · exact hl x (List.mem_append_left _ hx)
    · rcases List.mem_cons.1 hx with rfl | hx
      · exact hs
      · exact hl x (List.mem_append_right _ hx)
  have hl3 : ∀ x ∈ l1 ++ s' :: l2, x.OK n := by
    intro x hx
    rcases List.mem_append.1 hx with hx | hx
    · exact hl x (List.mem_append_left _ hx)
    · rcases List.mem_cons.1 hx with rfl | hx
      · exact hs'
      · exact hl x (List.mem_append_right _ hx)
  constructor
  · intro hg
    have hu : v.nodeType = .utility := by
      unfold Net.isKind at hkind
      rw [List.any_eq_true] at hkind
      obtain ⟨u, hu1, hu2⟩ := hkind
      simp only [decide_eq_true_eq] at hu2
      rw [List.inj_on_of_nodup_map hn.names hvm hu1 (by rw [hg, hu2.1])]
      exact hu2.2
    have hhit : s.hit n f.given v i = none := by
      rw [hit_utility hu, hg, hmiss]
      cases s.row n f.given <;> rfl
    refine table_hits hn hl1 hl h1 h2 hv hd hp hf ?_ ?_
    · intro j k
      simp [hhit, Delta.sums]
    · intro j
      simp [hhit, Delta.counts]
  · intro hg
    have hhit : s.hit n f.given v i = s'.hit n f.given v i := by
      unfold Sample.hit
      rw [row_congr (s := s) (s' := s') (fun x _ => (hsame x).symm), hsame v.name, hgain v.name hg]
    refine table_hits hn hl1 hl3 h1 h3 hv hd hp hf ?_ ?_
    · intro j k
      simp [hhit]
    · intro j
      simp [hhit]

/-- Every row of a table belongs to some outcomes of the parents. -/
theorem rowMajor_surj (c : String → Nat) : ∀ (l : List String), l.Nodup → ∀ j < (l.map c).prod,
    ∃ w : World, (∀ g ∈ l, w g < c g) ∧ rowMajor (l.map (fun g => (c g, w g))) = j := by
  intro l
  induction l with
  | nil =>
    intro _ j hj
    simp only [List.map_nil, List.prod_nil] at hj
    exact ⟨fun _ => 0, by simp, by simp [rowMajor]; omega⟩
  | cons g l ih =>
    intro hnd j hj
    rw [List.nodup_cons] at hnd
    rw [List.map_cons, List.prod_cons] at hj
    have hpos : 0 < (l.map c).prod := by
      rcases Nat.eq_zero_or_pos (l.map c).prod with h | h
      · rw [h] at hj; omega
      · exact h
    obtain ⟨w, hw, e⟩ := ih hnd.2 (j % (l.map c).prod) (Nat.mod_lt _ hpos)
    have hne : ∀ x ∈ l, (w.set g (j / (l.map c).prod)) x = w x := by
      intro x hx
      unfold World.set
      exact if_neg (by rintro rfl; exact hnd.1 hx)
    refine ⟨w.set g (j / (l.map c).prod), ?_, ?_⟩
    · intro x hx
      rcases List.mem_cons.1 hx with rfl | hx
      · unfold World.set
        rw [if_pos rfl]
        exact Nat.div_lt_of_lt_mul (by rw [Nat.mul_comm]; exact hj)
      · rw [hne x hx]; exact hw x hx
    · have hmap : l.map (fun x => (c x, (w.set g (j / (l.map c).prod)) x)) = l.map (fun x => (c x, w x)) := by
        apply List.map_congr_left
        intro x hx
        rw [hne x hx]
      rw [List.map_cons, rowMajor, hmap, e, List.map_map]
      have h1 : (Prod.fst ∘ fun x => (c x, w x)) = c := rfl
      rw [h1]
      unfold World.set
      rw [if_pos rfl, Nat.mul_comm]
      exact Nat.div_add_mod j _

/-- The sample counts for the row of the variable's table to which the world belongs: the parents have the outcomes of
the world, and the variable has a known outcome, or a utility value if it is a utility variable. -/
def Sample.CountsFor (n : Net α) (s : Sample α) (v : NVar) (given : List String) (w : World) : Prop :=
  s.InRow n given w ∧ if v.nodeType = .utility then s.gain n v.name ≠ none else s.known n v.name ≠ none

theorem counts_zero [One α] {n : Net α} (hn : n.Trainable) {l : List (Sample α)} (hl : ∀ s ∈ l, s.OK n) {i : Nat}
    {v : NVar} (hd : v.nodeType ≠ .decision) {given : List String}
    (hg : ∀ g ∈ given, ∃ u ∈ n.variables, u.name = g) {w : World} (hw : ∀ g ∈ given, w g < n.count g) :
    (l.map (fun s => Delta.counts (s.hit n given v i) i (rowMajor (given.map (fun g => (n.count g, w g)))))).sum = 0 ↔
      ∀ s ∈ l, ¬ s.CountsFor n v given w := by
  have h1 : ∀ s ∈ l, (Delta.counts (s.hit n given v i) i (rowMajor (given.map (fun g => (n.count g, w g)))) = 0 ↔
      ¬ s.CountsFor n v given w) := by
    intro s hs
    have hri := row_iff hn.names (hl s hs) hg hw
    unfold Sample.CountsFor Sample.hit
    rw [if_neg hd]
    cases hr : s.row n given with
    | none =>
      rw [hr] at hri
      refine ⟨fun _ h => ?_, fun _ => rfl⟩
      have := hri.2 h.1
      cases this
    | some r =>
      rw [hr] at hri
      dsimp only
      have hrow : r = rowMajor (given.map (fun g => (n.count g, w g))) ↔ s.InRow n given w := by
        rw [← hri]
        exact ⟨fun h => by rw [h], fun h => by injection h⟩
      by_cases hu : v.nodeType = .utility
      · rw [if_pos hu, if_pos hu]
        cases s.gain n v.name with
        | none => simp [Delta.counts]
        | some u =>
          simp only [Option.map_some, Delta.counts]
          rw [← hrow]
          by_cases h : r = rowMajor (given.map (fun g => (n.count g, w g))) <;> simp [h]
      · rw [if_neg hu, if_neg hu]
        cases s.known n v.name with
        | none => simp [Delta.counts]
        | some k =>
          simp only [Option.map_some, Delta.counts]
          rw [← hrow]
          by_cases h : r = rowMajor (given.map (fun g => (n.count g, w g))) <;> simp [h]
  rw [List.sum_eq_zero_iff]
  constructor
  · intro h s hs
    exact (h1 s hs).1 (h _ (List.mem_map.2 ⟨s, hs, rfl⟩))
  · intro h x hx
    obtain ⟨s, hs, rfl⟩ := List.mem_map.1 hx
    exact (h1 s hs).2 (h s hs)

/-- **C64, partial.** After any sequence of calls, `UpdateNetwork` returns an error exactly if for some chance or utility
variable and some outcomes of its parents there is no sample that counts for this row. In this case the tables of all
variables after the first one with such a row are as before. Missing: the tables of earlier variables, and earlier rows,
are overwritten, see `C64_refuted`; decisions are taken to have no table entries. -/
theorem C64_partial [Field α] {n : Net α} (hn : n.Trainable) (hdup : ∀ f ∈ n.factors, f.given.Nodup)
    (hdec : ∀ v ∈ n.variables, v.nodeType = .decision → ∀ f ∈ n.factors, f.forVar = v.name → f.tab = [])
    {calls : List (TrainCall α)} (hs : ∀ s ∈ samplesOf calls, s.OK n) {t : Trainer α} {n1 n' : Net α} {e : Option String}
    (h1 : trainRun n calls = .ok (t, n1)) (h2 : updateNetwork t n1 = .ok (n', e)) :
    (e ≠ none ↔ ∃ v ∈ n.variables, v.nodeType ≠ .decision ∧ ∃ f ∈ n.factors, f.forVar = v.name ∧
      ∃ w : World, (∀ g ∈ f.given, w g < n.count g) ∧ ∀ s ∈ samplesOf calls, ¬ s.CountsFor n v f.given w) ∧
    (e ≠ none → ∃ (i : Nat) (v : NVar) (f : NFactor α) (w : World), n.variables[i]? = some v ∧ f ∈ n.factors ∧
      f.forVar = v.name ∧ (∀ g ∈ f.given, w g < n.count g) ∧ (∀ s ∈ samplesOf calls, ¬ s.CountsFor n v f.given w) ∧
      ∀ i' v' q, i < i' → n.variables[i']? = some v' → v'.factor = some q → n'.factors[q]? = n1.factors[q]?) := by
  obtain ⟨t', n1', e', q1, q2, q3⟩ := run_inv hn calls hs
  rw [h1] at e'
  injection e' with e'
  injection e' with et en
  subst et
  subst en
  have hn1 := q1.trainable hn
  obtain ⟨n'', e', eu, r1, _, r3, _, r5⟩ := updateNetwork_spec hn1 q2
  rw [h2] at eu
  injection eu with eu
  injection eu with ea eb
  subst ea
  subst eb
  -- an empty row of a table in terms of samples
  have hrow : ∀ (i : Nat) (v : NVar) (p : Nat) (f1 : NFactor α), n.variables[i]? = some v → v.factor = some p →
      n1.factors[p]? = some f1 → (∃ j < f1.tab.length / v.outcomes.length, t.cnt i j = 0) →
      v.nodeType ≠ .decision ∧ ∃ f ∈ n.factors, f.forVar = v.name ∧
        ∃ w : World, (∀ g ∈ f.given, w g < n.count g) ∧ ∀ s ∈ samplesOf calls, ¬ s.CountsFor n v f.given w := by
    rintro i v p f1 hv hp hf1 ⟨j, hj, hc⟩
    obtain ⟨f, tb, hf, rfl, hlen⟩ := q1.2.back hf1
    have hvm := List.mem_of_getElem? hv
    obtain ⟨hfm, hfor, _, _⟩ := own_mem hn hvm hp hf
    rw [tab_length hlen] at hj
    have hd : v.nodeType ≠ .decision := by
      intro hd
      rw [hdec v hvm hd f hfm hfor] at hj
      simp at hj
    have hv1 : n1.variables[i]? = some v := by rw [q1.vars]; exact hv
    obtain ⟨_, c2⟩ := q3 i v p _ hv1 hp hf1
    simp only [q1.hit] at c2
    rw [rows_eq hn hvm hd hp hf] at hj
    obtain ⟨w, hw, rfl⟩ := rowMajor_surj n.count f.given (hdup f hfm) j hj
    rw [c2, counts_zero hn hs hd (hn.parents v hvm f hfm hfor) hw] at hc
    exact ⟨hd, f, hfm, hfor, w, hw, hc⟩
  constructor
  · constructor
    · intro he
      obtain ⟨i, v, p, f1, a1, a2, a3, a4, _⟩ := r5 he
      rw [q1.vars] at a1
      obtain ⟨b1, b2⟩ := hrow i v p f1 a1 a2 a3 a4
      exact ⟨v, List.mem_of_getElem? a1, b1, b2⟩
    · rintro ⟨v, hvm, hd, f, hfm, hfor, w, hw, hno⟩ he
      obtain ⟨i, hv⟩ := List.getElem?_of_mem hvm
      obtain ⟨p, hp, hf⟩ := table_own hn hfm hvm hfor.symm
      obtain ⟨tb, hf1, hlen⟩ := q1.2.2 p f hf
      have hv1 : n1.variables[i]? = some v := by rw [q1.vars]; exact hv
      obtain ⟨_, c2⟩ := q3 i v p _ hv1 hp hf1
      simp only [q1.hit] at c2
      have hlt : rowMajor (f.given.map (fun g => (n.count g, w g))) < f.tab.length / v.outcomes.length := by
        rw [rows_eq hn hvm hd hp hf]
        have := rowMajor_lt (f.given.map (fun g => (n.count g, w g))) ?_
        · rw [List.map_map] at this; exact this
        · intro d hdm
          obtain ⟨g, hg, rfl⟩ := List.mem_map.1 hdm
          exact hw g hg
      have := r3.1 he i v p _ hv1 hp hf1 _ (by rw [tab_length hlen]; exact hlt)
      apply this
      rw [c2]
      exact (counts_zero hn hs hd (hn.parents v hvm f hfm hfor) hw).2 hno
  · intro he
    obtain ⟨i, v, p, f1, a1, a2, a3, a4, _, a6⟩ := r5 he
    rw [q1.vars] at a1 a6
    obtain ⟨_, f, b2, b3, w, b4, b5⟩ := hrow i v p f1 a1 a2 a3 a4
    exact ⟨i, v, f, w, a1, b2, b3, b4, b5, a6⟩

end Bbn
