import Verif.Props.TrainMissing
import Verif.Props.TrainFit
import Verif.Lemmas.TuiStart
import Mathlib.Algebra.CharZero.Defs

/-!
# Training with data that is repeated, and training again
-/

set_option autoImplicit false

namespace Bbn

variable {α : Type}

/-- The trainer after `k` times the same samples, compared to once. -/
def Trainer.times [Field α] (k : Nat) (t : Trainer α) : Trainer α :=
  ⟨t.data.map (List.map (List.map (fun x => (k : α) * x))), t.counter.map (List.map (fun c => k * c)), t.indices⟩

theorem forall₂_mem {β γ : Type} {R : β → γ → Prop} {l : List β} {l' : List γ} (h : List.Forall₂ R l l') {b : γ}
    (hb : b ∈ l') : ∃ a ∈ l, R a b := by
  induction h with
  | nil => cases hb
  | cons e _ ih =>
    rcases List.mem_cons.1 hb with rfl | hb
    · exact ⟨_, List.mem_cons_self, e⟩
    · obtain ⟨a, ha, r⟩ := ih hb
      exact ⟨a, List.mem_cons_of_mem _ ha, r⟩

theorem goGet_map {β γ : Type} (g : β → γ) (l : List β) (i : Nat) : goGet (l.map g) i = (goGet l i).map g := by
  unfold goGet
  rw [List.getElem?_map]
  cases l[i]? <;> rfl

theorem map_bind_ok {β γ δ : Type} (e : Except Fault β) (g : β → γ) (f : γ → Except Fault δ) :
    (e.map g >>= f) = e >>= fun x => f (g x) := by
  cases e <;> rfl

section times

variable [Field α] [CharZero α] {k : Nat} (hk : 0 < k)

include hk in
theorem updateCells_times (data : List (List α)) (cnt j cols : Nat) : ∀ (ks : List Nat) (tab : List α),
    updateCells (data.map (List.map (fun x => (k : α) * x))) (k * cnt) j cols ks tab = updateCells data cnt j cols ks tab := by
  intro ks
  have hk0 : (k : α) ≠ 0 := Nat.cast_ne_zero.2 (by omega)
  induction ks with
  | nil => intro tab; rfl
  | cons c ks ih =>
    intro tab
    unfold updateCells
    rw [goGet_map, map_bind_ok]
    congr 1
    funext row
    rw [goGet_map, map_bind_ok]
    congr 1
    funext x
    rw [Nat.cast_mul, mul_div_mul_left _ _ hk0]
    congr 1
    funext tab'
    exact ih tab'

include hk in
theorem updateRows_times (data : List (List α)) (counter : List Nat) (cols : Nat) : ∀ (js : List Nat) (tab : List α),
    updateRows (data.map (List.map (fun x => (k : α) * x))) (counter.map (fun c => k * c)) cols js tab =
      updateRows data counter cols js tab := by
  intro js
  induction js with
  | nil => intro tab; rfl
  | cons j js ih =>
    intro tab
    unfold updateRows
    rw [goGet_map, map_bind_ok]
    congr 1
    funext cnt
    have : k * cnt = 0 ↔ cnt = 0 := by simp [hk.ne']
    simp only [this, updateCells_times hk, ih]

include hk in
theorem updateNodes_times (t : Trainer α) : ∀ (l : List (NVar × Nat)) (fs : List (NFactor α)),
    updateNodes (t.times k) l fs = updateNodes t l fs := by
  intro l
  induction l with
  | nil => intro fs; rfl
  | cons p l ih =>
    obtain ⟨v, i⟩ := p
    intro fs
    unfold updateNodes
    unfold Trainer.times
    dsimp only
    rw [goGet_map, map_bind_ok]
    congr 1
    funext data
    cases v.factor with
    | none => rfl
    | some p =>
      dsimp only
      congr 1
      funext f
      split_ifs
      · rfl
      · rw [goGet_map, map_bind_ok]
        congr 1
        funext counter
        rw [updateRows_times hk]
        congr 1
        funext r
        cases r.2 with
        | none => exact ih _
        | some e => rfl

include hk in
theorem updateNetwork_times (t : Trainer α) (n : Net α) : updateNetwork (t.times k) n = updateNetwork t n := by
  unfold updateNetwork
  rw [updateNodes_times hk]

end times

theorem times_shape [Field α] (k : Nat) (t : Trainer α) : (t.times k).shape = t.shape := by
  unfold Trainer.shape Trainer.times
  simp only [List.map_map, Prod.mk.injEq, and_true]
  constructor
  · apply List.map_congr_left
    intro x _
    simp
  · apply List.map_congr_left
    intro x _
    simp

theorem getD_map_zero {β γ : Type} (g : β → γ) (d : β) (l : List β) (i : Nat) : (l.map g).getD i (g d) = g (l.getD i d) := by
  rw [List.getD, List.getD, List.getElem?_map]
  cases l[i]? <;> rfl

theorem times_at [Field α] (k : Nat) (t : Trainer α) (i j c : Nat) : (t.times k).at i j c = k * t.at i j c := by
  unfold Trainer.at Trainer.times
  dsimp only
  have h1 := getD_map_zero (List.map (List.map (fun x => (k : α) * x))) [] t.data i
  have h2 := getD_map_zero (List.map (fun x => (k : α) * x)) [] (t.data.getD i []) j
  have h3 := getD_map_zero (fun x => (k : α) * x) 0 ((t.data.getD i []).getD j []) c
  simp only [List.map_nil, mul_zero] at h1 h2 h3
  rw [h1, h2, h3]

theorem times_cnt [Field α] (k : Nat) (t : Trainer α) (i j : Nat) : (t.times k).cnt i j = k * t.cnt i j := by
  unfold Trainer.cnt Trainer.times
  dsimp only
  have h1 := getD_map_zero (List.map (fun x => k * x)) [] t.counter i
  have h2 := getD_map_zero (fun x => k * x) 0 (t.counter.getD i []) j
  simp only [List.map_nil, mul_zero] at h1 h2
  rw [h1, h2]

/-- A new trainer has seen nothing. -/
theorem newTrainer_zero [Field α] {n : Net α} {t : Trainer α} (h : newTrainer n = .ok t) :
    (∀ i j c, t.at i j c = 0) ∧ ∀ i j, t.cnt i j = 0 := by
  unfold newTrainer at h
  obtain ⟨_, _, h⟩ := bind_inv h
  obtain ⟨parts, e, h⟩ := bind_inv h
  cases h
  have hparts : ∀ p ∈ parts, (∀ row ∈ p.1, ∀ x ∈ row, x = 0) ∧ ∀ c ∈ p.2.1, c = 0 := by
    intro p hp
    obtain ⟨v, _, hv⟩ := forall₂_mem (mapM_forall₂ e) hp
    unfold trainerNode at hv
    obtain ⟨f, _, hv⟩ := bind_inv hv
    split_ifs at hv
    obtain ⟨idx, _, hv⟩ := bind_inv hv
    cases hv
    refine ⟨fun row hr x hx => ?_, fun c hc => List.eq_of_mem_replicate hc⟩
    rw [List.eq_of_mem_replicate hr] at hx
    exact List.eq_of_mem_replicate hx
  have get : ∀ {β : Type} (l : List β) (i : Nat) (d : β), l.getD i d ∈ l ∨ l.getD i d = d := by
    intro β l i d
    rw [List.getD]
    cases e : l[i]? with
    | none => exact .inr rfl
    | some x => exact .inl (List.mem_of_getElem? e)
  constructor
  · intro i j c
    unfold Trainer.at
    dsimp only
    rcases get (((parts.map (fun p => p.1)).getD i []).getD j []) c 0 with h | h
    · rcases get ((parts.map (fun p => p.1)).getD i []) j [] with h' | h'
      · rcases get (parts.map (fun p => p.1)) i [] with h'' | h''
        · obtain ⟨p, hp, e⟩ := List.mem_map.1 h''
          rw [← e] at h' h ⊢
          exact (hparts p hp).1 _ h' _ h
        · rw [h''] at h'; cases h'
      · rw [h'] at h; cases h
    · exact h
  · intro i j
    unfold Trainer.cnt
    dsimp only
    rcases get ((parts.map (fun p => p.2.1)).getD i []) j 0 with h | h
    · rcases get (parts.map (fun p => p.2.1)) i [] with h' | h'
      · obtain ⟨p, hp, e⟩ := List.mem_map.1 h'
        rw [← e] at h ⊢
        exact (hparts p hp).2 _ h
      · rw [h'] at h; cases h
    · exact h

theorem sum_repeated {M ι : Type} [Semiring M] (k : Nat) (l : List ι) (g : ι → M) :
    ((List.replicate k l).flatten.map g).sum = k * (l.map g).sum := by
  induction k with
  | zero => simp
  | succ k ih => rw [List.replicate_succ, List.flatten_cons, List.map_append, List.sum_append, ih, Nat.cast_succ, add_mul, one_mul, add_comm]

/-- **C125.** Training with data in which every sample is repeated equally often, in any order, gives the same network and
the same error, for any network and any samples. -/
theorem C125_repeated [Field α] [CharZero α] (n : Net α) {k : Nat} (hk : 0 < k) {l l' : List (Sample α)}
    (h : l'.Perm (List.replicate k l).flatten) (r : Net α × Option String) : trainOn n l' = .ok r ↔ trainOn n l = .ok r := by
  rw [C62_order n h]
  unfold trainOn
  cases e0 : newTrainer n with
  | error x => simp only [err_bind]
  | ok t =>
    simp only [ok_bind]
    obtain ⟨z1, z2⟩ := newTrainer_zero e0
    have hadd := fun s => addSample_adds n t.shape s
    have H1 := Adds.foldlM (addSample n) _ _ _ l (fun s _ => hadd s) t rfl
    have H2 := Adds.foldlM (addSample n) _ _ _ (List.replicate k l).flatten (fun s _ => hadd s) t rfl
    have key : ∀ t1 t2, l.foldlM (addSample n) t = .ok t1 → (List.replicate k l).flatten.foldlM (addSample n) t = .ok t2 →
        t2 = t1.times k := by
      intro t1 t2 e1 e2
      obtain ⟨_, s1, a1, c1⟩ := H1.2 t1 e1
      obtain ⟨_, s2, a2, c2⟩ := H2.2 t2 e2
      apply Trainer.ext_shape
      · rw [times_shape, s1, s2]
      · intro i j c
        rw [times_at, a1, a2, z1, zero_add, zero_add]
        exact sum_repeated k l _
      · intro i j
        rw [times_cnt, c1, c2, z2, zero_add, zero_add]
        exact sum_repeated k l _
    have hmem : ∀ s, s ∈ (List.replicate k l).flatten ↔ s ∈ l := by
      intro s; simp [List.mem_flatten, List.mem_replicate, hk.ne']
    constructor
    · intro e
      obtain ⟨t2, e2, e⟩ := bind_inv e
      obtain ⟨t1, e1⟩ := H1.1 (fun s hs => (H2.2 t2 e2).1 s ((hmem s).2 hs))
      dsimp only at e1
      rw [e1, ok_bind, ← updateNetwork_times hk t1, ← key t1 t2 e1 e2]
      exact e
    · intro e
      obtain ⟨t1, e1, e⟩ := bind_inv e
      obtain ⟨t2, e2⟩ := H2.1 (fun s hs => (H1.2 t1 e1).1 s ((hmem s).1 hs))
      dsimp only at e2
      rw [e2, ok_bind, key t1 t2 e1 e2, updateNetwork_times hk]
      exact e

/-- The samples are added without a panic, and then the network is updated. -/
theorem trainOn_calls [Field α] {n : Net α} (hn : n.Trainable) {l : List (Sample α)} (hl : ∀ s ∈ l, s.OK n) :
    ∃ t, trainOn n l = updateNetwork t n ∧ Fit n t.shape ∧ Counted n l t := by
  obtain ⟨t, n', e, _, q2, q3⟩ := run_inv hn (l.map TrainCall.add) (by rw [samplesOf_adds]; exact hl)
  rw [samplesOf_adds] at q3
  unfold trainRun at e
  obtain ⟨t0, e1, e⟩ := bind_inv e
  rw [adds_foldlM] at e
  obtain ⟨t', e2, e⟩ := bind_inv e
  cases e
  refine ⟨t, ?_, q2, q3⟩
  unfold trainOn
  rw [e1, ok_bind, e2, ok_bind]

/-- **C126.** What training makes of a network does not depend on the numbers that were in its tables: if two networks
differ only in these, and training succeeds for one, it succeeds for the other with the same samples, and the tables of
all chance and utility variables become the same. -/
theorem C126_forgets [Field α] {n m : Net α} (hn : n.Trainable) (h : SameNetwork n m) {l : List (Sample α)}
    (hl : ∀ s ∈ l, s.OK n) {n1 : Net α} (h1 : trainOn n l = .ok (n1, none)) :
    ∃ m1, trainOn m l = .ok (m1, none) ∧ m1.variables = n1.variables ∧
      ∀ v ∈ n.variables, v.nodeType ≠ .decision → ∀ p, v.factor = some p → m1.factors[p]? = n1.factors[p]? := by
  have hm := h.trainable hn
  obtain ⟨t, a1, a2, a3⟩ := trainOn_calls hn hl
  obtain ⟨t', b1, b2, b3⟩ := trainOn_calls hm (fun s hs => h.ok (hl s hs))
  obtain ⟨x, e, c1, c2, _, c3, _⟩ := updateNetwork_spec hn a2
  obtain ⟨y, e', d1, d2, _, d3, _⟩ := updateNetwork_spec hm b2
  rw [a1, c1] at h1
  obtain ⟨rfl, rfl⟩ := Prod.mk.inj (Except.ok.inj h1)
  have he : e' = none := by
    refine d3.2 (fun i v p f hv hp hf j hj => ?_)
    rw [h.vars] at hv
    obtain ⟨g, tb, k1, rfl, k2⟩ := h.2.back hf
    have hlen : ({ g with table := tb } : NFactor α).tab.length = g.tab.length := tab_length k2
    rw [hlen] at hj
    have := c3.1 rfl i v p g hv hp k1 j hj
    rw [(a3 i v p g hv hp k1).2] at this
    rw [(b3 i v p _ (by rw [h.vars]; exact hv) hp hf).2]
    simp only [h.hit]
    exact this
  subst he
  refine ⟨y, by rw [b1, d1], by rw [d2.vars, c2.vars, h.vars], ?_⟩
  intro v hv hd p hp
  obtain ⟨i, hi⟩ := List.getElem?_of_mem hv
  obtain ⟨q, f, f1, f2, _⟩ := hn.linked v hv
  rw [hp] at f1
  obtain rfl := Option.some.inj f1
  obtain ⟨tb, g1, g2⟩ := h.2.2 p f f2
  obtain ⟨t1, u1, u2, u3⟩ := trained_table hn hl (by rw [a1, c1]) hi hd hp f2
  obtain ⟨t2, w1, w2, w3⟩ := trained_table hm (fun s hs => h.ok (hl s hs)) (by rw [b1, d1]) (by rw [h.vars]; exact hi) hd hp g1
  rw [u1, w1]
  congr 1
  have htab : ({ f with table := t2 } : NFactor α).tab = ({ f with table := t1 } : NFactor α).tab := by
    apply list_ext_getD 0
    · rw [tab_length u2]
      have := tab_length w2
      exact this.trans (tab_length g2)
    · intro x hx
      have hx' : x < f.tab.length := by
        have := tab_length w2
        rw [← tab_length g2, ← this]; exact hx
      rw [u3 x hx']
      refine (w3 x (by rw [tab_length g2]; exact hx')).trans ?_
      simp only [h.hit]
  unfold NFactor.tab at htab
  dsimp only at htab g2 u2 w2
  rw [g2] at w2
  cases t1 <;> cases t2 <;> cases e : f.table <;> simp_all

/-- **C126 (again).** Training the trained network once more with the same samples leaves the tables of all chance and
utility variables as they are. -/
theorem C126_again [Field α] {n : Net α} (hn : n.Trainable) {l : List (Sample α)} (hl : ∀ s ∈ l, s.OK n) {n1 : Net α}
    (h1 : trainOn n l = .ok (n1, none)) : ∃ n2, trainOn n1 l = .ok (n2, none) ∧ n2.variables = n1.variables ∧
      ∀ v ∈ n.variables, v.nodeType ≠ .decision → ∀ p, v.factor = some p → n2.factors[p]? = n1.factors[p]? := by
  obtain ⟨t, a1, a2, _⟩ := trainOn_calls hn hl
  obtain ⟨x, e, c1, c2, _⟩ := updateNetwork_spec hn a2
  have hx := h1
  rw [a1, c1] at hx
  obtain ⟨rfl, rfl⟩ := Prod.mk.inj (Except.ok.inj hx)
  exact C126_forgets hn c2 hl h1

/-- The hypotheses of both can be met: four days, and all of them three times over, the last one first. -/
example : ∃ n1 n2 : Net ℚ, trainOn Ex.umb (Ex.days.take 4) = .ok (n1, none) ∧
    trainOn Ex.umb (List.replicate 3 (Ex.days.take 4)).flatten.reverse = .ok (n1, none) ∧
    trainOn n1 (Ex.days.take 4) = .ok (n2, none) ∧ n2.factors[0]? = n1.factors[0]? := by
  have htr : (trainOn Ex.umb (Ex.days.take 4)).map (fun r => r.2) = .ok none := by decide +kernel
  obtain ⟨⟨n1, e⟩, h, hx⟩ := trainOn_map htr
  dsimp only at hx
  subst hx
  obtain ⟨n2, h2, _, h3⟩ := C126_again Ex.umb_trainable (fun s hs => Ex.days_ok s (List.mem_of_mem_take hs)) h
  exact ⟨n1, n2, h, (C125_repeated Ex.umb (k := 3) (by decide) (List.reverse_perm _) _).2 h, h2,
    h3 ⟨"Weather", .chance, ["sun", "rain"], (0, 0), "", some 0⟩ (by decide) (by decide) 0 rfl⟩

end Bbn
