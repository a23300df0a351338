import Mathlib.Data.List.Forall2
import Verif.Spec.Likelihood
import Verif.Lemmas.Likelihood
import Verif.Props.TrainExamples
import Verif.Props.NetAttain
import Verif.Props.NetCircuit
import Verif.Props.NetExpect

/-!
# Trained tables fit the samples best (C112)
-/

set_option autoImplicit false

namespace Bbn

open Finset

variable {α : Type}

/-! ## Networks that differ only in the entries of their tables -/

theorem SameTables.mem {fs fs' : List (NFactor α)} (h : SameTables fs fs') {f' : NFactor α} (hf : f' ∈ fs') :
    ∃ f ∈ fs, ∃ tb, f' = { f with table := tb } ∧ tb.map List.length = f.table.map List.length := by
  obtain ⟨p, hp⟩ := List.getElem?_of_mem hf
  obtain ⟨f, tb, h1, h2, h3⟩ := h.back hp
  exact ⟨f, List.mem_of_getElem? h1, tb, h2, h3⟩

theorem SameNetwork.symm {n n' : Net α} (h : SameNetwork n n') : SameNetwork n' n := by
  refine ⟨by rw [h.1], h.2.1.symm, fun p f' hf => ?_⟩
  obtain ⟨f, tb, h1, rfl, h2⟩ := h.2.back hf
  exact ⟨f.table, h1, h2.symm⟩

theorem SameNetwork.totalName {n n' : Net α} (h : SameNetwork n n') : n'.totalName = n.totalName := by
  rw [h.1]; rfl

theorem SameNetwork.isKind {n n' : Net α} (h : SameNetwork n n') : n'.isKind = n.isKind := by
  funext t s; unfold Net.isKind; rw [h.vars]

theorem SameNetwork.stateVars {n n' : Net α} (h : SameNetwork n n') : n'.stateVars = n.stateVars := by
  unfold Net.stateVars; rw [h.vars]

theorem SameNetwork.valid {n n' : Net α} (h : SameNetwork n n') (hn : n.Valid) : n'.Valid := by
  have hv := h.vars
  constructor
  · rw [hv]; exact hn.names
  · rw [hv]; exact hn.named
  · rw [hv]; exact hn.few
  · rw [hv]; exact hn.outcomes
  · rw [h.2.forVars]; exact hn.tables
  · intro v hvm hd
    rw [hv] at hvm
    obtain ⟨f, hf, e⟩ := hn.hasTable v hvm hd
    obtain ⟨p, hp⟩ := List.getElem?_of_mem hf
    obtain ⟨tb, h1, _⟩ := h.2.2 p f hp
    exact ⟨_, List.mem_of_getElem? h1, e⟩
  · intro f' hf
    rw [hv]
    obtain ⟨f, hf0, tb, rfl, _⟩ := h.2.mem hf
    exact hn.known f hf0
  · intro f' hf
    obtain ⟨f, hf0, tb, rfl, _⟩ := h.2.mem hf
    exact hn.dims f hf0
  · intro f' hf
    rw [hv, h.totalName]
    obtain ⟨f, hf0, tb, rfl, _⟩ := h.2.mem hf
    exact hn.parents f hf0
  · intro f' hf
    rw [h.totalName, h.isKind, h.count]
    obtain ⟨f, hf0, tb, rfl, ht⟩ := h.2.mem hf
    intro h1 h2
    obtain ⟨t, h3, h4⟩ := hn.size f hf0 h1 h2
    rw [h3] at ht
    cases tb with
    | none => cases ht
    | some t' =>
      refine ⟨t', rfl, ?_⟩
      rw [Option.map_some, Option.map_some] at ht
      rw [Option.some.inj ht]
      exact h4
  · rw [hv, h.totalName]; exact hn.single
  · intro i hi
    rw [show n'.totalUtility = n.totalUtility by rw [h.1]] at hi
    rw [hv]
    obtain ⟨v, j, f, h1, h2, h3, h4, h5, h6, h7⟩ := hn.weights i hi
    obtain ⟨tb, h8, h9⟩ := h.2.2 j f h4
    exact ⟨v, j, _, h1, h2, h3, h8, h5, by rw [tab_length h9]; exact h6, h7⟩

theorem SameNetwork.policies {n n' : Net α} (h : SameNetwork n n') : n'.policies = n.policies := by rw [h.1]

theorem SameNetwork.policiesOK {n n' : Net α} (h : SameNetwork n n') (hp : n.PoliciesOK) : n'.PoliciesOK := by
  have e1 := h.policies
  have e2 := h.vars
  have e3 : n'.solverIndex = n.solverIndex := by funext i; unfold Net.solverIndex; rw [h.1]
  have e4 : n'.hasPolicy = n.hasPolicy := by funext s; unfold Net.hasPolicy; rw [e1]
  constructor
  · rw [e1]; exact hp.keys
  · rw [e1]; exact hp.wf
  · rw [e1, e2]; exact hp.decision
  · rw [e1, e2, e3, e4]; exact hp.vars

theorem SameNetwork.allowed {n n' : Net α} (h : SameNetwork n n') {w : World} : n'.Allowed w ↔ n.Allowed w := by
  unfold Net.Allowed; rw [h.stateVars]

/-- The chance tables correspond to each other. -/
theorem SameNetwork.chance {n n' : Net α} (h : SameNetwork n n') : List.Forall₂
    (fun f f' : NFactor α => f'.forVar = f.forVar ∧ f'.given = f.given) n.chanceTables n'.chanceTables := by
  unfold Net.chanceTables
  refine List.rel_filter (R := fun f f' : NFactor α => f'.forVar = f.forVar ∧ f'.given = f.given) ?_ ?_
  · intro f f' hff
    dsimp only
    rw [h.isKind, hff.1]
  · rw [List.forall₂_iff_get]
    refine ⟨h.2.1.symm, fun i h1 h2 => ?_⟩
    obtain ⟨tb, h3, _⟩ := h.2.2 i n.factors[i] (by simp [h1])
    rw [List.getElem?_eq_getElem h2] at h3
    rw [List.get_eq_getElem, List.get_eq_getElem, Option.some.inj h3]
    exact ⟨rfl, rfl⟩

/-! ## The probability of a complete case -/

theorem sample_evidence {n n' : Net α} (h : SameNetwork n n') (s : Sample α) : s.evidence n' = s.evidence n := by
  unfold Sample.evidence Sample.world
  rw [h.stateVars, h.known]

theorem complete_allowed {n : Net α} (hn : n.Valid) {s : Sample α} (hs : s.OK n) : n.Allowed (s.world n) := by
  intro v hv
  have hvm := (mem_stateVars.1 hv).1
  obtain ⟨i, hi⟩ := List.getElem?_of_mem hvm
  have hpos := (hn.outcomes v hvm).1
  unfold Sample.world Sample.known
  rw [position_at hn.names hi]
  cases e : s.values[i]? with
  | none => exact hpos
  | some k =>
    have := hs.range i v k hi e
    dsimp only
    split_ifs with hk
    · exact hpos
    · show k.toNat < _
      omega

theorem evidence_agrees {n : Net α} (hn : n.Valid) (hd : ∀ v ∈ n.stateVars, v.outcomes.Nodup) {s : Sample α} (hs : s.OK n)
    (w : World) : n.Agrees (s.evidence n) w ↔ ∀ v ∈ n.stateVars, w v.name = s.world n v.name := by
  have ha := complete_allowed hn hs
  have hidx : ∀ v ∈ n.stateVars, v.outcomes.idxOf (v.outcomes.getD (s.world n v.name) "") = s.world n v.name := by
    intro v hv
    rw [List.getD_eq_getElem?_getD, List.getElem?_eq_getElem (ha v hv), Option.getD_some]
    exact (hd v hv).idxOf_getElem _ _
  unfold Net.Agrees Sample.evidence
  constructor
  · intro h v hv
    rw [← hidx v hv]
    exact h _ (List.mem_map.2 ⟨v, hv, rfl⟩) v (mem_stateVars.1 hv).1 rfl
  · intro h e he u hu hue
    obtain ⟨v, hv, rfl⟩ := List.mem_map.1 he
    have := name_unique hn hu (mem_stateVars.1 hv).1 hue
    subst this
    dsimp only
    rw [hidx u hv, h u hv]

theorem sample_evidence_ok {n : Net α} (hn : n.Valid) {s : Sample α} (hs : s.OK n) : n.EvidenceOK (s.evidence n) := by
  refine ⟨?_, ?_⟩
  · unfold Sample.evidence
    rw [List.map_map]
    exact stateVars_names hn
  · intro e he
    obtain ⟨v, hv, rfl⟩ := List.mem_map.1 he
    refine ⟨v, (mem_stateVars.1 hv).1, rfl, (mem_stateVars.1 hv).2, ?_⟩
    dsimp only
    rw [List.getD_eq_getElem?_getD, List.getElem?_eq_getElem (complete_allowed hn hs v hv), Option.getD_some]
    exact List.getElem_mem _

/-- The probability of a complete case is the product of the entries of the tables that belong to it. -/
theorem complete_likely [Field α] [DecidableEq α] (sch : NSched α) {n : Net α} (hn : n.Valid) (hp : n.PoliciesOK)
    (hd : ∀ v ∈ n.stateVars, v.outcomes.Nodup) {s : Sample α} (hs : s.OK n) {ign : Bool}
    (hi : ign = true ∨ n.policies = []) :
    n.Likely sch (s.evidence n) ign (n.chanceTables.map (fun f => n.prob f (s.world n))).prod := by
  have hev := sample_evidence_ok hn hs
  obtain ⟨g, vs', h1, h2⟩ := query_mass_hidden sch hn hp hev ign (fun v hv h =>
    absurd rfl (h _ (List.mem_map.2 ⟨v, hv, rfl⟩)))
  have hact : n.active (s.evidence n) ign = [] := by
    rcases hi with rfl | hi
    · unfold Net.active
      rw [if_pos rfl, List.filter_eq_nil_iff]
      intro p hpm
      obtain ⟨i, v, e1, e2, e3, _⟩ := hp.decision p hpm
      have hv : v ∈ n.stateVars := mem_stateVars.2 ⟨List.mem_of_getElem? e1, by rw [e3]; decide⟩
      simp only [decide_eq_true_eq, not_forall, not_not]
      exact ⟨_, List.mem_map.2 ⟨v, hv, rfl⟩, e2⟩
    · unfold Net.active
      rw [hi]
      split_ifs <;> rfl
  have hm : n.mass (n.active (s.evidence n) ign) (n.Agrees (s.evidence n)) =
      (n.chanceTables.map (fun f => n.prob f (s.world n))).prod := by
    rw [hact]
    unfold Net.mass Net.total
    have ha := complete_allowed hn hs
    let t : World := fun g => if g ∈ n.stateVars.map NVar.name then s.world n g else 0
    have ht : ∀ v ∈ n.stateVars, t v.name = s.world n v.name := fun v hv => if_pos (List.mem_map_of_mem hv)
    rw [sumWorlds_single (t := t) n.stateVars (fun _ => 0) (stateVars_names hn) (fun v hv => by rw [ht v hv]; exact ha v hv)
      (fun g hg => if_neg hg)]
    · dsimp only
      rw [if_pos ((evidence_agrees hn hd hs t).2 ht), mul_one]
      unfold Net.joint
      rw [List.map_nil, List.prod_nil, mul_one]
      congr 1
      apply List.map_congr_left
      intro f hf
      refine prob_congr n f (fun g hg => ?_)
      unfold NFactor.dims at hg
      rw [List.mem_append, List.mem_singleton] at hg
      rcases hg with hg | rfl
      · obtain ⟨v, hv, rfl, hu⟩ := hn.parents f (mem_chanceTables.1 hf).1 (chanceTables_notTotal hn hf) g hg
        exact ht v (mem_stateVars.2 ⟨hv, hu⟩)
      · obtain ⟨v, hv, e, _⟩ := chanceTables_forVar hf
        rw [← e]
        exact ht v hv
    · intro w _ h0 hne
      dsimp only
      rw [if_neg, mul_zero]
      intro hag
      apply hne
      funext g
      by_cases hg : g ∈ n.stateVars.map NVar.name
      · obtain ⟨v, hv, rfl⟩ := List.mem_map.1 hg
        rw [ht v hv]
        exact (evidence_agrees hn hd hs w).1 hag v hv
      · rw [h0 g hg]
        exact (if_neg hg).symm
  refine ⟨[], g, { n with vs := some vs', names := n.nameTable }, ?_, by rw [h2, hm]⟩
  unfold Net.solveQuery
  rw [h1]
  rfl

/-! ## Trained tables -/

theorem known_range {n : Net α} (hn : n.Trainable) {s : Sample α} (hs : s.OK n) {v : NVar} (hv : v ∈ n.variables) {k : Nat}
    (hk : s.known n v.name = some k) : k < v.outcomes.length := by
  obtain ⟨i, hi⟩ := List.getElem?_of_mem hv
  unfold Sample.known at hk
  rw [position_at hn.names hi] at hk
  cases e : s.values[i]? with
  | none => rw [e] at hk; cases hk
  | some z =>
    rw [e] at hk
    dsimp only at hk
    have := hs.range i v z hi e
    split_ifs at hk with hz
    have := Option.some.inj hk
    omega

theorem inRow_dims {n : Net α} {s : Sample α} {f : NFactor α} {w : World} :
    s.InRow n f.dims w ↔ s.InRow n f.given w ∧ s.known n f.forVar = some (w f.forVar) := by
  unfold Sample.InRow NFactor.dims
  simp only [List.mem_append, List.mem_singleton]
  constructor
  · exact fun h => ⟨fun g hg => h g (.inl hg), h _ (.inr rfl)⟩
  · rintro ⟨ha, hb⟩ g (hg | rfl)
    · exact ha g hg
    · exact hb

theorem allowed_dims {n : Net α} (hn : n.Valid) {f : NFactor α} (hf : f ∈ n.chanceTables) {w : World} (hw : n.Allowed w) :
    ∀ g ∈ f.dims, w g < n.count g := by
  intro g hg
  unfold NFactor.dims at hg
  rw [List.mem_append, List.mem_singleton] at hg
  rcases hg with hg | rfl
  · obtain ⟨v, hv, rfl, hu⟩ := hn.parents f (mem_chanceTables.1 hf).1 (chanceTables_notTotal hn hf) g hg
    rw [count_eq hn hv]
    exact hw v (mem_stateVars.2 ⟨hv, hu⟩)
  · obtain ⟨v, hv, e, _⟩ := chanceTables_forVar hf
    rw [← e, count_eq hn (mem_stateVars.1 hv).1]
    exact hw v hv

theorem trained_same [Field α] {n : Net α} (ht : n.Trainable) {calls : List (TrainCall α)}
    (hs : ∀ s ∈ samplesOf calls, s.OK n) {t : Trainer α} {n1 n' : Net α} (h1 : trainRun n calls = .ok (t, n1))
    (h2 : updateNetwork t n1 = .ok (n', none)) : SameNetwork n n' := by
  obtain ⟨t', n1', r1, _, n'', e', r3, r4⟩ := C60_calls ht calls hs
  rw [h1] at r1
  injection r1 with r1
  injection r1 with ra rb
  subst ra
  subst rb
  rw [h2] at r3
  injection r3 with r3
  injection r3 with ra rb
  subst ra
  exact r4

/-- The rows of a trained chance table sum to one. -/
theorem trained_row [Field α] [CharZero α] {n : Net α} (hn : n.Valid) (ht : n.Trainable) {calls : List (TrainCall α)}
    (hs : ∀ s ∈ samplesOf calls, s.OK n) {t : Trainer α} {n1 n' : Net α} (h1 : trainRun n calls = .ok (t, n1))
    (h2 : updateNetwork t n1 = .ok (n', none)) {f : NFactor α} (hf : f ∈ n'.chanceTables) {w : World} (hw : n.Allowed w) :
    n'.rowSum f w = 1 := by
  have hsame := trained_same ht hs h1 h2
  have hn' := hsame.valid hn
  have hdim := allowed_dims hn' hf (hsame.allowed.2 hw)
  rw [hsame.count] at hdim
  obtain ⟨v, hv, hvn, _⟩ := chanceTables_forVar hf
  have hvm := (mem_stateVars.1 hv).1
  rw [hsame.vars] at hvm
  have hself : f.forVar ∉ f.given := by
    have := hn'.dims f (mem_chanceTables.1 hf).1
    unfold NFactor.dims at this
    rw [List.nodup_append] at this
    exact fun h => this.2.2 _ h _ (List.mem_singleton_self _) rfl
  have hgiven : ∀ (s : Sample α) k, s.InRow n f.given (w.set f.forVar k) ↔ s.InRow n f.given w := by
    intro s k
    unfold Sample.InRow
    refine forall₂_congr (fun g hg => ?_)
    rw [World.set_ne _ (fun e : g = f.forVar => hself (e ▸ hg))]
  have key := C60_relative_frequencies ht hs h1 h2 f hf
  have hpos := (key w hdim).2
  unfold Net.rowSum
  rw [hsame.count]
  have hterm : ∀ k ∈ range (n.count f.forVar), n'.entry f (w.set f.forVar k) =
      ((samplesOf calls).map (fun s => if s.InRow n f.given w ∧ s.known n f.forVar = some k then (1 : α) else 0)).sum /
        ((samplesOf calls).countP (fun s => s.InRow n f.given w ∧ s.known n f.forVar ≠ none) : α) := by
    intro k hk
    rw [(key (w.set f.forVar k) (fun g hg => by
      by_cases e : g = f.forVar
      · subst e; rw [World.set_eq]; exact Finset.mem_range.1 hk
      · rw [World.set_ne _ e]; exact hdim g hg)).1, sum_indicator]
    simp only [inRow_dims, hgiven, World.set_eq]
  rw [Finset.sum_congr rfl hterm, ← Finset.sum_div, div_eq_one_iff_eq (by exact_mod_cast hpos.ne'), ← sum_indicator]
  simp only [← Fin.sum_univ_fun_getElem]
  rw [Finset.sum_comm]
  refine Finset.sum_congr rfl (fun i _ => ?_)
  have hsi := hs _ (List.getElem_mem i.2)
  cases hk : ((samplesOf calls)[i.1]).known n f.forVar with
  | none => simp
  | some k =>
    have hlt : k < n.count f.forVar := by
      rw [← hvn] at hk ⊢
      rw [count_eq hn hvm]
      exact known_range ht hsi hvm hk
    by_cases hr : ((samplesOf calls)[i.1]).InRow n f.given w
    · rw [Finset.sum_eq_single k]
      · simp [hr]
      · intro j _ hj
        rw [if_neg]
        rintro ⟨_, e⟩
        exact hj (Option.some.inj e).symm
      · intro h
        exact absurd (Finset.mem_range.2 hlt) h
    · simp [hr]

/-- Complete samples: a row is the row of another sample exactly if the parents' outcomes are the same. -/
theorem complete_inRow {n : Net α} {s t : Sample α} {l : List String} (hl : ∀ g ∈ l, t.known n g ≠ none) :
    t.InRow n l (s.world n) ↔ l.map (t.world n) = l.map (s.world n) := by
  rw [List.map_inj_left]
  unfold Sample.InRow
  refine forall₂_congr (fun g hg => ?_)
  unfold Sample.world
  obtain ⟨k, hk⟩ := Option.ne_none_iff_exists'.1 (hl g hg)
  rw [hk]
  simp

/-- One table: the samples' entries of the trained table are positive, and those of any other are on average at most as
large. -/
theorem table_ratios [Field α] [LinearOrder α] [IsStrictOrderedRing α] {n : Net α} (hn : n.Valid) (ht : n.Trainable)
    {calls : List (TrainCall α)} (hs : ∀ s ∈ samplesOf calls, s.OK n) (hc : ∀ s ∈ samplesOf calls, s.Complete n)
    {t : Trainer α} {n1 n' : Net α} (h1 : trainRun n calls = .ok (t, n1)) (h2 : updateNetwork t n1 = .ok (n', none))
    {m : Net α} (hm : SameNetwork n m) {f f' : NFactor α} (hf : f ∈ n'.chanceTables) (hff : f'.forVar = f.forVar ∧ f'.given = f.given)
    (h0 : ∀ x ∈ f'.tab, 0 ≤ x) :
    (∀ s ∈ samplesOf calls, 0 < n'.prob f (s.world n)) ∧
    ((samplesOf calls).map (fun s => m.prob f' (s.world n) / n'.prob f (s.world n))).sum ≤
      ((samplesOf calls).map (fun s => m.prob f' (s.world n) / n'.prob f (s.world n))).length := by
  have hsame := trained_same ht hs h1 h2
  have hn' := hsame.valid hn
  have hdims : f'.dims = f.dims := by unfold NFactor.dims; rw [hff.1, hff.2]
  have hst : ∀ g ∈ f.dims, ∃ v ∈ n.stateVars, v.name = g := by
    intro g hg
    unfold NFactor.dims at hg
    rw [List.mem_append, List.mem_singleton] at hg
    rcases hg with hg | rfl
    · obtain ⟨v, hv, rfl, hu⟩ := hn'.parents f (mem_chanceTables.1 hf).1 (chanceTables_notTotal hn' hf) g hg
      exact ⟨v, by rw [← hsame.stateVars]; exact mem_stateVars.2 ⟨hv, hu⟩, rfl⟩
    · obtain ⟨v, hv, e, _⟩ := chanceTables_forVar hf
      exact ⟨v, by rw [← hsame.stateVars]; exact hv, e⟩
  have hgd : ∀ g ∈ f.given, g ∈ f.dims := fun g hg => List.mem_append_left _ hg
  have hvd : f.forVar ∈ f.dims := List.mem_append_right _ (List.mem_singleton_self _)
  have hkn : ∀ s ∈ samplesOf calls, ∀ g ∈ f.dims, s.known n g ≠ none := by
    intro s hsm g hg
    obtain ⟨v, hv, rfl⟩ := hst g hg
    exact hc s hsm v hv
  have hin : ∀ s ∈ samplesOf calls, ∀ g ∈ f.dims, s.world n g < n.count g := by
    intro s hsm g hg
    obtain ⟨v, hv, rfl⟩ := hst g hg
    rw [count_eq hn (mem_stateVars.1 hv).1]
    exact complete_allowed hn (hs s hsm) v hv
  -- the trained entries
  have hfreq : ∀ s ∈ samplesOf calls, n'.prob f (s.world n) =
      ((samplesOf calls).map (fun r => if f.given.map (r.world n) = f.given.map (s.world n) ∧
        r.world n f.forVar = s.world n f.forVar then (1 : α) else 0)).sum /
      ((samplesOf calls).map (fun r => if f.given.map (r.world n) = f.given.map (s.world n) then (1 : α) else 0)).sum ∧
      0 < n'.prob f (s.world n) := by
    intro s hsm
    have hrow := trained_row hn ht hs h1 h2 hf (complete_allowed hn (hs s hsm))
    obtain ⟨e1, e2⟩ := C60_relative_frequencies ht hs h1 h2 f hf (s.world n) (hin s hsm)
    have hp : n'.prob f (s.world n) = n'.entry f (s.world n) := by
      unfold Net.prob
      rw [hrow, if_neg one_ne_zero, div_one]
    rw [hp, e1]
    constructor
    · rw [← sum_indicator, ← sum_indicator]
      congr 2
      · apply List.map_congr_left
        intro r hr
        refine if_congr ?_ rfl rfl
        rw [inRow_dims, complete_inRow (fun g hg => hkn r hr g (hgd g hg))]
        refine and_congr Iff.rfl ?_
        obtain ⟨k, hk⟩ := Option.ne_none_iff_exists'.1 (hkn r hr f.forVar hvd)
        rw [hk, show r.world n f.forVar = k by unfold Sample.world; rw [hk]; rfl]
        simp
      · apply List.map_congr_left
        intro r hr
        refine if_congr ?_ rfl rfl
        rw [complete_inRow (fun g hg => hkn r hr g (hgd g hg))]
        exact and_iff_left (hkn r hr f.forVar hvd)
    · apply div_pos
      · rw [Nat.cast_pos, List.countP_pos_iff]
        refine ⟨s, hsm, ?_⟩
        rw [decide_eq_true_eq, complete_inRow (hkn s hsm)]
      · exact_mod_cast e2
  refine ⟨fun s hsm => (hfreq s hsm).2, ?_⟩
  -- the ratios
  have hnonneg : ∀ w, 0 ≤ m.prob f' w := prob_nonneg h0
  rw [List.length_map]
  have := frequencies_average (α := α) (c := n.count f.forVar) (fun i : Fin (samplesOf calls).length => f.given.map ((samplesOf calls)[i.1].world n))
    (fun i => (samplesOf calls)[i.1].world n f.forVar)
    (fun i k => m.prob f' (((samplesOf calls)[i.1].world n).set f.forVar k))
    (fun i => hin _ (List.getElem_mem i.2) _ hvd) (fun i k _ => hnonneg _) (fun i => by
      by_cases hr : m.rowSum f' ((samplesOf calls)[i.1].world n) = 0
      · have hz : ∀ k ∈ range (n.count f.forVar), m.prob f' (((samplesOf calls)[i.1].world n).set f.forVar k) = 0 := by
          intro k hk
          unfold Net.prob
          rw [← hff.1, rowSum_set, if_pos hr, hff.1]
          unfold Net.rowSum at hr
          rw [hff.1, hm.count] at hr
          exact (Finset.sum_eq_zero_iff_of_nonneg (fun k _ => getD_nonneg h0 _)).1 hr k hk
        rw [Finset.sum_eq_zero hz]
        exact zero_le_one
      · have := prob_one m f' hr
        rw [hff.1, hm.count] at this
        exact this.le)
    (fun i j hij => by
      funext k
      refine prob_congr m f' (fun g hg => ?_)
      rw [hdims] at hg
      by_cases e : g = f.forVar
      · subst e; rw [World.set_eq, World.set_eq]
      · rw [World.set_ne _ e, World.set_ne _ e]
        unfold NFactor.dims at hg
        rw [List.mem_append, List.mem_singleton] at hg
        exact (List.map_inj_left.1 hij) g (hg.resolve_right e))
  refine le_trans (le_of_eq ?_) this
  rw [← Fin.sum_univ_fun_getElem]
  refine Finset.sum_congr rfl (fun i _ => ?_)
  rw [(hfreq _ (List.getElem_mem i.2)).1]
  congr 1
  · refine prob_congr m f' (fun g _ => ?_)
    by_cases e : g = f.forVar
    · subst e; rw [World.set_eq]
    · rw [World.set_ne _ e]
  · rw [← Fin.sum_univ_fun_getElem, ← Fin.sum_univ_fun_getElem]

/-- One table: the samples' entries of the trained table have a product at least as large as those of any other. -/
theorem table_fit [Field α] [LinearOrder α] [IsStrictOrderedRing α] {n : Net α} (hn : n.Valid) (ht : n.Trainable)
    {calls : List (TrainCall α)} (hs : ∀ s ∈ samplesOf calls, s.OK n) (hc : ∀ s ∈ samplesOf calls, s.Complete n)
    {t : Trainer α} {n1 n' : Net α} (h1 : trainRun n calls = .ok (t, n1)) (h2 : updateNetwork t n1 = .ok (n', none))
    {m : Net α} (hm : SameNetwork n m) {f f' : NFactor α} (hf : f ∈ n'.chanceTables) (hff : f'.forVar = f.forVar ∧ f'.given = f.given)
    (h0 : ∀ x ∈ f'.tab, 0 ≤ x) :
    ((samplesOf calls).map (fun s => m.prob f' (s.world n))).prod ≤ ((samplesOf calls).map (fun s => n'.prob f (s.world n))).prod ∧
    0 < ((samplesOf calls).map (fun s => n'.prob f (s.world n))).prod := by
  obtain ⟨hpos, havg⟩ := table_ratios hn ht hs hc h1 h2 hm hf hff h0
  have hnonneg : ∀ w, 0 ≤ m.prob f' w := prob_nonneg h0
  have hq : 0 < ((samplesOf calls).map (fun s => n'.prob f (s.world n))).prod := by
    apply List.prod_pos
    intro x hx
    obtain ⟨s, hsm, rfl⟩ := List.mem_map.1 hx
    exact hpos s hsm
  refine ⟨?_, hq⟩
  have hle := prod_le_one_of_average _ _ rfl (fun x hx => by
    obtain ⟨s, hsm, rfl⟩ := List.mem_map.1 hx
    exact div_nonneg (hnonneg _) (hpos s hsm).le) havg
  have hmul : ((samplesOf calls).map (fun s => m.prob f' (s.world n))).prod =
      ((samplesOf calls).map (fun s => m.prob f' (s.world n) / n'.prob f (s.world n))).prod *
        ((samplesOf calls).map (fun s => n'.prob f (s.world n))).prod := by
    rw [← List.prod_map_mul]
    congr 1
    apply List.map_congr_left
    intro s hsm
    rw [div_mul_cancel₀ _ (hpos s hsm).ne']
  rw [hmul]
  exact mul_le_of_le_one_left hq.le hle

theorem prod_swap {β γ : Type} [CommMonoid α] (F : β → γ → α) (l : List β) (l' : List γ) :
    (l.map (fun b => (l'.map (fun c => F b c)).prod)).prod = (l'.map (fun c => (l.map (fun b => F b c)).prod)).prod := by
  induction l with
  | nil => simp
  | cons b l ih =>
    simp only [List.map_cons, List.prod_cons]
    rw [ih, List.prod_map_mul]

theorem tables_fit [Field α] [LinearOrder α] [IsStrictOrderedRing α] {β γ : Type} {R : β → γ → Prop} {F : β → α} {G : γ → α} {l : List β} {l' : List γ}
    (h : List.Forall₂ R l l') (hF : ∀ b ∈ l, ∀ c ∈ l', R b c → 0 ≤ G c ∧ G c ≤ F b ∧ 0 < F b) :
    (l'.map G).prod ≤ (l.map F).prod ∧ 0 < (l.map F).prod ∧ 0 ≤ (l'.map G).prod := by
  induction h with
  | nil => simp
  | cons hbc _ ih =>
    obtain ⟨i1, i2, i3⟩ := ih (fun b hb c hc => hF b (List.mem_cons_of_mem _ hb) c (List.mem_cons_of_mem _ hc))
    obtain ⟨a1, a2, a3⟩ := hF _ List.mem_cons_self _ List.mem_cons_self hbc
    simp only [List.map_cons, List.prod_cons]
    exact ⟨mul_le_mul a2 i1 i3 a3.le, mul_pos a3 i2, mul_nonneg a1 i3⟩

/-- **C112.** Trained tables fit the samples best. If in all samples the outcomes of all chance and decision variables
are known, then no other non-negative chance tables give the samples a higher probability than the trained ones do.
The probability of a sample is what `SolveQuery` returns for the sample as evidence and nothing asked for. -/
theorem C112_fit [Field α] [LinearOrder α] [IsStrictOrderedRing α] (sch : NSched α) {n : Net α} (hn : n.Valid)
    (hp : n.PoliciesOK) (ht : n.Trainable) (hd : ∀ v ∈ n.stateVars, v.outcomes.Nodup)
    {calls : List (TrainCall α)} (hs : ∀ s ∈ samplesOf calls, s.OK n) (hc : ∀ s ∈ samplesOf calls, s.Complete n)
    {t : Trainer α} {n1 n' : Net α} (h1 : trainRun n calls = .ok (t, n1)) (h2 : updateNetwork t n1 = .ok (n', none))
    {m : Net α} (hm : SameNetwork n m) (h0 : ∀ f ∈ m.chanceTables, ∀ x ∈ f.tab, 0 ≤ x)
    {ign : Bool} (hi : ign = true ∨ n.policies = []) :
    ∃ p p' : Sample α → α,
      (∀ s ∈ samplesOf calls, n'.Likely sch (s.evidence n) ign (p s) ∧ m.Likely sch (s.evidence n) ign (p' s)) ∧
      ((samplesOf calls).map p').prod ≤ ((samplesOf calls).map p).prod ∧ 0 < ((samplesOf calls).map p).prod := by
  have hsame := trained_same ht hs h1 h2
  refine ⟨fun s => (n'.chanceTables.map (fun f => n'.prob f (s.world n))).prod,
    fun s => (m.chanceTables.map (fun f => m.prob f (s.world n))).prod, fun s hsm => ⟨?_, ?_⟩, ?_⟩
  · have := complete_likely sch (hsame.valid hn) (hsame.policiesOK hp) (by rw [hsame.stateVars]; exact hd)
      (hsame.ok (hs s hsm)) (ign := ign) (by rw [hsame.policies]; exact hi)
    rw [sample_evidence hsame, show s.world n' = s.world n by unfold Sample.world; rw [hsame.known]] at this
    exact this
  · have := complete_likely sch (hm.valid hn) (hm.policiesOK hp) (by rw [hm.stateVars]; exact hd)
      (hm.ok (hs s hsm)) (ign := ign) (by rw [hm.policies]; exact hi)
    rw [sample_evidence hm, show s.world m = s.world n by unfold Sample.world; rw [hm.known]] at this
    exact this
  · rw [prod_swap (fun (s : Sample α) f => m.prob f (s.world n)), prod_swap (fun (s : Sample α) f => n'.prob f (s.world n))]
    have hrel : List.Forall₂ (fun f f' : NFactor α => f'.forVar = f.forVar ∧ f'.given = f.given)
        n'.chanceTables m.chanceTables := (hsame.symm.trans hm).chance
    obtain ⟨r1, r2, _⟩ := tables_fit (F := fun f => ((samplesOf calls).map (fun s => n'.prob f (s.world n))).prod)
      (G := fun f => ((samplesOf calls).map (fun s => m.prob f (s.world n))).prod) hrel (fun f hf f' hf' hff => by
        obtain ⟨a, b⟩ := table_fit hn ht hs hc h1 h2 hm hf hff (h0 f' hf')
        refine ⟨prod_nonneg' (fun x hx => ?_), a, b⟩
        obtain ⟨s, _, rfl⟩ := List.mem_map.1 hx
        exact prob_nonneg (h0 f' hf') _)
    exact ⟨r1, r2⟩

/-- The hypotheses can be met: four complete days, against the tables the umbrella network came with. -/
example (sch : NSched ℚ) : ∃ (n' : Net ℚ) (p p' : Sample ℚ → ℚ),
    (∀ s ∈ Ex.days.take 4, n'.Likely sch (s.evidence Ex.umb) true (p s) ∧ Ex.umb.Likely sch (s.evidence Ex.umb) true (p' s)) ∧
    ((Ex.days.take 4).map p').prod ≤ ((Ex.days.take 4).map p).prod ∧ 0 < ((Ex.days.take 4).map p).prod := by
  have htr : (trainOn Ex.umb (Ex.days.take 4)).map (fun r => r.2) = .ok none := by decide +kernel
  obtain ⟨⟨n', e⟩, h, hx⟩ := trainOn_map htr
  dsimp only at hx
  subst hx
  obtain ⟨t, h2, h3⟩ := trainOn_run h
  have h := C112_fit sch Ex.umb_valid (by constructor <;> simp [Ex.umb]) Ex.umb_trainable (by decide) (calls := (Ex.days.take 4).map .add)
    (by rw [samplesOf_adds]; exact fun s hs => Ex.days_ok s (List.mem_of_mem_take hs))
    (by rw [samplesOf_adds]; unfold Sample.Complete; decide +kernel) h2 h3 (SameNetwork.refl Ex.umb) (by decide +kernel) (ign := true) (.inl rfl)
  rw [samplesOf_adds] at h
  exact ⟨n', h⟩

end Bbn
