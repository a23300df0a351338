import Verif.Props.TrainFit
import Verif.Props.NetSameJoint

/-!
# The trained tables are the only ones that fit best (C162)
-/

set_option autoImplicit false

namespace Bbn

open Finset

variable {α : Type}

theorem all_one_of_prod [Field α] [LinearOrder α] [IsStrictOrderedRing α] {l : List α} (h0 : ∀ x ∈ l, 0 ≤ x)
    (h1 : ∀ x ∈ l, x ≤ 1) (hp : 1 ≤ l.prod) : ∀ x ∈ l, x = 1 := by
  intro x hx
  have hperm := (List.perm_cons_erase hx).prod_eq
  rw [List.prod_cons] at hperm
  have h2 := list_prod_le_one (l := l.erase x) (fun y hy => h0 y (List.mem_of_mem_erase hy)) (fun y hy => h1 y (List.mem_of_mem_erase hy))
  rw [hperm] at hp
  have h3 := mul_le_of_le_one_right (h0 x hx) h2
  exact le_antisymm (h1 x hx) (hp.trans h3)

/-- Numbers with average at most one have product one only if all are one. -/
theorem all_one_of_average [Field α] [LinearOrder α] [IsStrictOrderedRing α] {l : List α} (h0 : ∀ x ∈ l, 0 ≤ x)
    (hsum : l.sum ≤ l.length) (hp : 1 ≤ l.prod) : ∀ x ∈ l, x = 1 := by
  by_cases hall : ∀ x ∈ l, x ≤ 1
  · exact all_one_of_prod h0 hall hp
  exfalso
  push Not at hall
  obtain ⟨a, ha, ha1⟩ := hall
  have hpa := List.perm_cons_erase ha
  by_cases hb : ∀ x ∈ l.erase a, 1 ≤ x
  · have h2 := list_length_le_sum hb
    have h3 := hpa.sum_eq
    have h4 := hpa.length_eq
    rw [List.sum_cons] at h3
    rw [List.length_cons] at h4
    rw [h3, h4] at hsum
    push_cast at hsum
    linarith
  · push Not at hb
    obtain ⟨b, hb, hb1⟩ := hb
    have hp' := hpa.trans ((List.perm_cons_erase hb).cons a)
    generalize (l.erase a).erase b = r at hp'
    have hb0 : 0 ≤ b := h0 b (hp'.symm.subset (by simp))
    have hr0 : ∀ x ∈ r, 0 ≤ x := fun x hx => h0 x (hp'.symm.subset (by simp [hx]))
    have hlen := hp'.length_eq
    have hs := hp'.sum_eq
    have hpr := hp'.prod_eq
    rw [List.sum_cons, List.sum_cons] at hs
    rw [List.length_cons, List.length_cons] at hlen
    rw [List.prod_cons, List.prod_cons] at hpr
    have h5 := prod_le_one_of_average _ ((a + b - 1) :: r) rfl (by
      intro x hx
      rcases List.mem_cons.1 hx with rfl | hx
      · linarith
      · exact hr0 x hx) (by
      rw [List.sum_cons, List.length_cons]
      rw [hs, hlen] at hsum
      push_cast at hsum ⊢
      linarith)
    rw [List.prod_cons] at h5
    have h6 : a * b < a + b - 1 := by nlinarith [mul_pos (sub_pos.2 ha1) (sub_pos.2 hb1)]
    have h7 : 0 < r.prod := by
      rcases (list_prod_nonneg' hr0).lt_or_eq with h | h
      · exact h
      · rw [hpr, ← h, mul_zero, mul_zero] at hp
        exact absurd hp (not_le.2 zero_lt_one)
    have h8 := mul_lt_mul_of_pos_right h6 h7
    rw [hpr, ← mul_assoc] at hp
    linarith

section
variable [Field α] [LinearOrder α] [IsStrictOrderedRing α]

/-- One table: if the other table fits the samples as well, it has the same entries for all samples. -/
theorem table_seen {n : Net α} (hn : n.Valid) (ht : n.Trainable)
    {calls : List (TrainCall α)} (hs : ∀ s ∈ samplesOf calls, s.OK n) (hc : ∀ s ∈ samplesOf calls, s.Complete n)
    {t : Trainer α} {n1 n' : Net α} (h1 : trainRun n calls = .ok (t, n1)) (h2 : updateNetwork t n1 = .ok (n', none))
    {m : Net α} (hm : SameNetwork n m) {f f' : NFactor α} (hf : f ∈ n'.chanceTables) (hff : f'.forVar = f.forVar ∧ f'.given = f.given)
    (h0 : ∀ x ∈ f'.tab, 0 ≤ x)
    (hfit : ((samplesOf calls).map (fun s => n'.prob f (s.world n))).prod ≤ ((samplesOf calls).map (fun s => m.prob f' (s.world n))).prod) :
    ∀ s ∈ samplesOf calls, m.prob f' (s.world n) = n'.prob f (s.world n) := by
  obtain ⟨hpos, havg⟩ := table_ratios hn ht hs hc h1 h2 hm hf hff h0
  have hnonneg : ∀ w, 0 ≤ m.prob f' w := prob_nonneg h0
  have hq : 0 < ((samplesOf calls).map (fun s => n'.prob f (s.world n))).prod := by
    apply List.prod_pos
    intro x hx
    obtain ⟨s, hsm, rfl⟩ := List.mem_map.1 hx
    exact hpos s hsm
  have hmul : ((samplesOf calls).map (fun s => m.prob f' (s.world n))).prod =
      ((samplesOf calls).map (fun s => m.prob f' (s.world n) / n'.prob f (s.world n))).prod *
        ((samplesOf calls).map (fun s => n'.prob f (s.world n))).prod := by
    rw [← List.prod_map_mul]
    congr 1
    apply List.map_congr_left
    intro s hsm
    rw [div_mul_cancel₀ _ (hpos s hsm).ne']
  rw [hmul] at hfit
  have h3 := all_one_of_average (fun x hx => by
    obtain ⟨s, hsm, rfl⟩ := List.mem_map.1 hx
    exact div_nonneg (hnonneg _) (hpos s hsm).le) havg (by
      by_contra hlt
      rw [not_le] at hlt
      exact absurd hfit (not_le.2 (mul_lt_of_lt_one_left hq hlt)))
  intro s hsm
  exact (div_eq_one_iff_eq (hpos s hsm).ne').1 (h3 _ (List.mem_map.2 ⟨s, hsm, rfl⟩))

theorem prob_sum_le {m : Net α} {f : NFactor α} (h0 : ∀ x ∈ f.tab, 0 ≤ x) (w : World) :
    ∑ k ∈ range (m.count f.forVar), m.prob f (w.set f.forVar k) ≤ 1 := by
  by_cases hr : m.rowSum f w = 0
  · have hz : ∀ k ∈ range (m.count f.forVar), m.prob f (w.set f.forVar k) = 0 := by
      intro k hk
      unfold Net.prob
      rw [rowSum_set, if_pos hr]
      unfold Net.rowSum at hr
      exact (Finset.sum_eq_zero_iff_of_nonneg (fun k _ => getD_nonneg h0 _)).1 hr k hk
    rw [Finset.sum_eq_zero hz]
    exact zero_le_one
  · exact (prob_one m f hr).le

/-- One table: if the other table fits the samples as well, it has the same entries everywhere. -/
theorem table_unique {n : Net α} (hn : n.Valid) (ht : n.Trainable)
    {calls : List (TrainCall α)} (hs : ∀ s ∈ samplesOf calls, s.OK n) (hc : ∀ s ∈ samplesOf calls, s.Complete n)
    {t : Trainer α} {n1 n' : Net α} (h1 : trainRun n calls = .ok (t, n1)) (h2 : updateNetwork t n1 = .ok (n', none))
    {m : Net α} (hm : SameNetwork n m) {f f' : NFactor α} (hf : f ∈ n'.chanceTables) (hff : f'.forVar = f.forVar ∧ f'.given = f.given)
    (h0 : ∀ x ∈ f'.tab, 0 ≤ x)
    (hfit : ((samplesOf calls).map (fun s => n'.prob f (s.world n))).prod ≤ ((samplesOf calls).map (fun s => m.prob f' (s.world n))).prod)
    {w : World} (hw : n.Allowed w) : m.prob f' w = n'.prob f w := by
  have hseen := table_seen hn ht hs hc h1 h2 hm hf hff h0 hfit
  have hsame := trained_same ht hs h1 h2
  have hn' := hsame.valid hn
  have hdims : f'.dims = f.dims := by unfold NFactor.dims; rw [hff.1, hff.2]
  have hdim := allowed_dims hn' hf (hsame.allowed.2 hw)
  rw [hsame.count] at hdim
  have hrow : n'.rowSum f w = 1 := trained_row hn ht hs h1 h2 hf hw
  have hset : ∀ k ∈ range (n.count f.forVar), ∀ g ∈ f.dims, w.set f.forVar k g < n.count g := by
    intro k hk g hg
    by_cases e : g = f.forVar
    · subst e; rw [World.set_eq]; exact Finset.mem_range.1 hk
    · rw [World.set_ne _ e]; exact hdim g hg
  have hprob : ∀ k, n'.prob f (w.set f.forVar k) = n'.entry f (w.set f.forVar k) := by
    intro k
    unfold Net.prob
    rw [rowSum_set, hrow, if_neg one_ne_zero, div_one]
  -- where there are samples, the entries are the same; elsewhere the trained entry is zero
  have hle : ∀ k ∈ range (n.count f.forVar), n'.prob f (w.set f.forVar k) ≤ m.prob f' (w.set f.forVar k) := by
    intro k hk
    obtain ⟨e1, _⟩ := C60_relative_frequencies ht hs h1 h2 f hf (w.set f.forVar k) (hset k hk)
    rcases Nat.eq_zero_or_pos ((samplesOf calls).countP (fun s => s.InRow n f.dims (w.set f.forVar k))) with hz | hz
    · rw [hprob, e1, hz, Nat.cast_zero, zero_div]
      exact prob_nonneg h0 _
    · obtain ⟨s, hsm, hin⟩ := List.countP_pos_iff.1 hz
      rw [decide_eq_true_eq] at hin
      have heq : ∀ g ∈ f.dims, w.set f.forVar k g = s.world n g := by
        intro g hg
        unfold Sample.world
        rw [hin g hg]
        rfl
      rw [prob_congr n' f heq, prob_congr m f' (by rw [hdims]; exact heq), hseen s hsm]
  have hs1 : ∑ k ∈ range (n.count f.forVar), n'.prob f (w.set f.forVar k) = 1 := by
    have := prob_one n' f (w := w) (by rw [hrow]; exact one_ne_zero)
    rwa [hsame.count] at this
  have hs2 : ∑ k ∈ range (n.count f.forVar), m.prob f' (w.set f.forVar k) ≤ 1 := by
    have := prob_sum_le (m := m) h0 w
    rwa [hff.1, hm.count] at this
  have hall := (Finset.sum_eq_sum_iff_of_le hle).1 (le_antisymm (Finset.sum_le_sum hle) (by rw [hs1]; exact hs2))
  have hself : w.set f.forVar (w f.forVar) = w := by
    funext g
    by_cases e : g = f.forVar
    · subst e; rw [World.set_eq]
    · rw [World.set_ne _ e]
  have := hall (w f.forVar) (Finset.mem_range.2 (hdim _ (List.mem_append_right _ (List.mem_singleton_self _))))
  rw [hself] at this
  exact this.symm

/-- Products of factors of which each is at most its partner: if the products are the same, so are the factors. -/
theorem tables_equal {β γ : Type} {R : β → γ → Prop} {F : β → α} {G : γ → α} {l : List β} {l' : List γ}
    (h : List.Forall₂ R l l') (hF : ∀ b ∈ l, ∀ c ∈ l', R b c → 0 ≤ G c ∧ G c ≤ F b ∧ 0 < F b)
    (hfit : (l.map F).prod ≤ (l'.map G).prod) :
    List.Forall₂ (fun b c => R b c ∧ F b ≤ G c) l l' := by
  induction h with
  | nil => exact .nil
  | @cons b c l l' hbc hl ih =>
    have hF' : ∀ b ∈ l, ∀ c ∈ l', R b c → 0 ≤ G c ∧ G c ≤ F b ∧ 0 < F b :=
      fun b hb c hc => hF b (List.mem_cons_of_mem _ hb) c (List.mem_cons_of_mem _ hc)
    obtain ⟨i1, i2, i3⟩ := tables_fit hl hF'
    obtain ⟨a1, a2, a3⟩ := hF _ List.mem_cons_self _ List.mem_cons_self hbc
    simp only [List.map_cons, List.prod_cons] at hfit
    have h3 : F b ≤ G c := by
      by_contra hlt
      rw [not_le] at hlt
      have := (mul_le_mul_of_nonneg_left i1 a1).trans_lt (mul_lt_mul_of_pos_right hlt i2)
      linarith
    have h4 : (l.map F).prod ≤ (l'.map G).prod := by
      by_contra hlt
      rw [not_le] at hlt
      have := (mul_le_mul_of_nonneg_right a2 i3).trans_lt (mul_lt_mul_of_pos_left hlt a3)
      linarith
    exact .cons ⟨hbc, h3⟩ (ih hF' h4)

theorem forall₂_partner {β γ : Type} {R : β → γ → Prop} {l : List β} {l' : List γ} (h : List.Forall₂ R l l') {b : β}
    (hb : b ∈ l) : ∃ c ∈ l', R b c := by
  induction h with
  | nil => cases hb
  | cons hbc _ ih =>
    rcases List.mem_cons.1 hb with rfl | hb
    · exact ⟨_, List.mem_cons_self, hbc⟩
    · obtain ⟨c, hc, h⟩ := ih hb
      exact ⟨c, List.mem_cons_of_mem _ hc, h⟩

omit [LinearOrder α] [IsStrictOrderedRing α] in
theorem likely_same [DecidableEq α] {n : Net α} {sch : NSched α} {evidence : List (String × String)} {ign : Bool} {x y : α}
    (hx : n.Likely sch evidence ign x) (hy : n.Likely sch evidence ign y) : x = y := by
  obtain ⟨r, g, m, e1, e2⟩ := hx
  obtain ⟨r', g', m', e3, e4⟩ := hy
  rw [e1] at e3
  injection e3 with e3 _
  injection e3 with e3
  injection e3 with _ e3
  subst e3
  rw [e2] at e4
  exact List.head_eq_of_cons_eq e4

/-- **C162.** If in all samples the outcomes of all chance and decision variables are known, and other non-negative chance
tables give the samples a probability at least as high as the trained ones do, then the other tables give every outcome of
every variable the trained probability, for all outcomes of the parents. The probability of a sample is what `SolveQuery`
returns for the sample as evidence and nothing asked for. -/
theorem C162_tables (sch : NSched α) {n : Net α} (hn : n.Valid)
    (hp : n.PoliciesOK) (ht : n.Trainable) (hd : ∀ v ∈ n.stateVars, v.outcomes.Nodup)
    {calls : List (TrainCall α)} (hs : ∀ s ∈ samplesOf calls, s.OK n) (hc : ∀ s ∈ samplesOf calls, s.Complete n)
    {t : Trainer α} {n1 n' : Net α} (h1 : trainRun n calls = .ok (t, n1)) (h2 : updateNetwork t n1 = .ok (n', none))
    {m : Net α} (hm : SameNetwork n m) (h0 : ∀ f ∈ m.chanceTables, ∀ x ∈ f.tab, 0 ≤ x)
    {ign : Bool} (hi : ign = true ∨ n.policies = []) {p p' : Sample α → α}
    (hl : ∀ s ∈ samplesOf calls, n'.Likely sch (s.evidence n) ign (p s))
    (hl' : ∀ s ∈ samplesOf calls, m.Likely sch (s.evidence n) ign (p' s))
    (hfit : ((samplesOf calls).map p).prod ≤ ((samplesOf calls).map p').prod) : n'.SameChances m [] := by
  have hsame := trained_same ht hs h1 h2
  have e1 : (samplesOf calls).map p =
      (samplesOf calls).map (fun s => (n'.chanceTables.map (fun f => n'.prob f (s.world n))).prod) := by
    apply List.map_congr_left
    intro s hsm
    have := complete_likely sch (hsame.valid hn) (hsame.policiesOK hp) (by rw [hsame.stateVars]; exact hd)
      (hsame.ok (hs s hsm)) (ign := ign) (by rw [hsame.policies]; exact hi)
    rw [sample_evidence hsame, show s.world n' = s.world n by unfold Sample.world; rw [hsame.known]] at this
    exact likely_same (hl s hsm) this
  have e2 : (samplesOf calls).map p' =
      (samplesOf calls).map (fun s => (m.chanceTables.map (fun f => m.prob f (s.world n))).prod) := by
    apply List.map_congr_left
    intro s hsm
    have := complete_likely sch (hm.valid hn) (hm.policiesOK hp) (by rw [hm.stateVars]; exact hd)
      (hm.ok (hs s hsm)) (ign := ign) (by rw [hm.policies]; exact hi)
    rw [sample_evidence hm, show s.world m = s.world n by unfold Sample.world; rw [hm.known]] at this
    exact likely_same (hl' s hsm) this
  rw [e1, e2] at hfit
  have hfit' : (n'.chanceTables.map (fun f => ((samplesOf calls).map (fun s => n'.prob f (s.world n))).prod)).prod ≤
      (m.chanceTables.map (fun f => ((samplesOf calls).map (fun s => m.prob f (s.world n))).prod)).prod := by
    rw [← prod_swap (fun (s : Sample α) f => m.prob f (s.world n)), ← prod_swap (fun (s : Sample α) f => n'.prob f (s.world n))]
    exact hfit
  have hrel : List.Forall₂ (fun f f' : NFactor α => f'.forVar = f.forVar ∧ f'.given = f.given)
      n'.chanceTables m.chanceTables := (hsame.symm.trans hm).chance
  have hF : ∀ f ∈ n'.chanceTables, ∀ f' ∈ m.chanceTables, f'.forVar = f.forVar ∧ f'.given = f.given →
      0 ≤ ((samplesOf calls).map (fun s => m.prob f' (s.world n))).prod ∧
      ((samplesOf calls).map (fun s => m.prob f' (s.world n))).prod ≤ ((samplesOf calls).map (fun s => n'.prob f (s.world n))).prod ∧
      0 < ((samplesOf calls).map (fun s => n'.prob f (s.world n))).prod := by
    intro f hf f' hf' hff
    refine ⟨list_prod_nonneg' (fun x hx => ?_), table_fit hn ht hs hc h1 h2 hm hf hff (h0 f' hf')⟩
    obtain ⟨s, _, rfl⟩ := List.mem_map.1 hx
    exact prob_nonneg (h0 f' hf') _
  have heq : List.Forall₂ (fun f f' : NFactor α => (f'.forVar = f.forVar ∧ f'.given = f.given) ∧
      ((samplesOf calls).map (fun s => n'.prob f (s.world n))).prod ≤ ((samplesOf calls).map (fun s => m.prob f' (s.world n))).prod)
      n'.chanceTables m.chanceTables := by
    apply tables_equal hrel hF
    exact hfit'
  intro f hf f' hf' hfv _ w hw
  obtain ⟨g, hg, hfg, hle⟩ := forall₂_partner heq hf
  have hgf : g = f' := List.inj_on_of_nodup_map (hm.valid hn).tables (mem_chanceTables.1 hg).1 (mem_chanceTables.1 hf').1 (hfg.1.trans hfv.symm)
  subst hgf
  exact table_unique hn ht hs hc h1 h2 hm hf hfg (h0 g hg) hle (hsame.allowed.1 hw)

/-- **C162, the answers.** Tables that fit the samples as well as the trained ones give the same answers to all questions. -/
theorem C162_answers (sch sch1 sch2 : NSched α) {n : Net α} (hn : n.Valid)
    (hp : n.policies = []) (ht : n.Trainable) (hd : ∀ v ∈ n.stateVars, v.outcomes.Nodup)
    {calls : List (TrainCall α)} (hs : ∀ s ∈ samplesOf calls, s.OK n) (hc : ∀ s ∈ samplesOf calls, s.Complete n)
    {t : Trainer α} {n1 n' : Net α} (h1 : trainRun n calls = .ok (t, n1)) (h2 : updateNetwork t n1 = .ok (n', none))
    {m : Net α} (hm : SameNetwork n m) (h0 : ∀ f ∈ m.chanceTables, ∀ x ∈ f.tab, 0 ≤ x)
    {ign : Bool} {p p' : Sample α → α}
    (hl : ∀ s ∈ samplesOf calls, n'.Likely sch (s.evidence n) ign (p s))
    (hl' : ∀ s ∈ samplesOf calls, m.Likely sch (s.evidence n) ign (p' s))
    (hfit : ((samplesOf calls).map p).prod ≤ ((samplesOf calls).map p').prod)
    {evidence : List (String × String)} (hev : n.EvidenceOK evidence) {query : List String}
    (hq : ∀ q ∈ query, n.isKind .chance q = true ∧ q ∉ evidence.map Prod.fst) (ign1 ign2 : Bool)
    (possible : n'.mass [] (n'.Agrees evidence) ≠ 0) :
    ∃ r f k r' f' k', n'.solveQuery sch1 evidence query ign1 = (.ok (r, f), k) ∧
      m.solveQuery sch2 evidence query ign2 = (.ok (r', f'), k') ∧
      (∀ s, s ∈ r.map Prod.fst ↔ s ∈ query) ∧ ∀ q d, (q, d) ∈ r' ↔ (q, d) ∈ r := by
  have hsame := trained_same ht hs h1 h2
  have hpok : n.PoliciesOK := by constructor <;> simp [hp]
  have hch := C162_tables sch hn hpok ht hd hs hc h1 h2 hm h0 (.inr hp) hl hl' hfit
  refine C138_same_tables sch1 sch2 (hsame.valid hn) (hm.valid hn) (by rw [hsame.policies, hp]) (by rw [hm.policies, hp])
    (by unfold Net.SameVars; rw [hsame.vars, hm.vars]) hch ?_ (by rw [hsame.isKind]; exact hq) ign1 ign2 possible
  exact ⟨hev.1, by rw [hsame.vars]; exact hev.2⟩

end

namespace Ex

/-- The umbrella network after training with four complete days. -/
def umbTrained : Net ℚ :=
  match trainOn umb (days.take 4) with
  | .ok r => r.1
  | .error _ => umb

/-- The umbrella network with the numbers of days as tables. -/
def umbCounts : Net ℚ :=
  { umb with factors := [⟨"Weather", [], some [2, 2], [], 2⟩, ⟨"Forecast", ["Weather"], some [2, 0, 0, 2], [2], 2⟩,
    ⟨"Umbrella", ["Forecast"], none, [2], 2⟩,
    ⟨"Comfort", ["Weather", "Umbrella"], some [100, 20, 0, 70], [2, 2], 1⟩, ⟨"Effort", ["Umbrella"], some [0, -5], [2], 1⟩,
    ⟨"Total", ["Effort", "Comfort"], some [2, 1], [1, 1], 2⟩] }

theorem umbCounts_same : SameNetwork umb umbCounts := by
  refine ⟨rfl, rfl, fun p f hf => ?_⟩
  match p with
  | 0 => cases hf; exact ⟨_, rfl, rfl⟩
  | 1 => cases hf; exact ⟨_, rfl, rfl⟩
  | 2 => cases hf; exact ⟨_, rfl, rfl⟩
  | 3 => cases hf; exact ⟨_, rfl, rfl⟩
  | 4 => cases hf; exact ⟨_, rfl, rfl⟩
  | 5 => cases hf; exact ⟨_, rfl, rfl⟩
  | p + 6 => cases hf

theorem umbTrained_run : ∃ t, trainRun umb ((days.take 4).map .add) = .ok (t, umb) ∧
    updateNetwork t umb = .ok (umbTrained, none) := by
  have htr : (trainOn umb (days.take 4)).map (fun r => r.2) = .ok none := by decide +kernel
  obtain ⟨⟨n', e⟩, h, hx⟩ := trainOn_map htr
  dsimp only at hx
  subst hx
  have : umbTrained = n' := by unfold umbTrained; rw [h]
  rw [this]
  exact trainOn_run h

theorem four_ok : ∀ s ∈ samplesOf ((days.take 4).map TrainCall.add), s.OK umb := by
  rw [samplesOf_adds]; exact fun s hs => days_ok s (List.mem_of_mem_take hs)

theorem four_complete : ∀ s ∈ samplesOf ((days.take 4).map TrainCall.add), s.Complete umb := by
  rw [samplesOf_adds]; unfold Sample.Complete; decide +kernel

theorem umbTrained_same : SameNetwork umb umbTrained := by
  obtain ⟨t, h1, h2⟩ := umbTrained_run
  exact trained_same umb_trainable four_ok h1 h2

theorem four_likely (sch : NSched ℚ) {m : Net ℚ} (hm : SameNetwork umb m) : ∀ s ∈ samplesOf ((days.take 4).map TrainCall.add),
    m.Likely sch (s.evidence umb) false (m.chanceTables.map (fun f => m.prob f (s.world umb))).prod := by
  intro s hsm
  have := complete_likely sch (hm.valid umb_valid) (hm.policiesOK (by constructor <;> simp [umb]))
    (by rw [hm.stateVars]; decide) (hm.ok (four_ok s hsm)) (ign := false) (by rw [hm.policies]; exact .inr rfl)
  rw [sample_evidence hm, show s.world m = s.world umb by unfold Sample.world; rw [hm.known]] at this
  exact this

theorem four_fit : ((samplesOf ((days.take 4).map TrainCall.add)).map
      (fun s => (umbTrained.chanceTables.map (fun f => umbTrained.prob f (s.world umb))).prod)).prod ≤
    ((samplesOf ((days.take 4).map TrainCall.add)).map
      (fun s => (umbCounts.chanceTables.map (fun f => umbCounts.prob f (s.world umb))).prod)).prod := by
  decide +kernel

/-- The hypotheses of `C162_tables` are met: the numbers of days instead of their shares. -/
example (sch : NSched ℚ) : umbTrained.SameChances umbCounts [] := by
  obtain ⟨t, h1, h2⟩ := umbTrained_run
  exact C162_tables sch umb_valid (by constructor <;> simp [umb]) umb_trainable (by decide) four_ok four_complete h1 h2
    umbCounts_same (by decide +kernel) (ign := false) (.inr rfl) (four_likely sch umbTrained_same)
    (four_likely sch umbCounts_same) four_fit

/-- The hypotheses of `C162_answers` are met: the weather, given a good forecast. -/
example (sch sch1 sch2 : NSched ℚ) : ∃ r f k r' f' k',
    umbTrained.solveQuery sch1 [("Forecast", "good")] ["Weather"] false = (.ok (r, f), k) ∧
    umbCounts.solveQuery sch2 [("Forecast", "good")] ["Weather"] false = (.ok (r', f'), k') ∧
    (∀ s, s ∈ r.map Prod.fst ↔ s ∈ ["Weather"]) ∧ ∀ q d, (q, d) ∈ r' ↔ (q, d) ∈ r := by
  obtain ⟨t, h1, h2⟩ := umbTrained_run
  exact C162_answers sch sch1 sch2 umb_valid rfl umb_trainable (by decide) four_ok four_complete h1 h2
    umbCounts_same (by decide +kernel) (ign := false) (four_likely sch umbTrained_same)
    (four_likely sch umbCounts_same) four_fit ⟨by decide, by decide⟩ (by decide) false false (by decide +kernel)

end Ex

end Bbn
