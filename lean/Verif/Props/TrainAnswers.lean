import Verif.Props.NetSameAnswers

/-!
# C164: what the trained and solved network answers
-/

set_option autoImplicit false

namespace Bbn

open Finset

variable {α : Type} [Field α] [LinearOrder α] [IsStrictOrderedRing α]

/-- **C164, answers.** Under the hypotheses of `C164_decisions`, after solving both: with the same evidence (policies not ignored,
or only chance variables observed) the trained network gives the same probability of the evidence as the network that the
samples follow, and half of its total utility; and if the evidence is possible, the same distribution of all other
variables. -/
theorem C164_answers (sch sch' : NSched α) {n : Net α} (hn : n.Valid) (ht : n.Trainable) (hT : n.totalUtility = none)
    (hsv : n.Solvable) (ho : n.Ordered n.decisions) (hmat : ∀ d ∈ n.decisions, n.Matters [d] d)
    {calls : List (TrainCall α)} (hs : ∀ s ∈ samplesOf calls, s.OK n) (hc : ∀ s ∈ samplesOf calls, s.Complete n)
    {t : Trainer α} {n1 n' : Net α} (h1 : trainRun n calls = .ok (t, n1)) (h2 : updateNetwork t n1 = .ok (n', none))
    {m : Net α} (hm : SameNetwork n m) (ha : m.Acyclic) (hr : m.Regular)
    (hnn : ∀ f ∈ m.chanceTables, ∀ x ∈ f.tab, 0 ≤ x) {q : World → α}
    (hq : ∀ v ∈ n.variables, v.nodeType = .chance → ∀ w k, q (w.set v.name k) = q w)
    (follow : ∀ w, n.Allowed w → ((samplesOf calls).countP (fun s => s.Is n w) : α) = q w * m.joint [] w)
    (gains : ∀ f ∈ n.factors, n.isKind .utility f.forVar = true → ∀ w, n.Allowed w →
      gainsIn n (samplesOf calls) f.forVar f.given w ≠ [] ∧
      (gainsIn n (samplesOf calls) f.forVar f.given w).sum =
        (gainsIn n (samplesOf calls) f.forVar f.given w).length * m.utilityIn f.forVar w) :
    ∃ tables k tables' k', m.solvePolicies sch true = (.ok tables, k) ∧ n'.solvePolicies sch' true = (.ok tables', k') ∧
      ∀ s₁ s₂ s₁' s₂' evidence ign, n.EvidenceOK evidence → (ign = false ∨ ∀ e ∈ evidence, n.isKind .chance e.1 = true) →
        ∃ p x, k.Likely s₁ evidence ign p ∧ k.Worth s₂ evidence "" ign x ∧
          k'.Likely s₁' evidence ign p ∧ k'.Worth s₂' evidence "" ign (1 / 2 * x) ∧
          (p ≠ 0 → ∀ query : List String,
            (∀ q ∈ query, (∃ v ∈ n.variables, v.name = q ∧ v.nodeType ≠ .utility) ∧ ∀ e ∈ evidence, e.1 ≠ q) →
            ∃ r f l r' f' l', k.solveQuery s₂ evidence query ign = (.ok (r, f), l) ∧
              k'.solveQuery s₂' evidence query ign = (.ok (r', f'), l') ∧
              (∀ s, s ∈ r.map Prod.fst ↔ s ∈ query) ∧ (∀ s, s ∈ r'.map Prod.fst ↔ s ∈ query) ∧
              ∀ q ∈ query, ∃ d, mapGet r q = some d ∧ mapGet r' q = some d) := by
  have hmn := hm.symm.trans (trained_same ht hs h1 h2)
  have hmm : ∀ d ∈ m.decisions, m.Matters [d] d := fun d hd => hm.matters (hmat d (by rw [← hm.decisions]; exact hd))
  have hch := C163_tables hn ht hs hc h1 h2 hm ha hr hq follow
  have hprod : ∀ w, m.Allowed w → (n'.chanceTables.map (fun f => n'.prob f w)).prod =
      1 * (m.chanceTables.map (fun f => m.prob f w)).prod := by
    intro w hw
    rw [one_mul]
    have hrel : List.Forall₂ (fun f f' : NFactor α => n'.prob f' w = m.prob f w) m.chanceTables n'.chanceTables := by
      have h := hmn.chance
      rw [List.forall₂_iff_get] at h ⊢
      refine ⟨h.1, fun i a b => ?_⟩
      exact hch _ (List.get_mem _ _) _ (List.get_mem _ _) (h.2 i a b).1 (by simp) w hw
    exact forall₂_prod hrel
  have hhalf : ∀ w, m.Allowed w → n'.totalIn w = 1 / 2 * m.totalIn w + 0 := fun w hw => by
    rw [C164_half hn ht hT hs h1 h2 hm gains w (hm.allowed.1 hw), add_zero]
  have hev : ∀ {ev}, n.EvidenceOK ev → m.EvidenceOK ev := fun h => ⟨h.keys, by rw [hm.vars]; exact h.known⟩
  have hkind : ∀ t s, m.isKind t s = n.isKind t s := by intro t s; unfold Net.isKind; rw [hm.vars]
  obtain ⟨tables, k, tables', k', r1, r2, r3⟩ := C166_answers sch sch' (hm.valid hn) (hmn.valid (hm.valid hn)) (hm.solvable hsv)
    (hmn.solvable (hm.solvable hsv)) (by unfold Net.SameVars; rw [hmn.vars]) hmn.info
    (by rw [hm.decisions]; exact hm.ordered ho) (fun d hd => ⟨hmm d hd, hmn.matters (hmm d hd)⟩)
    hnn (trained_nonneg hn ht hs h1 h2) (a := 1 / 2) (b := 0) (c := 1) (by norm_num) one_pos (.inl rfl) hprod hhalf
  obtain ⟨_, _, _, _, q1, q2, q3⟩ := C166_posterior sch sch' (hm.valid hn) (hmn.valid (hm.valid hn)) (hm.solvable hsv)
    (hmn.solvable (hm.solvable hsv)) (by unfold Net.SameVars; rw [hmn.vars]) hmn.info
    (by rw [hm.decisions]; exact hm.ordered ho) (fun d hd => ⟨hmm d hd, hmn.matters (hmm d hd)⟩)
    hnn (trained_nonneg hn ht hs h1 h2) (a := 1 / 2) (b := 0) (c := 1) (by norm_num) one_pos (.inl rfl) hprod hhalf
  rw [r1] at q1
  cases q1
  rw [r2] at q2
  cases q2
  refine ⟨tables, k, tables', k', r1, r2, fun s₁ s₂ s₁' s₂' evidence ign he hig => ?_⟩
  obtain ⟨p, x, x1, x2, x3, x4⟩ := r3 s₁ s₂ s₁' s₂' evidence ign (hev he)
    (hig.imp_right (fun h e he => by rw [hkind]; exact h e he))
  refine ⟨p, x, x1, x2, by simpa only [one_mul] using x3, by simpa only [one_mul, zero_mul, add_zero] using x4, fun hp query hqq => ?_⟩
  exact q3 s₁ s₂ s₂' evidence ign p (hev he) (hig.imp_right (fun h e he => by rw [hkind]; exact h e he)) x1 hp query
    (by rw [hm.vars]; exact hqq)

open Ex in
/-- The hypotheses of `C164_answers` are met by the letters; the evidence is that the letter was filed to the left. -/
example (sch sch' : NSched ℚ) : ∃ n', trainOn letter mails = .ok (n', none) ∧
    ∃ tables k tables' k', letterTrue.solvePolicies sch true = (.ok tables, k) ∧ n'.solvePolicies sch' true = (.ok tables', k') ∧
      ∀ s₁ s₂ s₁' s₂', ∃ p x, k.Likely s₁ [("File", "left")] false p ∧ k.Worth s₂ [("File", "left")] "" false x ∧
        k'.Likely s₁' [("File", "left")] false p ∧ k'.Worth s₂' [("File", "left")] "" false (1 / 2 * x) := by
  have htr : (trainOn letter mails).map (fun r => r.2) = .ok none := by decide +kernel
  obtain ⟨⟨n', e⟩, h, hx⟩ := trainOn_map htr
  dsimp only at hx
  subst hx
  obtain ⟨t, h1, h2⟩ := trainOn_run h
  obtain ⟨tables, k, tables', k', r1, r2, r3⟩ := C164_answers sch sch' letter_valid letter_trainable rfl letter_solvable letter_ordered
    (fun d hd => letter_matters d hd) mails_ok mails_complete h1 h2 letterTrue_same letterTrue_acyclic letterTrue_regular
    (by decide +kernel) (fun _ _ _ _ _ => rfl) mails_follow mails_gains
  refine ⟨n', h, tables, k, tables', k', r1, r2, fun s₁ s₂ s₁' s₂' => ?_⟩
  obtain ⟨p, x, x1, x2, x3, x4, -⟩ := r3 s₁ s₂ s₁' s₂' [("File", "left")] false ⟨by decide, by decide⟩ (.inl rfl)
  exact ⟨p, x, x1, x2, x3, x4⟩

end Bbn
