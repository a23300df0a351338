import Verif.Lemmas.NetSolve

/-!
# The joint distribution in the factor of `SolveQuery`
-/

set_option autoImplicit false

namespace Bbn

open Finset

variable {α : Type}

/-- The assignment that takes the values of `σ` at the listed variables. -/
def pin (vs : List Var) (σ ρ : Assignment) : Assignment := vs.foldr (fun v a => a.upd v.id (σ v.id)) ρ

theorem pin_mem {vs : List Var} {σ ρ : Assignment} {v : Var} (h : v ∈ vs) : pin vs σ ρ v.id = σ v.id := by
  induction vs with
  | nil => simp at h
  | cons u vs ih =>
    simp only [pin, List.foldr_cons, Assignment.upd]
    split_ifs with e
    · rw [e]
    · rcases List.mem_cons.1 h with rfl | h
      · exact absurd rfl e
      · exact ih h

theorem sumOver_pin [AddCommMonoid α] {H : List Var} {es : List Evid} {J : Assignment → α} {σ : Assignment} :
    ∀ (L : List Var), (∀ v ∈ L, v.id ∉ H.map Var.id) → (∀ v ∈ L, ∀ e ∈ es, e.var.id ≠ v.id) → ∀ ρ,
    sumOver H (fun τ => J (plug (L.map (fun v => (⟨v, ((σ v.id : Nat) : Int)⟩ : Evid)) ++ es) τ)) ρ =
      sumOver H (fun τ => J (plug es τ)) (pin L σ ρ) := by
  intro L
  induction L generalizing J with
  | nil => intro _ _ ρ; rfl
  | cons u L ih =>
    intro h1 h2 ρ
    have hu := h1 u List.mem_cons_self
    simp only [List.map_cons, List.cons_append, plug_cons, Int.toNat_natCast, pin, List.foldr_cons]
    rw [sumOver_upd_out _ hu]
    have := ih (J := fun τ => J (τ.upd u.id (σ u.id))) (fun v hv => h1 v (List.mem_cons_of_mem _ hv))
      (fun v hv => h2 v (List.mem_cons_of_mem _ hv)) ρ
    rw [this]
    simp only [plug_upd (h2 u List.mem_cons_self)]
    rfl

/-- The entries of a query result, times a constant, are masses. -/
theorem joint_posterior [Field α] [CharZero α] [DecidableEq α] {n : Net α} (hn : n.Valid) (hp : n.PoliciesOK)
    {evidence l : List (String × String)} (hev : n.EvidenceOK evidence) (hl : l.Perm evidence) {ign : Bool}
    {pols : List (String × Factor α)} (hpols : pols.Perm (n.active evidence ign))
    {vs : Vs} {fs ps : List (Factor α)} {deps : List (Var × List Var)}
    (hS : Solver n pols vs fs ps deps) {query : List Var} {g : Factor α} (hg : g.WF)
    (hgv : ∀ v, v ∈ g.vars ↔ (∃ f ∈ probTables (fs ++ ps), v ∈ f.vars) ∧ (∀ e ∈ l.map n.solverEv, e.var.id ≠ v.id) ∧
        v ∉ hidden vs.variables deps (l.map n.solverEv) query)
    (hgval : ∀ σ, Fits σ g.vars → g.val σ = sumOver (hidden vs.variables deps (l.map n.solverEv) query)
      (fun τ => joint (probTables (fs ++ ps)) (plug (l.map n.solverEv) τ)) σ) :
    (∀ u ∈ g.vars, u ∈ n.stateSolver) ∧ ∃ C : α, C ≠ 0 ∧
      (∀ σ, Fits σ g.vars → n.mass (n.active evidence ign) (fun w => n.Agrees evidence w ∧
        ∀ v ∈ g.vars, n.ids w v.id = σ v.id) = C * g.val σ) ∧
      n.mass (n.active evidence ign) (n.Agrees evidence) = C * goSum g.data := by
  have hsub : ∀ p ∈ pols, p ∈ n.policies := fun p h => active_sub p (hpols.subset h)
  set es := l.map n.solverEv with hes
  set H := hidden vs.variables deps es query with hH
  set J := joint (probTables (fs ++ ps)) with hJ
  have hst := stateSolver_ids hn
  classical
  let p : Var → Bool := fun u => decide (∃ f ∈ probTables (fs ++ ps), u ∈ f.vars)
  have hp1 : ∀ f ∈ probTables (fs ++ ps), ∀ u ∈ f.vars, p u = true := by
    intro f hf u hu
    simp only [p, decide_eq_true_eq]
    exact ⟨f, hf, hu⟩
  have hHmem : ∀ u ∈ H, p u = true ∧ (∀ e ∈ es, e.var.id ≠ u.id) ∧ u ∈ vs.variables ∧ u ∈ n.stateSolver := by
    intro u hu
    have ho := hidden_occurs hn hp hl hpols hS query hu
    obtain ⟨f, hf, huf⟩ := ho
    simp only [hH, hidden, List.mem_filter, decide_eq_true_eq] at hu
    exact ⟨hp1 f hf u huf, hu.2.2.1, hu.1, probTables_state hn hS hf huf⟩
  have hHn : (H.map Var.id).Nodup := hS.problem.ids.sublist (List.filter_sublist.map _)
  have hgS : ∀ u ∈ g.vars, u ∈ n.stateSolver := by
    intro u hu
    obtain ⟨⟨f, hf, huf⟩, _⟩ := (hgv u).1 hu
    exact probTables_state hn hS hf huf
  have hgp : ∀ u ∈ g.vars, p u = true := by
    intro u hu
    obtain ⟨⟨f, hf, huf⟩, _⟩ := (hgv u).1 hu
    exact hp1 f hf u huf
  have hve : ∀ v ∈ g.vars, ∀ e ∈ es, e.var.id ≠ v.id := fun v hv => ((hgv v).1 hv).2.1
  have hgH : ∀ v ∈ g.vars, v.id ∉ H.map Var.id := by
    intro v hv h
    obtain ⟨y, hy, e⟩ := List.mem_map.1 h
    have : y = v := coherent_of_nodup hst y (hHmem y hy).2.2.2 v (hgS v hv) e
    exact ((hgv v).1 hv).2.2 (this ▸ hy)
  have hGH : ((g.vars ++ H).map Var.id).Nodup := by
    rw [List.map_append, List.nodup_append]
    refine ⟨hg.nodup, hHn, ?_⟩
    rintro a ha b hb rfl
    obtain ⟨x, hx, rfl⟩ := List.mem_map.1 ha
    exact hgH x hx hb
  have hperm0 : (n.stateSolver.filter (fun u => p u && decide (∀ e ∈ es, e.var.id ≠ u.id))).Perm (g.vars ++ H) := by
    rw [List.perm_ext_iff_of_nodup ((List.Nodup.of_map _ hst).filter _) (List.Nodup.of_map Var.id hGH)]
    intro u
    simp only [List.mem_filter, Bool.and_eq_true, decide_eq_true_eq, List.mem_append]
    constructor
    · rintro ⟨hu1, hu2, hu3⟩
      by_cases huH : u ∈ H
      · exact .inr huH
      · exact .inl ((hgv u).2 ⟨by simpa [p] using hu2, hu3, huH⟩)
    · rintro (hu | hu)
      · exact ⟨hgS u hu, hgp u hu, hve u hu⟩
      · have := hHmem u hu
        exact ⟨this.2.2.2, this.1, this.2.1⟩
  have hmass : ∀ (P : World → Prop) [DecidablePred P], n.mass (n.active evidence ign) P =
      n.total pols (fun w => if P w then 1 else 0) := by
    intro P _
    unfold Net.mass Net.total
    rw [joint_pols hpols]
  set C : α := (size (n.stateSolver.filter (fun u => !p u && decide (∀ e ∈ es, e.var.id ≠ u.id))) : α) with hC
  refine ⟨hgS, C, ?_, ?_, ?_⟩
  · rw [hC, Nat.cast_ne_zero]
    have : ∀ us : List Var, (∀ u ∈ us, 0 < u.outcomes) → size us ≠ 0 := by
      intro us
      induction us with
      | nil => intro _; simp [size]
      | cons u us ih =>
        intro h
        simp only [size]
        exact Nat.mul_ne_zero (Nat.pos_iff_ne_zero.1 (h u List.mem_cons_self))
          (ih (fun x hx => h x (List.mem_cons_of_mem _ hx)))
    apply this
    intro u hu
    obtain ⟨x, hx, rfl⟩ := List.mem_map.1 (List.mem_filter.1 hu).1
    obtain ⟨hx1, hx2⟩ := mem_stateVars.1 hx
    rw [(isVar_state hn hx1 hx2).outcomes hn, count_eq hn hx1]
    exact (hn.outcomes x hx1).1
  · intro σ hσ
    rw [hmass]
    set e0 : List Evid := g.vars.map (fun v => (⟨v, ((σ v.id : Nat) : Int)⟩ : Evid)) with he0
    rw [total_evidence hn hp hsub hS (es := e0 ++ es) (P := fun w => n.Agrees evidence w ∧ ∀ v ∈ g.vars, n.ids w v.id = σ v.id)
      (F := fun _ => 1) (G := fun _ => 1) (p := p)]
    · have hiff : ∀ u ∈ n.stateSolver, ((∀ e ∈ e0 ++ es, e.var.id ≠ u.id) ↔ u ∉ g.vars ∧ ∀ e ∈ es, e.var.id ≠ u.id) := by
        intro u hu
        simp only [he0, List.mem_append, List.mem_map]
        constructor
        · exact fun h => ⟨fun hm => h _ (.inl ⟨u, hm, rfl⟩) rfl, fun e he => h e (.inr he)⟩
        · rintro ⟨h1, h2⟩ e (⟨v, hv, rfl⟩ | he)
          · intro e
            exact h1 (coherent_of_nodup hst v (hgS v hv) u hu e ▸ hv)
          · exact h2 e he
      have f1 : n.stateSolver.filter (fun u => !p u && decide (∀ e ∈ e0 ++ es, e.var.id ≠ u.id)) =
          n.stateSolver.filter (fun u => !p u && decide (∀ e ∈ es, e.var.id ≠ u.id)) := by
        apply List.filter_congr
        intro u hu
        simp only [hiff u hu]
        by_cases hug : u ∈ g.vars
        · simp [hgp u hug]
        · simp [hug]
      have f2 : (n.stateSolver.filter (fun u => p u && decide (∀ e ∈ e0 ++ es, e.var.id ≠ u.id))).Perm H := by
        have h1 : n.stateSolver.filter (fun u => p u && decide (∀ e ∈ e0 ++ es, e.var.id ≠ u.id)) =
            (n.stateSolver.filter (fun u => p u && decide (∀ e ∈ es, e.var.id ≠ u.id))).filter (fun u => decide (u ∉ g.vars)) := by
          rw [List.filter_filter]
          apply List.filter_congr
          intro u hu
          rw [Bool.eq_iff_iff]
          simp only [Bool.and_eq_true, decide_eq_true_eq, hiff u hu]
          tauto
        rw [h1]
        refine (hperm0.filter _).trans ?_
        rw [List.filter_append, List.filter_eq_nil_iff.2, List.nil_append, List.filter_eq_self.2]
        · intro u hu
          simp only [decide_eq_true_eq]
          exact fun hm => hgH u hm (List.mem_map_of_mem hu)
        · intro u hu
          simp [hu]
      rw [f1]
      congr 1
      simp only [mul_one]
      rw [sumOver_perm f2 (hst.sublist (List.filter_sublist.map _)), sumOver_pin g.vars hgH hve, ← hgval]
      · unfold Factor.val
        congr 2
        unfold tupleOf
        apply List.map_congr_left
        intro v hv
        exact pin_mem hv
      · intro v hv
        rw [pin_mem hv]
        exact hσ v hv
    · intro e he
      rcases List.mem_append.1 he with he | he
      · obtain ⟨v, hv, rfl⟩ := List.mem_map.1 he
        exact ⟨hgS v hv, by simpa using hσ v hv⟩
      · exact ev_state hn hev hl e he
    · rw [List.map_append, List.map_append, List.nodup_append]
      refine ⟨?_, ev_nodup hn hev hl, ?_⟩
      · simp only [he0, List.map_map]
        exact hg.nodup
      · rintro a ha b hb rfl
        simp only [he0, List.map_map] at ha
        obtain ⟨x, hx, rfl⟩ := List.mem_map.1 ha
        obtain ⟨y, hy, e⟩ := List.mem_map.1 hb
        obtain ⟨z, hz, rfl⟩ := List.mem_map.1 hy
        exact hve x hx z hz e
    · intro w
      rw [List.forall_mem_append, ← ev_agrees hn hev hl w, and_comm]
      simp [he0]
    · intro _ _ _; rfl
    · exact hp1
    · intro _ _ _ _ _; rfl
  · rw [hmass, total_evidence hn hp hsub hS (es := es) (G := fun _ => 1) (p := p) (ev_state hn hev hl)
      (ev_nodup hn hev hl) (ev_agrees hn hev hl) (fun _ _ _ => rfl) hp1 (fun _ _ _ _ _ => rfl),
      sumOver_perm hperm0 (hst.sublist (List.filter_sublist.map _)), sumOver_append]
    congr 1
    simp only [mul_one]
    rw [goSum_data g hg (fun _ => 0)]
    exact sumOver_congr (fun τ _ h => (hgval τ h).symm) hg.nodup

end Bbn
