import Verif.Props.TrainBatch

/-!
# What training does to the weights of the utilities (C77)
-/

set_option autoImplicit false

namespace Bbn

variable {α : Type}

theorem rowMajor_first (c : String → Nat) (w : World) (l : List String) (h : ∀ g ∈ l, w g = 0) :
    rowMajor (l.map (fun g => (c g, w g))) = 0 := by
  induction l with
  | nil => rfl
  | cons g l ih =>
    rw [List.map_cons, rowMajor, h g (by simp), ih (fun x hx => h x (by simp [hx])), Nat.zero_mul]

/-- **C77, what is true.** Training replaces the weights: the utility that the total-utility node lists first gets half of
the average of the values given for the node itself as weight, all others get weight zero.
(The parents of the node must be utility variables.) -/
theorem C77_replaced_partial [Field α] {n : Net α} (hn : n.Valid) (ht : n.Trainable) {i : Nat} (hT : n.totalUtility = some i)
    (hpar : ∀ f ∈ n.factors, f.forVar = n.totalName → ∀ g ∈ f.given, n.isKind .utility g = true)
    {calls : List (TrainCall α)} (hs : ∀ s ∈ samplesOf calls, s.OK n)
    {t : Trainer α} {n1 n' : Net α} (h1 : trainRun n calls = .ok (t, n1)) (h2 : updateNetwork t n1 = .ok (n', none)) :
    ∃ f ∈ n.factors, f.forVar = n.totalName ∧ ∀ u ∈ n.utilityVars, n'.weight u.name =
      if f.given.head? = some u.name then (gainsIn n (samplesOf calls) n.totalName f.given (fun _ => 0)).sum /
        ((2 * (gainsIn n (samplesOf calls) n.totalName f.given (fun _ => 0)).length : Nat) : α) else 0 := by
  obtain ⟨v, j, f, hv, hvu, hj, hf, hfv, hlen, hlist⟩ := hn.weights i hT
  have hvm := List.mem_of_getElem? hv
  have hfm := List.mem_of_getElem? hf
  have htn : n.totalName = v.name := Net.totalName_eq hT hv
  have hsame := trained_same ht hs h1 h2
  have hn' := hsame.valid hn
  refine ⟨f, hfm, hfv.trans htn.symm, ?_⟩
  intro u hu
  simp only [Net.utilityVars, List.mem_filter, decide_eq_true_eq] at hu
  have hug : u.name ∈ f.given := hlist u hu.1 hu.2.1 (by rw [← htn]; exact hu.2.2)
  obtain ⟨tb, hf', htb⟩ := hsame.2.2 j f hf
  have hfm' := List.mem_of_getElem? hf'
  have hidx : f.given.idxOf u.name < f.given.length := List.idxOf_lt_length_of_mem hug
  have hself : f.forVar ∉ f.given := by
    have := hn.dims f hfm
    unfold NFactor.dims at this
    rw [List.nodup_append] at this
    exact fun h => this.2.2 _ h _ (List.mem_singleton_self _) rfl
  have hfind : n'.factors.find? (fun g => decide (g.forVar = n'.totalName)) = some { f with table := tb } := by
    have hex : ∃ g ∈ n'.factors, decide (g.forVar = n'.totalName) = true :=
      ⟨_, hfm', by rw [decide_eq_true_eq, hsame.totalName, htn]; exact hfv⟩
    obtain ⟨g, hg⟩ := Option.isSome_iff_exists.1 (List.find?_isSome.2 hex)
    have h3 := List.find?_some hg
    rw [decide_eq_true_eq, hsame.totalName, htn] at h3
    rw [hg]
    congr 1
    exact List.inj_on_of_nodup_map hn'.tables (List.mem_of_find?_eq_some hg) hfm' (h3.trans hfv.symm)
  let w : World := fun g => if g = f.forVar then f.given.idxOf u.name else 0
  have hwg : ∀ g ∈ f.given, w g = 0 := fun g hg => if_neg (fun e : g = f.forVar => hself (e ▸ hg))
  have hwf : w f.forVar = f.given.idxOf u.name := if_pos rfl
  have hentry : n'.weight u.name = n'.entry { f with table := tb } w := by
    unfold Net.weight
    rw [show n'.totalUtility = n.totalUtility by rw [hsame.1], hT]
    dsimp only
    rw [hfind]
    unfold Net.entry NFactor.dims
    dsimp only [Option.map_some, Option.getD_some]
    rw [List.map_append, List.map_singleton, rowMajor_snoc, rowMajor_first _ _ _ hwg, Nat.zero_mul, Nat.zero_add]
    dsimp only
    rw [hwf]
  have hone : ∀ g ∈ f.given, n.count g = 1 := by
    intro g hg
    obtain ⟨x, hx, rfl⟩ := ht.parents v hvm f hfm hfv g hg
    rw [count_eq hn hx]
    exact hn.single x hx ((isKind_iff hn hx _).1 (hpar f hfm (hfv.trans htn.symm) _ hg))
      (fun e => hself (by rw [hfv, ← htn, ← e]; exact hg))
  have hsize : f.tab.length = n.count v.name := by
    rw [ht.size v hvm (by rw [hvu]; decide) f hfm hfv]
    unfold NFactor.dims
    rw [List.map_append, List.prod_append, List.prod_eq_one (l := f.given.map n.count), hfv]
    · simp
    · intro x hx
      obtain ⟨g, hg, rfl⟩ := List.mem_map.1 hx
      exact hone g hg
  have hdim : ∀ g ∈ f.dims, w g < n.count g := by
    intro g hg
    unfold NFactor.dims at hg
    rw [List.mem_append, List.mem_singleton] at hg
    rcases hg with hg | rfl
    · rw [hwg g hg, hone g hg]; exact Nat.one_pos
    · rw [hwf, hfv, ← hsize]; omega
  have hrow : ∀ s : Sample α, s.InRow n f.given w ↔ s.InRow n f.given (fun _ => 0) := by
    intro s
    unfold Sample.InRow
    exact forall₂_congr (fun g hg => by rw [hwg g hg])
  have hkind : n.isKind .utility f.forVar = true := by rw [hfv]; exact (isKind_iff hn hvm _).2 hvu
  have key := C61_partial ht hs h1 h2 _ hfm' hkind w hdim
  dsimp only at key
  simp only [hrow] at key
  rw [hentry, key, hwf, hfv, ← htn]
  have hhead : f.given.idxOf u.name = 0 ↔ f.given.head? = some u.name := by
    cases hg : f.given with
    | nil => rw [hg] at hug; cases hug
    | cons g l =>
      by_cases e : g = u.name <;> simp [e]
  by_cases h0 : f.given.head? = some u.name
  · rw [if_pos (hhead.2 h0), if_pos h0]; rfl
  · rw [if_neg (fun h => h0 (hhead.1 h)), if_neg h0, zero_div]

namespace Ex

/-- The hypotheses of `C77_replaced_partial` are met; the weights 2 of the effort and 1 of the comfort become 1/2 and 0. -/
example : ∃ n' f, trainOn umb days = .ok (n', none) ∧ f ∈ umb.factors ∧ f.forVar = "Total" ∧
    ∀ u ∈ umb.utilityVars, n'.weight u.name =
      if f.given.head? = some u.name then (gainsIn umb days "Total" f.given (fun _ => 0)).sum /
        ((2 * (gainsIn umb days "Total" f.given (fun _ => 0)).length : Nat) : ℚ) else 0 := by
  have htr : (trainOn umb days).map (fun r => r.2) = .ok none := by decide +kernel
  obtain ⟨⟨n', e⟩, h, hx⟩ := trainOn_map htr
  dsimp only at hx
  subst hx
  obtain ⟨t, h1, h2⟩ := trainOn_run h
  obtain ⟨f, hf, e, hw⟩ := C77_replaced_partial umb_valid umb_trainable (i := 3) rfl (by decide)
    (by rw [samplesOf_adds]; exact days_ok) h1 h2
  rw [samplesOf_adds] at hw
  exact ⟨n', f, h, hf, e, hw⟩

end Ex

end Bbn
