import Verif.Lemmas.Worlds
import Verif.Props.PolicyRepeat

/-!
# Weights of worlds in a network without cycles

Variables that lie above nothing of interest can be summed out; only their number of outcomes (for open decisions)
remains.
-/

set_option autoImplicit false

namespace Bbn

open Finset

variable {α : Type}

theorem prob_congr [Field α] [DecidableEq α] (n : Net α) (f : NFactor α) {w w' : World} (h : ∀ s ∈ f.dims, w s = w' s) :
    n.prob f w = n.prob f w' := by
  have h1 : n.rowSum f w = n.rowSum f w' := by
    unfold Net.rowSum
    refine Finset.sum_congr rfl (fun k _ => entry_congr n f (fun s hs => ?_))
    by_cases e : s = f.forVar
    · subst e; rw [World.set_eq, World.set_eq]
    · rw [World.set_ne _ e, World.set_ne _ e, h s hs]
  unfold Net.prob
  rw [h1, entry_congr n f h]

theorem prob_blind [Field α] [DecidableEq α] (n : Net α) (f : NFactor α) {s : String} (h : s ∉ f.dims) :
    Blind (n.prob f) s := by
  intro w k
  refine prob_congr n f (fun t ht => World.set_ne _ (fun e : t = s => h (e ▸ ht)) _)

theorem rowSum_set [AddCommMonoid α] (n : Net α) (f : NFactor α) (w : World) (k : Nat) :
    n.rowSum f (w.set f.forVar k) = n.rowSum f w := by
  unfold Net.rowSum
  simp only [World.set_set]

/-- A row of probabilities sums to one. -/
theorem prob_one [Field α] [DecidableEq α] (n : Net α) (f : NFactor α) {w : World} (h : n.rowSum f w ≠ 0) :
    ∑ k ∈ range (n.count f.forVar), n.prob f (w.set f.forVar k) = 1 := by
  unfold Net.prob
  simp only [rowSum_set, if_neg h]
  rw [← Finset.sum_div]
  exact div_self h

/-- What the tables say about one variable. -/
def Net.kernel [Field α] [DecidableEq α] (n : Net α) (v : NVar) (w : World) : α :=
  ((n.chanceTables.filter (fun f => f.forVar = v.name)).map (fun f => n.prob f w)).prod

theorem prod_pick [CommMonoid α] (x : α) (s : String) : ∀ l : List NVar, (l.map NVar.name).Nodup → s ∈ l.map NVar.name →
    (l.map (fun v => if s = v.name then x else 1)).prod = x := by
  intro l
  induction l with
  | nil => intro _ h; simp at h
  | cons v l ih =>
    intro hnd hm
    rw [List.map_cons, List.nodup_cons] at hnd
    rw [List.map_cons, List.prod_cons]
    by_cases e : s = v.name
    · rw [if_pos e, List.map_congr_left (g := fun _ => (1 : α)) (fun u hu => if_neg (fun e' => hnd.1 (by
        rw [← e, e']; exact List.mem_map_of_mem hu)))]
      simp
    · rw [if_neg e, one_mul]
      exact ih hnd.2 (by simpa [e] using hm)

theorem prod_group [CommMonoid α] {l : List NVar} (hnd : (l.map NVar.name).Nodup) (F : NFactor α → α) :
    ∀ L : List (NFactor α), (∀ f ∈ L, f.forVar ∈ l.map NVar.name) →
    (L.map F).prod = (l.map (fun v => ((L.filter (fun f => f.forVar = v.name)).map F).prod)).prod := by
  intro L
  induction L with
  | nil => intro _; simp
  | cons f L ih =>
    intro h
    rw [List.map_cons, List.prod_cons, ih (fun g hg => h g (by simp [hg])),
      ← prod_pick (F f) f.forVar l hnd (h f (by simp)), ← List.prod_map_mul]
    congr 1
    apply List.map_congr_left
    intro v _
    by_cases e : f.forVar = v.name
    · simp [e]
    · simp [e]

theorem mem_chanceTables {n : Net α} {f : NFactor α} :
    f ∈ n.chanceTables ↔ f ∈ n.factors ∧ n.isKind .chance f.forVar = true := by
  simp [Net.chanceTables]

theorem chanceTables_forVar {n : Net α} {f : NFactor α} (hf : f ∈ n.chanceTables) :
    ∃ v ∈ n.stateVars, v.name = f.forVar ∧ v.nodeType = .chance := by
  obtain ⟨v, hv, e, ht⟩ := isKind_mem.1 (mem_chanceTables.1 hf).2
  exact ⟨v, mem_stateVars.2 ⟨hv, by rw [ht]; decide⟩, e, ht⟩

theorem chanceTables_notTotal {n : Net α} (hn : n.Valid) {f : NFactor α} (hf : f ∈ n.chanceTables) :
    f.forVar ≠ n.totalName := by
  obtain ⟨v, hv, e, ht⟩ := chanceTables_forVar hf
  rw [← e]
  exact state_notTotal hn (mem_stateVars.1 hv).1 (mem_stateVars.1 hv).2

theorem joint_kernel [Field α] [DecidableEq α] {n : Net α} (hn : n.Valid) (w : World) :
    n.joint [] w = (n.stateVars.map (fun v => n.kernel v w)).prod := by
  unfold Net.joint
  rw [prod_group (stateVars_names hn) (fun f => n.prob f w) n.chanceTables (fun f hf => ?_)]
  · simp [Net.kernel]
  · obtain ⟨v, hv, e, _⟩ := chanceTables_forVar hf
    rw [← e]; exact List.mem_map_of_mem hv

theorem chanceTables_nodup {n : Net α} (hn : n.Valid) : (n.chanceTables.map NFactor.forVar).Nodup :=
  hn.tables.sublist (List.filter_sublist.map _)

theorem filter_single {β : Type} (g : β → String) : ∀ (L : List β), (L.map g).Nodup → ∀ b ∈ L,
    L.filter (fun x => g x = g b) = [b] := by
  intro L
  induction L with
  | nil => intro _ b hb; simp at hb
  | cons a L ih =>
    intro hnd b hb
    rw [List.map_cons, List.nodup_cons] at hnd
    rcases List.mem_cons.1 hb with rfl | hb
    · rw [List.filter_cons_of_pos (by simp), List.filter_eq_nil_iff.2]
      intro x hx
      simp only [decide_eq_true_eq]
      intro e
      exact hnd.1 (e ▸ List.mem_map_of_mem hx)
    · rw [List.filter_cons_of_neg, ih hnd.2 b hb]
      simp only [decide_eq_true_eq]
      intro e
      exact hnd.1 (e ▸ List.mem_map_of_mem hb)

theorem kernel_table [Field α] [DecidableEq α] {n : Net α} (hn : n.Valid) {f : NFactor α} (hf : f ∈ n.chanceTables)
    {v : NVar} (e : v.name = f.forVar) : n.kernel v = n.prob f := by
  funext w
  unfold Net.kernel
  rw [e, filter_single NFactor.forVar _ (chanceTables_nodup hn) f hf]
  simp

theorem kernel_none [Field α] [DecidableEq α] {n : Net α} {v : NVar} (h : n.isKind .chance v.name = false) :
    n.kernel v = fun _ => 1 := by
  funext w
  unfold Net.kernel
  rw [List.filter_eq_nil_iff.2]
  · rfl
  · intro f hf
    simp only [decide_eq_true_eq]
    intro e
    have := (mem_chanceTables.1 hf).2
    rw [e, h] at this
    simp at this

theorem kernel_blind [Field α] [DecidableEq α] {n : Net α} {v : NVar} {s : String} (hs : v.name ≠ s)
    (h : ∀ f ∈ n.chanceTables, f.forVar = v.name → s ∉ f.given) : Blind (n.kernel v) s := by
  refine Blind.prod (fun f hf => prob_blind n f ?_)
  simp only [List.mem_filter, decide_eq_true_eq] at hf
  simp only [NFactor.dims, List.mem_append, List.mem_singleton, not_or]
  exact ⟨h f hf.1 hf.2, fun e => hs (by rw [e, hf.2])⟩

/-- The number of ways open: an open decision counts with each of its outcomes. -/
def openCount [NatCast α] [One α] (v : NVar) : α := if v.nodeType = .chance then 1 else (v.outcomes.length : α)

theorem kernel_sum [Field α] [DecidableEq α] {n : Net α} (hn : n.Valid) (hr : n.Regular) {v : NVar} (hv : v ∈ n.stateVars)
    {w : World} (hw : n.Allowed w) : ∑ k ∈ range v.outcomes.length, n.kernel v (w.set v.name k) = openCount v := by
  have hv' := mem_stateVars.1 hv
  unfold openCount
  by_cases hc : v.nodeType = .chance
  · obtain ⟨f, hf, e⟩ := hn.hasTable v hv'.1 (by rw [hc]; decide)
    have hf' : f ∈ n.chanceTables := mem_chanceTables.2 ⟨hf, by rw [e]; exact (isKind_iff hn hv'.1 _).2 hc⟩
    rw [if_pos hc, kernel_table hn hf' e.symm, ← e, ← count_eq hn hv'.1, ← e]
    exact prob_one n f (hr f hf' w hw)
  · have : n.isKind .chance v.name = false := by
      rw [Bool.eq_false_iff, ne_eq, isKind_iff hn hv'.1]; exact hc
    rw [kernel_none this, if_neg hc]
    simp

theorem allowed_zero {n : Net α} (hn : n.Valid) : n.Allowed (fun _ => 0) :=
  fun v hv => (hn.outcomes v (mem_stateVars.1 hv).1).1

/-- Everything that is not kept can be summed out, if what is kept contains with a variable its parents, and `F` looks
only at what is kept. -/
theorem total_kept [Field α] [DecidableEq α] {n : Net α} (hn : n.Valid) (ha : n.Acyclic) (hr : n.Regular)
    (keep : String → Bool) (hup : ∀ f ∈ n.chanceTables, keep f.forVar = true → ∀ g ∈ f.given, keep g = true)
    (F : World → α) (hF : ∀ s, keep s = false → Blind F s) :
    n.total [] F = ((n.stateVars.filter (fun v => !keep v.name)).map openCount).prod *
      sumWorlds (n.stateVars.filter (fun v => keep v.name))
        (fun w => ((n.stateVars.filter (fun v => keep v.name)).map (fun v => n.kernel v w)).prod * F w) (fun _ => 0) := by
  obtain ⟨rank, hrank⟩ := ha
  set S := n.stateVars.filter (fun v => keep v.name) with hS
  set le : NVar → NVar → Bool := fun a b => decide (rank a.name ≤ rank b.name) with hle
  set bs := (n.stateVars.filter (fun v => !keep v.name)).mergeSort le with hbs
  have hbp : bs.Perm (n.stateVars.filter (fun v => !keep v.name)) := List.mergeSort_perm _ _
  have hperm : n.stateVars.Perm (S ++ bs) :=
    ((List.filter_append_perm (fun v => keep v.name) n.stateVars).symm).trans (List.Perm.append_left _ hbp.symm)
  have hnd : ((S ++ bs).map NVar.name).Nodup := (hperm.map NVar.name).nodup_iff.1 (stateVars_names hn)
  have hsort : bs.Pairwise (fun a b => le a b = true) := by
    refine List.pairwise_mergeSort ?_ ?_ _
    · intro a b c h1 h2; simp only [hle, decide_eq_true_eq] at *; omega
    · intro a b; simp only [hle, Bool.or_eq_true, decide_eq_true_eq]; omega
  have hmem : ∀ v, v ∈ bs ↔ v ∈ n.stateVars ∧ keep v.name = false := by
    intro v; rw [hbp.mem_iff]; simp
  unfold Net.total
  rw [sumWorlds_perm _ hperm _ (stateVars_names hn)]
  have e1 : (fun w => n.joint [] w * F w) = fun w => ((S ++ bs).map (fun v => n.kernel v w)).prod * F w := by
    funext w
    rw [joint_kernel hn, (hperm.map (fun v => n.kernel v w)).prod_eq]
  rw [e1, drop_barren n.kernel openCount F S _ bs hnd, (hbp.map _).prod_eq]
  · intro pre v post e u hu
    have hv : v ∈ bs := by rw [e]; simp
    rcases List.mem_append.1 hu with hu | hu
    · have hku : keep u.name = true := (List.mem_filter.1 hu).2
      refine kernel_blind (fun e' => ?_) (fun f hf hfu hg => ?_)
      · rw [e', ((hmem v).1 hv).2] at hku; simp at hku
      · have := hup f hf (by rw [hfu]; exact hku) _ hg
        rw [((hmem v).1 hv).2] at this; simp at this
    · have hrk : rank u.name ≤ rank v.name := by
        rw [e, List.pairwise_append] at hsort
        simpa [hle] using hsort.2.2 u hu v (by simp)
      refine kernel_blind (fun e' => ?_) (fun f hf hfu hg => ?_)
      · rw [e, List.map_append, List.map_append, List.nodup_append] at hnd
        exact (List.nodup_append.1 hnd.2.1).2.2 _ (List.mem_map_of_mem hu) _ (List.mem_map_of_mem (List.mem_cons_self ..)) e'
      · have := hrank f hf _ hg
        rw [hfu] at this
        omega
  · intro v hv
    exact hF _ ((hmem v).1 hv).2
  · intro v hv w' h1 _
    refine kernel_sum hn hr ((hmem v).1 hv).1 (fun u hu => ?_)
    rcases h1 u (hperm.subset hu) with h | h
    · exact h
    · rw [h]; exact allowed_zero hn u hu

end Bbn
