import Verif.Lemmas.NetMass

/-!
# The structure of a network shows in its answers

A variable with observed parents has the distribution in its table, whatever else is observed above or beside it.
-/

set_option autoImplicit false

namespace Bbn

open Finset

variable {α : Type}

theorem below_rank {n : Net α} {rank : String → Nat} (h : ∀ f ∈ n.chanceTables, ∀ g ∈ f.given, rank g < rank f.forVar)
    {x y : String} (hb : n.Below x y) : rank x < rank y := by
  induction hb with
  | child hf hx => exact h _ hf _ hx
  | step _ hf hy ih => exact ih.trans (h _ hf _ hy)

/-- If `G` looks neither at a variable nor at its descendants, and fixes its parents, then the variable contributes its
table row. -/
theorem markov_total [Field α] [DecidableEq α] {n : Net α} (hn : n.Valid) (ha : n.Acyclic) (hr : n.Regular)
    {f : NFactor α} (hf : f ∈ n.chanceTables) (G : World → α) (hG : Blind G f.forVar)
    (hG' : ∀ s, n.Below f.forVar s → Blind G s) (p : Nat → α)
    (hp : ∀ w k, G w ≠ 0 → n.prob f (w.set f.forVar k) = p k) :
    ∃ M : α, ∀ h : Nat → α, n.total [] (fun w => G w * h (w f.forVar)) =
      (∑ k ∈ range (n.count f.forVar), p k * h k) * M := by
  classical
  obtain ⟨v, hv, e, hc⟩ := chanceTables_forVar hf
  have hself : ¬ n.Below f.forVar f.forVar := by
    obtain ⟨rank, hrank⟩ := ha
    intro hb
    exact absurd (below_rank hrank hb) (lt_irrefl _)
  set keep : String → Bool := fun s => decide (¬ n.Below f.forVar s) with hkeep
  set S := n.stateVars.filter (fun v => keep v.name) with hS
  set S' := S.filter (fun u => decide (u.name ≠ v.name)) with hS'
  have hvS : v ∈ S := by
    rw [hS, List.mem_filter]
    refine ⟨hv, ?_⟩
    simp only [hkeep, decide_eq_true_eq, e]
    exact hself
  have hSnd : (S.map NVar.name).Nodup := (stateVars_names hn).sublist (List.filter_sublist.map _)
  have hperm : S.Perm (S' ++ [v]) := by
    refine ((List.filter_append_perm (fun u => decide (u.name ≠ v.name)) S).symm).trans (List.Perm.append_left _ ?_)
    rw [show (fun u : NVar => !decide (u.name ≠ v.name)) = fun u => decide (u.name = v.name) by
      funext u; simp, filter_single NVar.name S hSnd v hvS]
  have hnd' : ((S' ++ [v]).map NVar.name).Nodup := (hperm.map NVar.name).nodup_iff.1 hSnd
  have hnd1 : (S'.map NVar.name).Nodup := by
    rw [List.map_append] at hnd'; exact (List.nodup_append.1 hnd').1
  refine ⟨((n.stateVars.filter (fun v => !keep v.name)).map openCount).prod *
    sumWorlds S' (fun w => (S'.map (fun v => n.kernel v w)).prod * G w) (fun _ => 0), fun h => ?_⟩
  rw [total_kept hn ha hr keep ?_ _ ?_, sumWorlds_perm _ hperm _ hSnd, sumWorlds_append]
  · rw [mul_left_comm]
    congr 1
    refine Eq.trans ?_ (sumWorlds_mul S' (∑ k ∈ range (n.count f.forVar), p k * h k) _ _)
    refine sumWorlds_congr _ _ hnd1 (fun w' _ _ => ?_)
    simp only [sumWorlds]
    have hb : Blind (fun w => (S'.map (fun v => n.kernel v w)).prod * G w) v.name := by
      refine Blind.mul (Blind.prod (fun u hu => ?_)) (e ▸ hG)
      have hu' := List.mem_filter.1 hu
      simp only [decide_eq_true_eq] at hu'
      refine kernel_blind hu'.2 (fun g hg hgu hvg => ?_)
      have h2 := (List.mem_filter.1 hu'.1).2
      simp only [hkeep, decide_eq_true_eq] at h2
      apply h2
      rw [← hgu]
      exact .child hg (e ▸ hvg)
    rw [Finset.sum_mul, e, ← count_eq hn (mem_stateVars.1 hv).1, e]
    refine Finset.sum_congr rfl (fun k _ => ?_)
    have h3 := hb w' k
    dsimp only at h3
    rw [e] at h3
    rw [World.set_eq, (hperm.map _).prod_eq, List.map_append, List.prod_append, List.map_singleton, List.prod_singleton,
      kernel_table hn hf e]
    calc _ = n.prob f (w'.set f.forVar k) * h k *
          ((S'.map (fun v => n.kernel v (w'.set f.forVar k))).prod * G (w'.set f.forVar k)) := by ring
      _ = n.prob f (w'.set f.forVar k) * h k * ((S'.map (fun v => n.kernel v w')).prod * G w') := by rw [h3]
      _ = _ := by
        by_cases h0 : G w' = 0
        · simp [h0]
        · rw [hp w' k h0]
  · intro g hg hk s hs
    simp only [hkeep, decide_eq_true_eq] at hk ⊢
    exact fun hb => hk (.step hb hg hs)
  · intro s hs
    simp only [hkeep, decide_eq_false_iff_not, not_not] at hs
    intro w k
    have hne : f.forVar ≠ s := fun e' => hself (by rw [← e'] at hs; exact hs)
    dsimp only
    rw [hG' s hs w k, World.set_ne _ hne]

theorem agrees_blind {n : Net α} {evidence : List (String × String)} {s : String} (h : ∀ e ∈ evidence, e.1 ≠ s)
    (w : World) (k : Nat) : n.Agrees evidence (w.set s k) ↔ n.Agrees evidence w := by
  unfold Net.Agrees
  constructor
  · intro H e he v hv hve
    have := H e he v hv hve
    rwa [World.set_ne _ (h e he)] at this
  · intro H e he v hv hve
    rw [World.set_ne _ (h e he)]
    exact H e he v hv hve

/-- **C86.** In a network without cycles, without all-zero rows and without stored policies: if all parents of a chance
variable are observed, but neither the variable itself nor any of its descendants, then its answer is the row of its
table that belongs to the observed outcomes, scaled to sum one. What else is observed does not matter. -/
theorem C86_markov [Field α] [CharZero α] [DecidableEq α] (sch : NSched α) {n : Net α} (hn : n.Valid) (hpol : n.policies = [])
    (ha : n.Acyclic) (hr : n.Regular) {evidence : List (String × String)} (hev : n.EvidenceOK evidence) {f : NFactor α}
    (hf : f ∈ n.chanceTables) (hpar : ∀ g ∈ f.given, g ∈ evidence.map Prod.fst)
    (hself : f.forVar ∉ evidence.map Prod.fst) (hdesc : ∀ e ∈ evidence, ¬ n.Below f.forVar e.1) (ign : Bool)
    (possible : n.mass [] (n.Agrees evidence) ≠ 0) :
    ∃ d fac n', n.solveQuery sch evidence [f.forVar] ign = (.ok ([(f.forVar, d)], fac), n') ∧
      d.length = n.count f.forVar ∧
      ∀ w, n.Allowed w → n.Agrees evidence w → d[w f.forVar]? = some (n.entry f w / n.rowSum f w) := by
  classical
  obtain ⟨v, hv, e, hc⟩ := chanceTables_forVar hf
  have hact : n.active evidence ign = [] := by simp [Net.active, hpol]
  obtain ⟨r, fac, n', h1, h2, h3, h4⟩ := C31_solveQuery_posterior sch hn (by constructor <;> simp [hpol]) hev
    (query := [f.forVar]) ign
    ⟨fun q hq => by
      rw [List.mem_singleton] at hq; exact ⟨v, hv, by rw [hq, e]⟩, fun q hq a ha' => by
      rw [List.mem_singleton] at hq; subst hq
      exact fun e' => hself (e' ▸ List.mem_map_of_mem ha'), fun q hq => by
      rw [List.mem_singleton] at hq; subst hq
      rw [← e]; exact chance_occurs hn _ (mem_stateVars.1 hv).1 hc⟩ (by rw [hact]; exact possible)
  obtain ⟨d, a1, a2, a3⟩ := h4 f.forVar (by simp)
  have hr1 : r = [(f.forVar, d)] := by
    match r, h2, h3, a1 with
    | [a], _, _, a1 => rw [List.mem_singleton] at a1; rw [a1]
    | a :: b :: r, h2, h3, _ =>
      have ea := (h3 a.1).1 (by simp)
      have eb := (h3 b.1).1 (by simp)
      rw [List.mem_singleton] at ea eb
      simp [ea, eb] at h2
  subst hr1
  refine ⟨d, fac, n', h1, a2, fun w hw hwe => ?_⟩
  have hnself : ∀ a ∈ evidence, a.1 ≠ f.forVar := fun a ha' e' => hself (e' ▸ List.mem_map_of_mem ha')
  obtain ⟨M, hM⟩ := markov_total hn ha hr hf (fun w => if n.Agrees evidence w then (1 : α) else 0)
    (fun w k => by simp only [agrees_blind hnself])
    (fun s hs w k => by simp only [agrees_blind (fun a ha' e' => hdesc a ha' (e' ▸ hs))])
    (fun k => n.prob f (w.set f.forVar k)) (fun w' k h0 => by
      have hw' : n.Agrees evidence w' := by
        by_contra hcon
        simp [hcon] at h0
      refine prob_congr n f (fun s hs => ?_)
      by_cases es : s = f.forVar
      · subst es; rw [World.set_eq, World.set_eq]
      · rw [World.set_ne _ es, World.set_ne _ es]
        have hg : s ∈ f.given := by simpa [NFactor.dims, es] using hs
        obtain ⟨a, ha', rfl⟩ := List.mem_map.1 (hpar s hg)
        obtain ⟨u, hu, hue, _⟩ := hev.known a ha'
        rw [hw' a ha' u hu hue, hwe a ha' u hu hue])
  have hwx : w f.forVar < n.count f.forVar := by
    rw [← e, count_eq hn (mem_stateVars.1 hv).1]; exact hw v hv
  have m1 : n.mass [] (n.Agrees evidence) = M := by
    have := hM (fun _ => 1)
    simp only [mul_one] at this
    rw [prob_one n f (hr f hf w hw), one_mul] at this
    exact this
  have m2 : n.mass [] (fun w' => n.Agrees evidence w' ∧ w' f.forVar = w f.forVar) = n.prob f w * M := by
    have := hM (fun k => if k = w f.forVar then 1 else 0)
    simp only [mul_ite, mul_one, mul_zero, Finset.sum_ite_eq', Finset.mem_range, hwx, if_true, World.set_self] at this
    rw [← this]
    unfold Net.mass
    congr 1
    funext w'
    by_cases c1 : n.Agrees evidence w' <;> by_cases c2 : w' f.forVar = w f.forVar <;> simp [c1, c2]
  rw [a3 _ hwx, hact, m1, m2]
  rw [m1] at possible
  rw [mul_div_cancel_right₀ _ possible]
  unfold Net.prob
  rw [if_neg (hr f hf w hw)]

/-- **C86, total weight.** In such a network the weights of all worlds sum to one for each way to take the decisions.
In particular, if all variables are chance variables, the answers to queries without evidence are sums of products of
table entries. -/
theorem C86_total [Field α] [DecidableEq α] {n : Net α} (hn : n.Valid) (ha : n.Acyclic) (hr : n.Regular) :
    n.mass [] (fun _ => True) =
      ((n.variables.filter (fun v => v.nodeType = .decision)).map (fun v => (v.outcomes.length : α))).prod := by
  have h := total_kept hn ha hr (fun _ => false) (by simp) (fun _ => (1 : α)) (fun _ _ _ _ => rfl)
  unfold Net.mass
  simp only [if_true, h]
  simp only [List.filter_false, sumWorlds, List.map_nil, List.prod_nil, mul_one, Bool.not_false,
    List.filter_true]
  unfold Net.stateVars
  induction n.variables with
  | nil => rfl
  | cons v vs ih =>
    rcases hv : v.nodeType with _ | _ | _ <;> simp [hv, openCount, ← ih]

/-- The sprinkler network has no cycles. -/
theorem Ex.spr_acyclic : Ex.spr.Acyclic :=
  ⟨fun s => if s = "Rain" then 0 else if s = "Sprinkler" then 1 else 2, by decide⟩

theorem Ex.spr_regular : Ex.spr.Regular := by
  intro f hf w hw
  have h1 : w "Rain" < 2 := hw ⟨"Rain", .chance, ["yes", "no"], (0, 0), "", some 0⟩ (by decide)
  have h2 : w "Sprinkler" < 2 := hw ⟨"Sprinkler", .chance, ["on", "off"], (0, 0), "", some 1⟩ (by decide)
  have key : ∀ a < 2, ∀ b < 2, ∀ f ∈ Ex.spr.chanceTables,
      Ex.spr.rowSum f (World.set (World.set (fun _ => 0) "Rain" a) "Sprinkler" b) ≠ 0 := by decide +kernel
  have := key _ h1 _ h2 f hf
  intro h0
  apply this
  rw [← h0]
  unfold Net.rowSum
  refine Finset.sum_congr rfl (fun k _ => entry_congr _ f (fun s hs => ?_))
  have hs' : s = "Rain" ∨ s = "Sprinkler" ∨ s = f.forVar := by
    have : ∀ f ∈ Ex.spr.chanceTables, ∀ s ∈ f.dims, s = "Rain" ∨ s = "Sprinkler" ∨ s = f.forVar := by decide
    exact this f hf s hs
  unfold World.set
  by_cases e0 : s = f.forVar
  · simp [e0]
  · rcases hs' with rfl | rfl | e
    · simp [e0]
    · simp [e0]
    · exact absurd e e0

/-- The hypotheses of **C86** are met by the sprinkler network: the sprinkler, given rain. -/
example : ∃ d fac n', Ex.spr.solveQuery Ex.back [("Rain", "yes")] ["Sprinkler"] false =
    (.ok ([("Sprinkler", d)], fac), n') ∧ d[0]? = some (1 / 100) := by
  obtain ⟨d, fac, n', h1, _, h3⟩ := C86_markov Ex.back Ex.spr_valid rfl Ex.spr_acyclic Ex.spr_regular
    (evidence := [("Rain", "yes")]) ⟨by decide, by decide⟩ (f := ⟨"Sprinkler", ["Rain"], some [1, 99, 4, 6], [2], 2⟩)
    (by decide) (by decide) (by decide) (by
      intro e he hb
      obtain ⟨rank, hrank⟩ := Ex.spr_acyclic
      simp only [List.mem_singleton] at he
      subst he
      have := below_rank hrank hb
      have h2 := hrank ⟨"Sprinkler", ["Rain"], some [1, 99, 4, 6], [2], 2⟩ (by decide) "Rain" (by decide)
      dsimp only at this h2
      omega) false (by decide +kernel)
  refine ⟨d, fac, n', h1, ?_⟩
  have := h3 (fun _ => 0) (allowed_zero Ex.spr_valid) (by decide)
  rw [show Ex.spr.entry _ _ / Ex.spr.rowSum _ _ = (1 / 100 : ℚ) by decide +kernel] at this
  exact this

/-- A fair coin with a cycle among variables below it. -/
def Ex.cycVars : List NVar :=
  [Ex.nv "Coin" .chance ["heads", "tails"], Ex.nv "A" .chance ["yes", "no"], Ex.nv "B" .chance ["yes", "no"]]

/-- `A` is `B` after heads and not `B` after tails; `B` is `A`. -/
def Ex.cycTables : List (NFactor ℚ) :=
  [Ex.nf "Coin" [] [1, 1], Ex.nf "A" ["Coin", "B"] [1, 0, 0, 1, 0, 1, 1, 0], Ex.nf "B" ["A"] [1, 0, 0, 1]]

/-- The network as `New` builds it. -/
def Ex.cyc : Net ℚ where
  name := "cycle"
  info := ""
  «variables» := [⟨"Coin", .chance, ["heads", "tails"], (0, 0), "", some 0⟩,
    ⟨"A", .chance, ["yes", "no"], (0, 0), "", some 1⟩, ⟨"B", .chance, ["yes", "no"], (0, 0), "", some 2⟩]
  factors := [⟨"Coin", [], some [1, 1], [], 2⟩, ⟨"A", ["Coin", "B"], some [1, 0, 0, 1, 0, 1, 1, 0], [2, 2], 2⟩,
    ⟨"B", ["A"], some [1, 0, 0, 1], [2], 2⟩]
  policies := []
  vs := none
  names := []
  totalUtility := none

theorem Ex.cyc_new : newNet "cycle" "" Ex.cycVars Ex.cycTables = .ok Ex.cyc := rfl

theorem Ex.cyc_valid : Ex.cyc.Valid where
  names := by decide
  named := by decide
  few := by decide
  outcomes := by decide
  tables := by decide
  hasTable := by decide
  known := by decide
  dims := by decide
  parents := by decide
  size := by
    intro f hf _ _
    simp only [Ex.cyc, List.mem_cons, List.not_mem_nil, or_false] at hf
    rcases hf with rfl | rfl | rfl <;> exact ⟨_, rfl, by decide⟩
  single := by decide
  weights := by intro i h; simp [Ex.cyc] at h

/-- **C86, why cycles are excluded.** `New` accepts a network with a cycle, and there the answer for a variable without
parents is not its table, even if nothing is observed: a fair coin is reported to show heads for sure. -/
theorem C86_cycle (sch : NSched ℚ) : newNet "cycle" "" Ex.cycVars Ex.cycTables = .ok Ex.cyc ∧
    ∃ fac n', Ex.cyc.solveQuery sch [] ["Coin"] false = (.ok ([("Coin", [1, 0])], fac), n') := by
  refine ⟨Ex.cyc_new, ?_⟩
  obtain ⟨r, fac, n', h1, h2, h3, h4⟩ := C31_bayesian sch Ex.cyc_valid (by decide) rfl (evidence := [])
    ⟨by decide, by decide⟩ (query := ["Coin"]) (by decide) (by decide) (by decide +kernel)
  obtain ⟨d, a1, a2, a3⟩ := h4 "Coin" (by simp)
  have hc : Ex.cyc.count "Coin" = 2 := by decide
  rw [hc] at a2 a3
  have b0 := a3 0 (by decide)
  have b1 := a3 1 (by decide)
  rw [show Ex.cyc.mass [] (fun w => Ex.cyc.Agrees [] w ∧ w "Coin" = 0) / Ex.cyc.mass [] (Ex.cyc.Agrees []) = 1 by
    decide +kernel] at b0
  rw [show Ex.cyc.mass [] (fun w => Ex.cyc.Agrees [] w ∧ w "Coin" = 1) / Ex.cyc.mass [] (Ex.cyc.Agrees []) = 0 by
    decide +kernel] at b1
  have hd : d = [1, 0] := by
    match d, a2, b0, b1 with
    | [a, b], _, b0, b1 => simp at b0 b1; rw [b0, b1]
  subst hd
  refine ⟨fac, n', ?_⟩
  rw [h1]
  match r, h2, h3, a1 with
  | [a], _, _, a1 => rw [List.mem_singleton] at a1; rw [a1]
  | a :: b :: r, h2, h3, _ =>
    have ea := (h3 a.1).1 (by simp)
    have eb := (h3 b.1).1 (by simp)
    rw [List.mem_singleton] at ea eb
    simp [ea, eb] at h2

end Bbn
