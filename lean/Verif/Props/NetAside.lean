import Verif.Spec.Aside
import Verif.Props.NetUndecided
import Verif.Props.NetBarren
import Verif.Props.NetSettle
import Verif.Props.NetSameJoint

/-!
# C141: what expected utilities and decisions do not depend on

Chance variables that are neither observed, nor above (an ancestor of) something observed, known to a decision or a parent
of a utility can be changed, added or removed.
-/

set_option autoImplicit false

namespace Bbn

open Finset

variable {α : Type}

section Aside

variable {n n' : Net α} (hn : n.Valid) (hn' : n'.Valid) {l : List String}
  (hl : ∀ s ∈ l, ∃ v ∈ n.stateVars, v.name = s) (hs : n.SameAbove n' l)

include hn hn' hl hs

theorem upward_iff (s : String) : n'.Upward l s ↔ n.Upward l s := by
  constructor
  · rintro (h | ⟨y, hy, h⟩)
    · exact .inl h
    · have key : ∀ {y}, n'.Below s y → n.Upward l y → n.Below s y := by
        intro y h
        induction h with
        | child hf hx =>
          intro hu
          obtain ⟨f, hf0, e1, e2, _⟩ := same_table hn hn' hl hs hf hu
          rw [e1]
          exact .child hf0 (e2 ▸ hx)
        | step _ hf hx ih =>
          intro hu
          obtain ⟨f, hf0, e1, e2, _⟩ := same_table hn hn' hl hs hf hu
          have hx0 := e2 ▸ hx
          rw [e1] at hu ⊢
          exact .step (ih (upward_given hf0 hu hx0)) hf0 hx0
      exact .inr ⟨y, hy, key h (.inl hy)⟩
  · rintro (h | ⟨y, hy, h⟩)
    · exact .inl h
    · have key : ∀ {y}, n.Below s y → n.Upward l y → n'.Below s y := by
        intro y h
        induction h with
        | child hf hx =>
          intro hu
          obtain ⟨f, hf0, e1, e2, _⟩ := hs.tables _ hf hu
          rw [← e1]
          exact .child hf0 (e2 ▸ hx)
        | step _ hf hx ih =>
          intro hu
          obtain ⟨f, hf0, e1, e2, _⟩ := hs.tables _ hf hu
          rw [← e1]
          exact .step (ih (upward_given hf hu hx)) hf0 (e2 ▸ hx)
      exact .inr ⟨y, hy, key h (.inl hy)⟩

theorem above_symm : n'.SameAbove n l where
  vars := by
    intro v' hv' hu
    obtain ⟨v, hv, e1, e2, e3⟩ := same_var hn hn' hl hs hv' ((upward_iff hn hn' hl hs _).1 hu)
    exact ⟨v, (mem_stateVars.1 hv).1, e1, e2, e3⟩
  tables := by
    intro f' hf' hu
    obtain ⟨f, hf, e1, e2, e3⟩ := same_table hn hn' hl hs hf' ((upward_iff hn hn' hl hs _).1 hu)
    exact ⟨f, hf, e1.symm, e2.symm, e3.symm⟩

theorem above_state : ∀ s ∈ l, ∃ v ∈ n'.stateVars, v.name = s := by
  intro s h
  obtain ⟨v, hv, rfl⟩ := hl s h
  obtain ⟨u, hu, e1, e2, _⟩ := hs.vars v (mem_stateVars.1 hv).1 (.inl h)
  exact ⟨u, mem_stateVars.2 ⟨hu, by rw [e2]; exact (mem_stateVars.1 hv).2⟩, e1⟩

/-- If all decisions are in the common part, totals of what looks only at the common part are the same. -/
theorem total_aside [Field α] [DecidableEq α] [CharZero α] (ha : n.Acyclic) (hr : n.Regular) (ha' : n'.Acyclic)
    (hr' : n'.Regular) (hd : ∀ d ∈ n.decisions, d ∈ l) (hd' : ∀ d ∈ n'.decisions, d ∈ l) (F : World → α)
    (hF : ∀ s, ¬ n.Upward l s → Blind F s) : n'.total [] F = n.total [] F := by
  obtain ⟨c, c', _, _, h1, h1', htot⟩ := total_same hn hn' hl hs ha hr ha' hr'
  have hch : ∀ {m : Net α}, (∀ d ∈ m.decisions, d ∈ l) → ∀ v ∈ m.stateVars, ¬ n.Upward l v.name → v.nodeType = .chance := by
    intro m hm v hv hu
    have ht := (mem_stateVars.1 hv).2
    cases e : v.nodeType with
    | chance => rfl
    | utility => exact absurd e ht
    | decision =>
      exact absurd (.inl (hm _ (mem_decisions.2 (isKind_mem.2 ⟨v, (mem_stateVars.1 hv).1, rfl, e⟩)))) hu
  obtain ⟨x, e, e'⟩ := htot F hF
  rw [e, e', h1 (hch hd), h1' (hch hd')]

theorem aside_asked [Field α] [DecidableEq α] {u : String} (hlu : ∀ s ∈ n.lookedAt u, s ∈ l)
    (hu : u = "" ∨ ∃ v ∈ n.utilityVars, v.name = u) (h : n.SameUtilities n' u) (w : World) :
    n'.asked u w = n.asked u w := by
  have key : ∀ v ∈ n.utilityVars, (u = "" ∨ v.name = u) → n'.utilityIn v.name w = n.utilityIn v.name w := by
    intro v hv hvu
    have hv0 : v ∈ n.variables ∧ v.nodeType = .utility ∧ v.name ≠ n.totalName := by simpa [Net.utilityVars] using hv
    obtain ⟨f, hf, e⟩ := hn.hasTable v hv0.1 (by rw [hv0.2.1]; decide)
    have hask : n.Asks u f := ⟨⟨v, hv, e.symm⟩, by rw [e]; exact hvu⟩
    obtain ⟨f', hf', e1, e2, e3⟩ := h.tables f hf hask
    have a := utilityIn_table hn hf w
    have b := utilityIn_table hn' hf' w
    rw [e1, e] at b
    rw [e] at a
    rw [a, b]
    have hd : f'.dims = f.dims := by unfold NFactor.dims; rw [e1, e2]
    obtain ⟨v', hv', ev'⟩ : ∃ v' ∈ n'.utilityVars, v'.name = v.name := by
      have := h.vars.mem_iff.2 (List.mem_map_of_mem hv)
      obtain ⟨v', hv', e⟩ := List.mem_map.1 this
      exact ⟨v', hv', e⟩
    have hv0' : v' ∈ n'.variables ∧ v'.nodeType = .utility ∧ v'.name ≠ n'.totalName := by
      simpa [Net.utilityVars] using hv'
    unfold Net.entry NFactor.tab
    rw [hd, e3, List.map_congr_left (fun s hsd => ?_)]
    rcases List.mem_append.1 hsd with hg | hg
    · rw [same_count hn hn' hl hs (.inl (hlu s (List.mem_flatMap.2 ⟨f, List.mem_filter.2 ⟨hf, by simpa using hask⟩, hg⟩)))]
    · rw [List.mem_singleton] at hg
      rw [hg, e, count_eq hn hv0.1, ← ev', count_eq hn' hv0'.1, hn.single v hv0.1 hv0.2.1 hv0.2.2,
        hn'.single v' hv0'.1 hv0'.2.1 hv0'.2.2]
  unfold Net.asked
  split_ifs with h0
  · unfold Net.totalIn
    have e : ∀ m : Net α, m.utilityVars.map (fun u => m.weight u.name * m.utilityIn u.name w) =
        (m.utilityVars.map NVar.name).map (fun s => m.weight s * m.utilityIn s w) := fun m => by rw [List.map_map]; rfl
    rw [e, e, (h.vars.map _).sum_eq]
    congr 1
    apply List.map_congr_left
    intro s hsm
    obtain ⟨v, hv, rfl⟩ := List.mem_map.1 hsm
    rw [h.weights v hv, key v hv (.inl h0)]
  · rcases hu with hu | ⟨v, hv, rfl⟩
    · exact absurd hu h0
    · exact key v hv (.inr rfl)

omit hn' hl hs in
theorem aside_blind [Field α] [DecidableEq α] {u : String} (hlu : ∀ s ∈ n.lookedAt u, s ∈ l)
    (hu : u = "" ∨ ∃ v ∈ n.utilityVars, v.name = u) {s : String} (hb : s ∉ l) : Blind (n.asked u) s := by
  intro w k
  have key : ∀ v ∈ n.utilityVars, (u = "" ∨ v.name = u) → n.utilityIn v.name (w.set s k) = n.utilityIn v.name w := by
    intro v hv hvu
    have hv0 : v ∈ n.variables ∧ v.nodeType = .utility ∧ v.name ≠ n.totalName := by simpa [Net.utilityVars] using hv
    obtain ⟨f, hf, e⟩ := hn.hasTable v hv0.1 (by rw [hv0.2.1]; decide)
    have hask : n.Asks u f := ⟨⟨v, hv, e.symm⟩, by rw [e]; exact hvu⟩
    rw [← e, utilityIn_table hn hf, utilityIn_table hn hf]
    refine entry_congr n f (fun x hx => ?_)
    rcases List.mem_append.1 hx with hg | hg
    · have : x ≠ s := fun ex => hb (ex ▸ hlu x (List.mem_flatMap.2 ⟨f, List.mem_filter.2 ⟨hf, by simpa using hask⟩, hg⟩))
      unfold World.set
      split_ifs <;> first | rfl | contradiction
    · rw [List.mem_singleton] at hg
      simp [World.set, hg]
  unfold Net.asked
  split_ifs with h0
  · unfold Net.totalIn
    congr 1
    apply List.map_congr_left
    intro v hv
    rw [key v hv (.inl h0)]
  · rcases hu with hu | ⟨v, hv, rfl⟩
    · exact absurd hu h0
    · exact key v hv (.inr rfl)

/-- A way to decide carried over to the other network: what is not in the common part is ignored. -/
theorem aside_le [Field α] [LinearOrder α] [IsStrictOrderedRing α] (ha : n.Acyclic) (hr : n.Regular) (ha' : n'.Acyclic)
    (hr' : n'.Regular) (hdec : n.SameDecisions n') (hsee : ∀ s ∈ n.deciding, s ∈ l) (hlu : ∀ s ∈ n.lookedAt "", s ∈ l)
    (hut : n.SameUtilities n' "") {order : List String} (ho : order.Perm n.decisions) {δ : String → World → α}
    (hδ : ∀ A d B, order = A ++ d :: B → n.Strategy A d (δ d)) :
    ∃ δ' : String → World → α, (∀ A d B, order = A ++ d :: B → n'.Strategy A d (δ' d)) ∧
      n'.expectedTotal δ' = n.expectedTotal δ := by
  classical
  set clamp : World → World := fun w s => if n.Upward l s then w s else 0 with hclamp
  have hdl : ∀ d ∈ n.decisions, d ∈ l := fun d h => hsee d (List.mem_append_left _ h)
  have hallowed : ∀ {w}, (∀ v ∈ n.stateVars, n.Upward l v.name → w v.name < v.outcomes.length) → n.Allowed (clamp w) := by
    intro w hw v hv
    simp only [hclamp]
    split_ifs with h
    · exact hw v hv h
    · exact (hn.outcomes v (mem_stateVars.1 hv).1).1
  have hallowed' : ∀ {w}, n'.Allowed w → n.Allowed (clamp w) := by
    intro w hw
    refine hallowed (fun v hv h => ?_)
    obtain ⟨v', hv', e1, e2, e3⟩ := hs.vars v (mem_stateVars.1 hv).1 h
    rw [← e1, ← e3]
    exact hw v' (mem_stateVars.2 ⟨hv', by rw [e2]; exact (mem_stateVars.1 hv).2⟩)
  have hknown : ∀ {ds : List String}, (∀ d ∈ ds, d ∈ n.decisions) → ∀ {s}, n.Known ds s → s ∈ l ∧ n'.Known ds s := by
    intro ds hds s h
    rcases h with h | ⟨f, hf, h1, h2⟩
    · exact ⟨hdl s (hds s h), .inl h⟩
    · refine ⟨hsee s (List.mem_append_right _ (List.mem_flatMap.2 ⟨f, List.mem_filter.2 ⟨hf, by simpa using hds _ h1⟩, h2⟩)), ?_⟩
      obtain ⟨f', hf', e1, e2⟩ := (hdec.parents _ (hds _ h1) s).2 ⟨f, hf, rfl, h2⟩
      exact .inr ⟨f', hf', by rw [e1]; exact h1, e2⟩
  have hsub : ∀ A d B, order = A ++ d :: B → ∀ e ∈ A ++ [d], e ∈ n.decisions := by
    intro A d B e x hx
    refine ho.subset ?_
    rw [e]
    simp only [List.mem_append, List.mem_singleton, List.mem_cons] at hx ⊢
    tauto
  have hset : ∀ (w : World) (d : String) (k : Nat), d ∈ l → clamp (w.set d k) = (clamp w).set d k := by
    intro w d k hd
    funext s
    simp only [hclamp, World.set]
    by_cases e : s = d
    · subst e; simp [show n.Upward l s from .inl hd]
    · simp [e]
  refine ⟨fun d w => δ d (clamp w), fun A d B e => ?_, ?_⟩
  · have h := hδ A d B e
    have hd : d ∈ l := hdl d (hsub A d B e d (by simp))
    refine ⟨fun w hw => h.nonneg _ (hallowed' hw), fun w hw => ?_, fun w w' hw hw' hk => ?_⟩
    · rw [same_count hn hn' hl hs (.inl hd)]
      simp only [hset w d _ hd]
      exact h.one _ (hallowed' hw)
    · refine h.known _ _ (hallowed' hw) (hallowed' hw') (fun s hks => ?_)
      obtain ⟨h1, h2⟩ := hknown (hsub A d B e) hks
      simp only [hclamp, if_pos (show n.Upward l s from .inl h1)]
      exact hk s h2
  · rw [expectedTotal_joint, expectedTotal_joint]
    have e1 : (fun w => n'.totalIn w * (n'.decisions.map (fun d => δ d (clamp w))).prod) =
        fun w => n.asked "" w * (n.decisions.map (fun d => δ d (clamp w))).prod := by
      funext w
      rw [(hdec.vars.map _).prod_eq, ← aside_asked hn hn' hl hs hlu (.inl rfl) hut w]
      rfl
    rw [e1, total_aside hn hn' hl hs ha hr ha' hr' hdl (fun d h => hdl d (hdec.vars.subset h)) _ ?_]
    · refine total_congr hn (fun w hw => ?_)
      congr 1
      refine congrArg _ (List.map_congr_left (fun d hd => ?_))
      obtain ⟨A, B, e⟩ := List.append_of_mem (ho.symm.subset hd)
      refine (hδ A d B e).known _ _ (hallowed (fun v hv _ => hw v hv)) hw (fun s hks => ?_)
      simp only [hclamp, if_pos (show n.Upward l s from .inl (hknown (hsub A d B e) hks).1)]
    · intro s hnu
      refine Blind.mul (aside_blind hn hlu (.inl rfl) (fun h => hnu (.inl h))) (Blind.prod (fun d _ => ?_))
      intro w k
      dsimp only
      congr 1
      funext x
      simp only [hclamp, World.set]
      by_cases e : x = s
      · subst e; simp [hnu]
      · simp [e]

end Aside

theorem decisions_symm {n n' : Net α} (h : n.SameDecisions n') : n'.SameDecisions n :=
  ⟨h.vars.symm, fun d hd s => (h.parents d (h.vars.subset hd) s).symm⟩

theorem utilities_symm [Zero α] [One α] {n n' : Net α} (hn : n.Valid) (hn' : n'.Valid) {u : String}
    (h : n.SameUtilities n' u) : n'.SameUtilities n u where
  vars := h.vars.symm
  weights := by
    intro v' hv'
    obtain ⟨v, hv, e⟩ := List.mem_map.1 (h.vars.subset (List.mem_map_of_mem hv'))
    rw [← e, h.weights v hv]
  tables := by
    rintro f' hf' ⟨⟨v', hv', e'⟩, hq⟩
    obtain ⟨v, hv, e⟩ := List.mem_map.1 (h.vars.subset (List.mem_map_of_mem hv'))
    have hv0 : v ∈ n.variables ∧ v.nodeType = .utility ∧ v.name ≠ n.totalName := by simpa [Net.utilityVars] using hv
    obtain ⟨f, hf, ef⟩ := hn.hasTable v hv0.1 (by rw [hv0.2.1]; decide)
    obtain ⟨g, hg, g1, g2, g3⟩ := h.tables f hf ⟨⟨v, hv, ef.symm⟩, by rw [ef, e, e']; exact hq⟩
    obtain rfl : g = f' := List.inj_on_of_nodup_map hn'.tables hg hf' (by rw [g1, ef, e, e'])
    exact ⟨f, hf, g1.symm, g2.symm, g3.symm⟩

/-- **C141, expected utilities.** Two networks without decisions have the same variables and tables for all that is
observed, for the parents of the utilities asked for, and for everything above, and the same utilities. Then
`SolveUtility` returns the same, whatever else is in the networks. -/
theorem C141_expectation [Field α] [CharZero α] [DecidableEq α] (sch sch' : NSched α) {n n' : Net α} (hn : n.Valid)
    (hn' : n'.Valid) (hpol : n.policies = []) (hpol' : n'.policies = []) (hd : n.decisions = []) (hd' : n'.decisions = [])
    (ha : n.Acyclic) (hr : n.Regular) (ha' : n'.Acyclic) (hr' : n'.Regular) {u : String}
    (hu : u = "" ∧ n.utilityVars ≠ [] ∨ ∃ v ∈ n.utilityVars, v.name = u) {evidence : List (String × String)}
    (hev : n.EvidenceOK evidence) (hs : n.SameAbove n' (evidence.map Prod.fst ++ n.lookedAt u))
    (hut : n.SameUtilities n' u) (ign ign' : Bool) :
    ∃ y : α, n.Worth sch evidence u ign y ∧ n'.Worth sch' evidence u ign' y := by
  have hsol : ∀ {m : Net α}, m.decisions = [] → m.AllSolved := by
    intro m hd v hv hvd
    have : v.name ∈ m.decisions := List.mem_map_of_mem (List.mem_filter.2 ⟨hv, by simp [hvd]⟩)
    rw [hd] at this
    simp at this
  have hu0 : u = "" ∨ ∃ v ∈ n.utilityVars, v.name = u := hu.imp And.left id
  have hu' : u = "" ∧ n'.utilityVars ≠ [] ∨ ∃ v ∈ n'.utilityVars, v.name = u := by
    rcases hu with ⟨h1, h2⟩ | ⟨v, hv, e⟩
    · refine .inl ⟨h1, fun h => h2 ?_⟩
      have := hut.vars
      rw [h] at this
      simpa using this.symm
    · have := hut.vars.mem_iff.2 (List.mem_map_of_mem hv)
      obtain ⟨v', hv', e'⟩ := List.mem_map.1 this
      exact .inr ⟨v', hv', e'.trans e⟩
  set l := evidence.map Prod.fst ++ n.lookedAt u with hle
  have hl : ∀ s ∈ l, ∃ v ∈ n.stateVars, v.name = s := by
    intro s h
    rcases List.mem_append.1 h with h | h
    · obtain ⟨e, he, rfl⟩ := List.mem_map.1 h
      obtain ⟨v, hv, e1, e2, _⟩ := hev.known e he
      exact ⟨v, mem_stateVars.2 ⟨hv, e2⟩, e1⟩
    · obtain ⟨f, hf, hg⟩ := List.mem_flatMap.1 h
      simp only [List.mem_filter, decide_eq_true_eq] at hf
      obtain ⟨⟨v, hv, e⟩, _⟩ := hf.2
      have hv0 : v ∈ n.variables ∧ v.nodeType = .utility ∧ v.name ≠ n.totalName := by simpa [Net.utilityVars] using hv
      obtain ⟨p, hp, e1, e2⟩ := hn.parents f hf.1 (by rw [← e]; exact hv0.2.2) s hg
      exact ⟨p, mem_stateVars.2 ⟨hp, e2⟩, e1⟩
  have hupe : ∀ e ∈ evidence, n.Upward l e.1 := fun e h => .inl (List.mem_append_left _ (List.mem_map_of_mem h))
  have hev' : n'.EvidenceOK evidence := by
    refine ⟨hev.keys, fun e he => ?_⟩
    obtain ⟨v, hv, e1, e2, e3⟩ := hev.known e he
    obtain ⟨u, hu, k1, k2, k3⟩ := hs.vars v hv (by rw [e1]; exact hupe e he)
    exact ⟨u, hu, by rw [k1, e1], by rw [k2]; exact e2, by rw [k3]; exact e3⟩
  have hag : ∀ w, n'.Agrees evidence w ↔ n.Agrees evidence w := by
    intro w
    constructor
    · intro h e he v hv hve
      obtain ⟨u, hu, k1, _, k3⟩ := hs.vars v hv (by rw [hve]; exact hupe e he)
      rw [h e he u hu (by rw [k1, hve]), k3]
    · intro h e he v hv hve
      obtain ⟨u, hu, k1, _, k3⟩ := same_var hn hn' hl hs hv (by rw [hve]; exact hupe e he)
      rw [h e he u (mem_stateVars.1 hu).1 (by rw [k1, hve]), k3]
  have hlu : ∀ s ∈ n.lookedAt u, s ∈ l := fun s h => List.mem_append_right _ h
  have w1 := worth_total sch hn (by constructor <;> simp [hpol]) (hsol hd) hev hu ign
  have w2 := worth_total sch' hn' (by constructor <;> simp [hpol']) (hsol hd') hev' hu' ign'
  rw [show n.active evidence ign = [] by simp [Net.active, hpol]] at w1
  rw [show n'.active evidence ign' = [] by simp [Net.active, hpol']] at w2
  refine ⟨_, w1, ?_⟩
  have e1 : (fun w => if n'.Agrees evidence w then n'.asked u w else 0) =
      fun w => if n.Agrees evidence w then n.asked u w else 0 := by
    funext w
    simp only [hag, aside_asked hn hn' hl hs hlu hu0 hut w]
  rw [e1, total_aside hn hn' hl hs ha hr ha' hr' (by simp [hd]) (by simp [hd'])] at w2
  · exact w2
  · intro s h w k
    have h1 : ∀ e ∈ evidence, e.1 ≠ s := fun e he eq => h (eq ▸ hupe e he)
    simp only [agrees_blind h1, aside_blind hn hlu hu0 (fun hm => h (.inl hm)) w k]

/-- **C141, decisions.** Two networks have the same decisions and utilities, and the same variables and tables for all
that is known to decisions, for the parents of utilities, and for everything above. Then `SolveUtility` reports the same
expected utility for both after their decisions are solved, whatever other chance variables are in the networks. -/
theorem C141_decisions [Field α] [LinearOrder α] [IsStrictOrderedRing α] (sch sch' sch₁ sch₁' : NSched α) {n n' : Net α}
    (hn : n.Valid) (hn' : n'.Valid) (hsol : n.Solvable) (hsol' : n'.Solvable) (hd : n.decisions ≠ []) (hil : n.InLine)
    (ha : n.Acyclic) (hr : n.Regular) (ha' : n'.Acyclic) (hr' : n'.Regular)
    (hnn : ∀ f ∈ n.chanceTables, ∀ x ∈ f.tab, 0 ≤ x) (hnn' : ∀ f ∈ n'.chanceTables, ∀ x ∈ f.tab, 0 ≤ x)
    (hmat : ∀ order, order.Perm n.decisions → n.Ordered order → ∀ A d B, order = A ++ d :: B → n.Matters (A ++ [d]) d)
    (hmat' : ∀ order, order.Perm n'.decisions → n'.Ordered order → ∀ A d B, order = A ++ d :: B → n'.Matters (A ++ [d]) d)
    (hs : n.SameAbove n' (n.deciding ++ n.lookedAt "")) (hdec : n.SameDecisions n') (hut : n.SameUtilities n' "")
    (ign ign' : Bool) :
    ∃ tables m g m₁ tables' m' g' m₁' x, n.solvePolicies sch false = (.ok tables, m) ∧
      m.solveUtility sch₁ [] [] "" ign = (.ok g, m₁) ∧ g.data = [x] ∧
      n'.solvePolicies sch' false = (.ok tables', m') ∧ m'.solveUtility sch₁' [] [] "" ign' = (.ok g', m₁') ∧ g'.data = [x] := by
  set l := n.deciding ++ n.lookedAt "" with hle
  have hsee : ∀ s ∈ n.deciding, s ∈ l := fun s h => List.mem_append_left _ h
  have hlu : ∀ s ∈ n.lookedAt "", s ∈ l := fun s h => List.mem_append_right _ h
  have hl : ∀ s ∈ l, ∃ v ∈ n.stateVars, v.name = s := by
    have hpar : ∀ f ∈ n.factors, f.forVar ≠ n.totalName → ∀ s ∈ f.given, ∃ v ∈ n.stateVars, v.name = s := by
      intro f hf ht s hg
      obtain ⟨p, hp, e1, e2⟩ := hn.parents f hf ht s hg
      exact ⟨p, mem_stateVars.2 ⟨hp, e2⟩, e1⟩
    intro s h
    rcases List.mem_append.1 h with h | h
    · rcases List.mem_append.1 h with h | h
      · obtain ⟨v, hv, e, ht⟩ := isKind_mem.1 (mem_decisions.1 h)
        exact ⟨v, mem_stateVars.2 ⟨hv, by rw [ht]; decide⟩, e⟩
      · obtain ⟨f, hf, hg⟩ := List.mem_flatMap.1 h
        simp only [List.mem_filter, decide_eq_true_eq] at hf
        refine hpar f hf.1 (fun e => ?_) s hg
        obtain ⟨v, hv, e1, ht⟩ := isKind_mem.1 (mem_decisions.1 hf.2)
        exact state_notTotal hn hv (by rw [ht]; decide) (e1.trans e)
    · obtain ⟨f, hf, hg⟩ := List.mem_flatMap.1 h
      simp only [List.mem_filter, decide_eq_true_eq] at hf
      obtain ⟨⟨v, hv, e⟩, _⟩ := hf.2
      have hv0 : v ∈ n.variables ∧ v.nodeType = .utility ∧ v.name ≠ n.totalName := by simpa [Net.utilityVars] using hv
      exact hpar f hf.1 (by rw [← e]; exact hv0.2.2) s hg
  have hdec' := decisions_symm hdec
  have hut' := utilities_symm hn hn' hut
  have hsee' : ∀ s ∈ n'.deciding, s ∈ l := by
    intro s h
    rcases List.mem_append.1 h with h | h
    · exact hsee s (List.mem_append_left _ (hdec.vars.subset h))
    · obtain ⟨f', hf', hg⟩ := List.mem_flatMap.1 h
      simp only [List.mem_filter, decide_eq_true_eq] at hf'
      have hd0 := hdec.vars.subset hf'.2
      obtain ⟨f, hf, e, hg'⟩ := (hdec.parents _ hd0 s).1 ⟨f', hf'.1, rfl, hg⟩
      exact hsee s (List.mem_append_right _ (List.mem_flatMap.2
        ⟨f, List.mem_filter.2 ⟨hf, by simpa [e] using hd0⟩, hg'⟩))
  have hlu' : ∀ s ∈ n'.lookedAt "", s ∈ l := by
    intro s h
    obtain ⟨f', hf', hg⟩ := List.mem_flatMap.1 h
    simp only [List.mem_filter, decide_eq_true_eq] at hf'
    obtain ⟨f, hf, e1, e2, _⟩ := hut'.tables f' hf'.1 hf'.2
    refine hlu s (List.mem_flatMap.2 ⟨f, List.mem_filter.2 ⟨hf, ?_⟩, e2 ▸ hg⟩)
    obtain ⟨⟨v', hv', e⟩, _⟩ := hf'.2
    obtain ⟨v, hv, ev⟩ := List.mem_map.1 (hut.vars.subset (List.mem_map_of_mem hv'))
    simp only [decide_eq_true_eq]
    exact ⟨⟨v, hv, by rw [e1, ev, e]⟩, .inl rfl⟩
  obtain ⟨tables, m, o, k1, k2, k3, k4, k7, g, m₁, k5, k6⟩ := C81_optimal sch sch₁ hn hsol hd hnn hmat
    (stepwise := false) (by simp) ign
  obtain ⟨tables', m', o', a1, a2, a3, a4, a7, g', m₁', a5, a6⟩ := C81_optimal sch' sch₁' hn' hsol'
    (fun h => hd (by have := hdec.vars; rw [h] at this; simpa using this.symm)) hnn' hmat' (stepwise := false) (by simp) ign'
  obtain rfl := hil.unique hn k2 (a2.trans hdec.vars) k3 (fun A d B e p hp => a3 A d B e p (by
    obtain ⟨h1, h2, hf⟩ := hp
    refine ⟨mem_decisions.1 (hdec.vars.symm.subset (mem_decisions.2 h1)),
      mem_decisions.1 (hdec.vars.symm.subset (mem_decisions.2 h2)), (hdec.parents d (mem_decisions.2 h2) p).2 hf⟩))
  refine ⟨tables, m, g, m₁, tables', m', g', m₁', _, k1, k5, k6, a1, a5, ?_⟩
  rw [a6]
  congr 1
  obtain ⟨δ', b1, b2⟩ := aside_le hn hn' hl hs ha hr ha' hr' hdec hsee hlu hut k2 (fun A d B e => (k4 A d B e).1)
  obtain ⟨δ, c1, c2⟩ := aside_le hn' hn (above_state hn hn' hl hs) (above_symm hn hn' hl hs) ha' hr' ha hr hdec' hsee' hlu' hut'
    a2 (fun A d B e => (a4 A d B e).1)
  exact le_antisymm (by rw [← c2]; exact k7 δ c1) (by rw [← b2]; exact a7 δ' b1)

namespace Ex

/-- The umbrella network with a radio that nobody listens to, the forecast listed first. -/
def umbRadio : Net ℚ :=
  { umb with
    «variables» := [⟨"Weather", .chance, ["sun", "rain"], (0, 0), "", some 1⟩,
      ⟨"Forecast", .chance, ["good", "bad"], (0, 0), "", some 0⟩, ⟨"Umbrella", .decision, ["no", "yes"], (0, 0), "", some 2⟩,
      ⟨"Total", .utility, ["effort", "comfort"], (0, 0), "", some 5⟩,
      ⟨"Comfort", .utility, ["comfort"], (0, 0), "", some 3⟩, ⟨"Effort", .utility, ["effort"], (0, 0), "", some 4⟩,
      ⟨"Radio", .chance, ["off", "music", "news"], (0, 0), "", some 6⟩]
    factors := [⟨"Forecast", ["Weather"], some [8, 2, 1, 9], [2], 2⟩, ⟨"Weather", [], some [70, 30], [], 2⟩,
      ⟨"Umbrella", ["Forecast"], none, [2], 2⟩,
      ⟨"Comfort", ["Weather", "Umbrella"], some [100, 20, 0, 70], [2, 2], 1⟩, ⟨"Effort", ["Umbrella"], some [0, -5], [2], 1⟩,
      ⟨"Total", ["Effort", "Comfort"], some [2, 1], [1, 1], 2⟩, ⟨"Radio", ["Weather"], some [1, 2, 3, 3, 2, 1], [2], 3⟩] }

theorem umbRadio_valid : umbRadio.Valid where
  names := by decide
  named := by decide
  few := by decide
  outcomes := by decide
  tables := by decide
  hasTable := by decide
  known := by decide
  dims := by decide
  parents := by decide
  size := by
    intro f hf h1 h2
    simp only [umbRadio, List.mem_cons, List.not_mem_nil, or_false] at hf
    rcases hf with rfl | rfl | rfl | rfl | rfl | rfl | rfl
    · exact ⟨_, rfl, by decide⟩
    · exact ⟨_, rfl, by decide⟩
    · exact absurd h2 (by decide)
    · exact ⟨_, rfl, by decide⟩
    · exact ⟨_, rfl, by decide⟩
    · exact absurd rfl h1
    · exact ⟨_, rfl, by decide⟩
  single := by decide
  weights := by
    intro i h
    obtain rfl : 3 = i := Option.some.inj h
    exact ⟨_, _, _, rfl, rfl, rfl, rfl, rfl, by decide, by decide⟩

/-- Rows do not sum to zero, if that is so for each outcome of the only parent `p`. -/
theorem regular_one {m : Net ℚ} {p : String} {v : NVar} (hv : v ∈ m.stateVars) (hp : v.name = p) (h2 : v.outcomes.length = 2)
    (hd : ∀ f ∈ m.chanceTables, ∀ s ∈ f.dims, s = p ∨ s = f.forVar)
    (key : ∀ a < 2, ∀ f ∈ m.chanceTables, m.rowSum f (World.set (fun _ => 0) p a) ≠ 0) : m.Regular := by
  intro f hf w hw
  have h1 : w p < 2 := by have := hw v hv; rwa [hp, h2] at this
  intro h0
  apply key _ h1 f hf
  rw [← h0]
  unfold Net.rowSum
  refine Finset.sum_congr rfl (fun k _ => entry_congr _ f (fun s hs => ?_))
  unfold World.set
  by_cases e0 : s = f.forVar
  · simp [e0]
  · rcases hd f hf s hs with rfl | e
    · simp [e0]
    · exact absurd e e0

theorem umbRadio_regular : umbRadio.Regular :=
  regular_one (p := "Weather") (v := ⟨"Weather", .chance, ["sun", "rain"], (0, 0), "", some 1⟩) (by decide) rfl rfl (by decide)
    (by decide +kernel)

theorem umb_acyclic : umb.Acyclic := ⟨fun s => if s = "Weather" then 0 else 1, by decide⟩

theorem umbRadio_acyclic : umbRadio.Acyclic := ⟨fun s => if s = "Weather" then 0 else 1, by decide⟩

theorem umbRadio_solvable : umbRadio.Solvable where
  used := by decide
  acyclic := by
    have : ∀ p d, ¬ umbRadio.DecisionParent p d := by
      rintro p d ⟨h1, h2, f, hf, rfl, hg⟩
      have : ∀ f ∈ umbRadio.factors, umbRadio.isKind .decision f.forVar = true → ∀ g ∈ f.given, umbRadio.isKind .decision g = false := by
        decide
      rw [this f hf h2 p hg] at h1
      simp at h1
    intro s h
    obtain ⟨c, _, h⟩ := Relation.TransGen.tail'_iff.1 h
    exact this _ _ h
  utility := by decide

/-- The hypotheses of `C141_decisions` are met: the radio does not change what the forecast is worth. -/
example (sch sch' sch₁ sch₁' : NSched ℚ) : ∃ tables m g m₁ tables' m' g' m₁' x, umb.solvePolicies sch false = (.ok tables, m) ∧
      m.solveUtility sch₁ [] [] "" false = (.ok g, m₁) ∧ g.data = [x] ∧
      umbRadio.solvePolicies sch' false = (.ok tables', m') ∧ m'.solveUtility sch₁' [] [] "" false = (.ok g', m₁') ∧
      g'.data = [x] := by
  have hone : ∀ {m : Net ℚ}, m.decisions = ["Umbrella"] → (∃ f ∈ m.factors, m.isKind .utility f.forVar = true ∧
      f.forVar ≠ m.totalName ∧ "Umbrella" ∈ f.given) → ∀ order, order.Perm m.decisions → m.Ordered order →
      ∀ A d B, order = A ++ d :: B → m.Matters (A ++ [d]) d := by
    intro m hd ⟨f, hf, h1, h2, h3⟩ o ho _ A d B e
    have : d ∈ m.decisions := ho.subset (by rw [e]; simp)
    rw [hd, List.mem_singleton] at this
    subst this
    exact .utility hf h1 h2 h3
  refine C141_decisions sch sch' sch₁ sch₁' umb_valid umbRadio_valid umb_solvable umbRadio_solvable (by decide) ?_ umb_acyclic
    umb_regular umbRadio_acyclic umbRadio_regular (by decide) (by decide) (hone (by decide) (by decide))
    (hone (by decide) (by decide)) ⟨?_, ?_⟩ ⟨by decide, ?_⟩ ⟨by decide, by decide +kernel, by decide⟩ false false
  · have hdec : umb.decisions = ["Umbrella"] := by decide
    intro d hd e he
    rw [hdec, List.mem_singleton] at hd he
    exact .inl (hd.trans he.symm)
  · intro v hv _
    have : ∀ v ∈ umb.variables, ∃ v' ∈ umbRadio.variables, v'.name = v.name ∧ v'.nodeType = v.nodeType ∧
      v'.outcomes = v.outcomes := by decide
    exact this v hv
  · intro f hf _
    have : ∀ f ∈ umb.chanceTables, ∃ f' ∈ umbRadio.chanceTables, f'.forVar = f.forVar ∧ f'.given = f.given ∧
      f'.table = f.table := by decide
    exact this f hf
  · have hdec : umb.decisions = ["Umbrella"] := by decide
    intro d hd s
    rw [hdec, List.mem_singleton] at hd
    subst hd
    simp [umb, umbRadio]

/-- What is reported for both. -/
example : ∀ m ∈ [umb, umbRadio], ((m.solvePolicies back false).2.solveUtility back [] [] "" false).1.toOption.map Factor.data =
    some [368 / 5] := by
  decide +kernel

/-- Rain and a mood, without the sprinkler. -/
def moodOnly : Net ℚ :=
  { mood with
    «variables» := [⟨"Rain", .chance, ["yes", "no"], (0, 0), "", some 1⟩, ⟨"Mood", .utility, ["mood"], (0, 0), "", some 0⟩]
    factors := [⟨"Rain", [], some [20, 80], [], 2⟩, ⟨"Mood", ["Rain"], some [-5, 10], [2], 1⟩] }

theorem moodOnly_valid : moodOnly.Valid where
  names := by decide
  named := by decide
  few := by decide
  outcomes := by decide
  tables := by decide
  hasTable := by decide
  known := by decide
  dims := by decide
  parents := by decide
  size := by
    intro f hf _ _
    simp only [moodOnly, List.mem_cons, List.not_mem_nil, or_false] at hf
    rcases hf with rfl | rfl <;> exact ⟨_, rfl, by decide⟩
  single := by decide
  weights := by intro i h; simp [moodOnly, mood, dry] at h

/-- The hypotheses of `C141_expectation` are met: the sprinkler is not needed to know what the mood is if it rains. -/
example (sch sch' : NSched ℚ) : ∃ y : ℚ, mood.Worth sch [("Rain", "yes")] "Mood" false y ∧
    moodOnly.Worth sch' [("Rain", "yes")] "Mood" false y := by
  have hup : ∀ s, mood.Upward (([("Rain", "yes")] : List (String × String)).map Prod.fst ++ mood.lookedAt "Mood") s → s = "Rain" := by
    have e : mood.lookedAt "Mood" = ["Rain"] := by decide
    rw [e]
    rintro s (h | ⟨y, hy, h⟩)
    · simpa using h
    · have hy : y = "Rain" := by simpa using hy
      subst hy
      exfalso
      have key : ∀ {y}, mood.Below s y → y ≠ "Rain" := by
        intro y h
        have hr : ∀ f ∈ mood.chanceTables, f.forVar = "Rain" → f.given = [] := by decide
        cases h with
        | child hf hx => intro e; rw [hr _ hf e] at hx; simp at hx
        | step _ hf hx => intro e; rw [hr _ hf e] at hx; simp at hx
      exact key h rfl
  refine C141_expectation (u := "Mood") (evidence := [("Rain", "yes")]) sch sch' mood_valid moodOnly_valid rfl rfl (by decide)
    (by decide) ⟨fun s => if s = "Rain" then 0 else 1, by decide⟩ ?_ ⟨fun _ => 0, by decide⟩ ?_ (.inr (by decide))
    ⟨by decide, by decide⟩ ⟨?_, ?_⟩ ⟨by decide, by decide +kernel, by decide⟩ false false
  · exact regular_one (p := "Rain") (v := ⟨"Rain", .chance, ["yes", "no"], (0, 0), "", some 1⟩) (by decide) rfl rfl (by decide)
      (by decide +kernel)
  · exact regular_one (p := "Rain") (v := ⟨"Rain", .chance, ["yes", "no"], (0, 0), "", some 1⟩) (by decide) rfl rfl (by decide)
      (by decide +kernel)
  · intro v hv hu
    have : ∀ v ∈ mood.variables, v.name = "Rain" → ∃ v' ∈ moodOnly.variables, v'.name = v.name ∧ v'.nodeType = v.nodeType ∧
      v'.outcomes = v.outcomes := by decide
    exact this v hv (hup _ hu)
  · intro f hf hu
    have : ∀ f ∈ mood.chanceTables, f.forVar = "Rain" → ∃ f' ∈ moodOnly.chanceTables, f'.forVar = f.forVar ∧
      f'.given = f.given ∧ f'.table = f.table := by decide
    exact this f hf (hup _ hu)

end Ex

end Bbn
