import Verif.Spec.Tree
import Verif.Props.NetWhatIf
import Verif.Props.NetRecall

/-!
# The decision tree
-/

set_option autoImplicit false

namespace Bbn

open Finset

variable {α : Type}

theorem foldl_max [LinearOrder α] : ∀ (l : List α) (a : α), a ≤ l.foldl max a ∧ (∀ x ∈ l, x ≤ l.foldl max a) ∧
    (l.foldl max a = a ∨ l.foldl max a ∈ l)
  | [], a => ⟨le_rfl, by simp, .inl rfl⟩
  | b :: l, a => by
    obtain ⟨h1, h2, h3⟩ := foldl_max l (max a b)
    rw [List.foldl_cons]
    refine ⟨(le_max_left _ _).trans h1, fun x hx => ?_, ?_⟩
    · rcases List.mem_cons.1 hx with rfl | hx
      · exact (le_max_right _ _).trans h1
      · exact h2 x hx
    · rcases h3 with h3 | h3
      · rw [h3]
        rcases max_choice a b with h | h <;> rw [h] <;> simp
      · exact .inr (List.mem_cons_of_mem _ h3)

theorem largest_ge [LinearOrder α] {m : Nat} (f : Nat → α) {k : Nat} (hk : k < m) : f k ≤ largest m f :=
  (foldl_max _ _).2.1 _ (List.mem_map_of_mem (List.mem_range.2 hk))

theorem largest_mem [LinearOrder α] {m : Nat} (f : Nat → α) (hm : 0 < m) : ∃ k < m, largest m f = f k := by
  rcases (foldl_max ((List.range m).map f) (f 0)).2.2 with h | h
  · exact ⟨0, hm, h⟩
  · obtain ⟨k, hk, e⟩ := List.mem_map.1 h
    exact ⟨k, List.mem_range.1 hk, e.symm⟩

theorem largest_congr [LinearOrder α] {m : Nat} {f g : Nat → α} (hm : 0 < m) (h : ∀ k < m, f k = g k) :
    largest m f = largest m g := by
  unfold largest
  rw [h 0 hm, List.map_congr_left (fun k hk => h k (List.mem_range.1 hk))]

/-- The decision tree in terms of worlds. -/
def worldTree [AddCommMonoid α] [LinearOrder α] (L : World → α) : List NVar → World → α
  | [], w => L w
  | v :: l, w =>
    if v.nodeType = .decision then largest v.outcomes.length (fun k => worldTree L l (w.set v.name k))
    else ∑ k ∈ range v.outcomes.length, worldTree L l (w.set v.name k)

/-- The outcomes that the start world gives to the variables of the tree do not matter. -/
theorem worldTree_start [AddCommMonoid α] [LinearOrder α] (L : World → α) : ∀ (l : List NVar) (w w' : World),
    (∀ s, s ∉ l.map NVar.name → w s = w' s) → worldTree L l w = worldTree L l w' := by
  intro l
  induction l with
  | nil =>
    intro w w' h
    rw [show w = w' from funext (fun s => h s (by simp))]
  | cons v l ih =>
    intro w w' h
    have key : ∀ k, worldTree L l (w.set v.name k) = worldTree L l (w'.set v.name k) := by
      refine fun k => ih _ _ (fun s hs => ?_)
      unfold World.set
      split_ifs with e
      · rfl
      · exact h s (by simp only [List.map_cons, List.mem_cons, not_or]; exact ⟨e, hs⟩)
    simp only [worldTree, key]

theorem stage_allowed {n : Net α} (hn : n.Valid) {w : World} (hw : n.Allowed w) {v : NVar} (hv : v ∈ n.stateVars) {k : Nat}
    (hk : k < v.outcomes.length) : n.Allowed (w.set v.name k) := by
  intro u hu
  by_cases e : u.name = v.name
  · rw [e, World.set_eq, name_unique hn (mem_stateVars.1 hu).1 (mem_stateVars.1 hv).1 e]
    exact hk
  · rw [World.set_ne _ e]
    exact hw u hu

/-- What is listed after a variable. -/
def after (stages : List NVar) (s : String) : List NVar := (stages.dropWhile (fun v => v.name ≠ s)).tail

theorem after_eq : ∀ {A : List NVar} {d : NVar} {l : List NVar}, d.name ∉ A.map NVar.name → after (A ++ d :: l) d.name = l
  | [], d, l, _ => by simp [after]
  | a :: A, d, l, h => by
    simp only [List.map_cons, List.mem_cons, not_or] at h
    have := after_eq (l := l) h.2
    unfold after at this ⊢
    rw [List.cons_append, List.dropWhile_cons_of_pos (by simpa using fun e => h.1 e.symm)]
    exact this

/-- A number for which the function is largest. -/
noncomputable def pick [LinearOrder α] (m : Nat) (f : Nat → α) : Nat :=
  Classical.epsilon (fun k => k < m ∧ largest m f = f k)

theorem pick_spec [LinearOrder α] {m : Nat} (f : Nat → α) (hm : 0 < m) : pick m f < m ∧ largest m f = f (pick m f) :=
  Classical.epsilon_spec (p := fun k => k < m ∧ largest m f = f k) (largest_mem f hm)

/-- Only what is on the timeline. -/
def onLine (stages : List NVar) (w : World) : World := fun s => if s ∈ stages.map NVar.name then w s else 0

/-- Deciding as the tree says. -/
noncomputable def bestPlay [CommSemiring α] [LinearOrder α] (n : Net α) (L : World → α) (stages : List NVar) (d : String) (w : World) : α :=
  if w d = pick (n.count d) (fun k => worldTree L (after stages d) ((onLine stages w).set d k)) then 1 else 0

variable [Field α] [LinearOrder α] [IsStrictOrderedRing α]

/-- What the strategies say for the decisions in the list. -/
def taken (δ : String → World → α) (l : List NVar) (w : World) : α :=
  ((l.filter (fun v => v.nodeType = .decision)).map (fun v => δ v.name w)).prod

/-- A strategy for each decision of the timeline that knows what is listed before. -/
def Net.Follows (n : Net α) (stages : List NVar) (δ : String → World → α) : Prop :=
  ∀ A d B, stages = A ++ d :: B → d.nodeType = .decision →
    (∀ w, n.Allowed w → 0 ≤ δ d.name w) ∧ (∀ w, n.Allowed w → ∑ k ∈ range d.outcomes.length, δ d.name (w.set d.name k) = 1) ∧
    ∀ w w', n.Allowed w → n.Allowed w' → (∀ s ∈ (A ++ [d]).map NVar.name, w s = w' s) → δ d.name w = δ d.name w'

/-- The first factor can be taken out of the sum. -/
theorem taken_step {n : Net α} (hn : n.Valid) {stages : List NVar} (ht : ∀ v ∈ stages, v ∈ n.stateVars)
    (hnd : (stages.map NVar.name).Nodup) {δ : String → World → α} (hδ : n.Follows stages δ) (L : World → α) {A : List NVar}
    {d : NVar} {l : List NVar} (hl : stages = A ++ d :: l) (hd : d.nodeType = .decision) {w : World} (hw : n.Allowed w) :
    sumWorlds (d :: l) (fun w => L w * taken δ (d :: l) w) w =
      ∑ k ∈ range d.outcomes.length, δ d.name (w.set d.name k) *
        sumWorlds l (fun w => L w * taken δ l w) (w.set d.name k) := by
  simp only [sumWorlds]
  refine Finset.sum_congr rfl (fun k hk => ?_)
  have hk := Finset.mem_range.1 hk
  rw [← sumWorlds_mul]
  have hnd' := hnd
  rw [hl, List.map_append, List.map_cons, List.nodup_append] at hnd'
  have hnl := List.nodup_cons.1 hnd'.2.1
  have hwk := stage_allowed hn hw (ht d (by rw [hl]; simp)) hk
  refine sumWorlds_congr _ _ hnl.2 (fun w' h1 h2 => ?_)
  have hw' : n.Allowed w' := by
    intro u hu
    by_cases e : u.name ∈ l.map NVar.name
    · obtain ⟨x, hx, e⟩ := List.mem_map.1 e
      rw [← name_unique hn (mem_stateVars.1 (ht x (by rw [hl]; simp [hx]))).1 (mem_stateVars.1 hu).1 e]
      exact h1 x hx
    · rw [h2 _ e]
      exact hwk u hu
  have : δ d.name w' = δ d.name (w.set d.name k) := (hδ A d l hl hd).2.2 _ _ hw' hwk (fun s hs => h2 s (fun h => by
    rw [List.map_append, List.mem_append] at hs
    rcases hs with hs | hs
    · exact hnd'.2.2 s hs s (by simp [h]) rfl
    · rw [List.map_singleton, List.mem_singleton] at hs
      exact hnl.1 (hs ▸ h)))
  rw [← this]
  unfold taken
  rw [List.filter_cons_of_pos (by simpa using hd), List.map_cons, List.prod_cons]
  ring

theorem taken_skip {δ : String → World → α} {d : NVar} (hd : d.nodeType ≠ .decision) (l : List NVar) (w : World) :
    taken δ (d :: l) w = taken δ l w := by
  unfold taken
  rw [List.filter_cons_of_neg (by simpa using hd)]

/-- No strategies are better than the tree. -/
theorem tree_bound {n : Net α} (hn : n.Valid) {stages : List NVar} (ht : ∀ v ∈ stages, v ∈ n.stateVars)
    (hnd : (stages.map NVar.name).Nodup) {δ : String → World → α} (hδ : n.Follows stages δ) (L : World → α) :
    ∀ (l A : List NVar), stages = A ++ l → ∀ w, n.Allowed w →
      sumWorlds l (fun w => L w * taken δ l w) w ≤ worldTree L l w := by
  intro l
  induction l with
  | nil => intro A _ w _; simp [sumWorlds, taken, worldTree]
  | cons v l ih =>
    intro A hl w hw
    have hv := ht v (by rw [hl]; simp)
    have ih' := fun k (hk : k < v.outcomes.length) => ih (A ++ [v]) (by rw [hl]; simp) _ (stage_allowed hn hw hv hk)
    by_cases hd : v.nodeType = .decision
    · rw [taken_step hn ht hnd hδ L hl hd hw, worldTree, if_pos hd]
      obtain ⟨h1, h2, _⟩ := hδ A v l hl hd
      refine le_trans (Finset.sum_le_sum (fun k hk => mul_le_mul_of_nonneg_left
        ((ih' k (Finset.mem_range.1 hk)).trans (largest_ge (fun k => worldTree L l (w.set v.name k)) (Finset.mem_range.1 hk)))
        (h1 _ (stage_allowed hn hw hv (Finset.mem_range.1 hk))))) ?_
      rw [← Finset.sum_mul, h2 w hw, one_mul]
    · simp only [sumWorlds, worldTree, if_neg hd, taken_skip hd]
      exact Finset.sum_le_sum (fun k hk => ih' k (Finset.mem_range.1 hk))

/-- What the tree says for a decision depends only on what is listed before. -/
theorem bestPlay_known {n : Net α} (L : World → α) {stages A : List NVar} {d : NVar} {l : List NVar}
    (hnd : (stages.map NVar.name).Nodup) (hl : stages = A ++ d :: l) {w w' : World}
    (h : ∀ s ∈ A.map NVar.name, w s = w' s) (hd : w d.name = w' d.name) :
    bestPlay n L stages d.name w = bestPlay n L stages d.name w' := by
  have hnd' := hnd
  rw [hl, List.map_append, List.map_cons, List.nodup_append] at hnd'
  have hA : d.name ∉ A.map NVar.name := fun h => hnd'.2.2 _ h d.name (by simp) rfl
  unfold bestPlay
  rw [hl, after_eq hA, ← hl, hd]
  have : (fun k => worldTree L l ((onLine stages w).set d.name k)) = fun k => worldTree L l ((onLine stages w').set d.name k) := by
    funext k
    refine worldTree_start L l _ _ (fun s hs => ?_)
    by_cases e : s = d.name
    · rw [e, World.set_eq, World.set_eq]
    · rw [World.set_ne _ e, World.set_ne _ e]
      unfold onLine
      split_ifs with hm
      · rw [hl, List.map_append, List.map_cons, List.mem_append, List.mem_cons] at hm
        rcases hm with hm | hm | hm
        · exact h s hm
        · exact absurd hm e
        · exact absurd hm hs
      · rfl
  rw [this]

theorem onLine_id {stages : List NVar} {w : World} (h : ∀ s, s ∉ stages.map NVar.name → w s = 0) : onLine stages w = w := by
  funext s
  unfold onLine
  split_ifs with hs
  · rfl
  · exact (h s hs).symm

theorem bestPlay_set {n : Net α} (hn : n.Valid) (L : World → α) {stages A : List NVar} {d : NVar} {l : List NVar}
    (hnd : (stages.map NVar.name).Nodup) (hl : stages = A ++ d :: l) (hd : d ∈ n.variables) (w : World) (k : Nat) :
    bestPlay n L stages d.name (w.set d.name k) =
      if k = pick d.outcomes.length (fun j => worldTree L l ((onLine stages w).set d.name j)) then 1 else 0 := by
  have hnd' := hnd
  rw [hl, List.map_append, List.map_cons, List.nodup_append] at hnd'
  have hA : d.name ∉ A.map NVar.name := fun h => hnd'.2.2 _ h d.name (by simp) rfl
  unfold bestPlay
  rw [World.set_eq, count_eq hn hd, hl, after_eq hA, ← hl]
  have : (fun j => worldTree L l ((onLine stages (w.set d.name k)).set d.name j)) =
      fun j => worldTree L l ((onLine stages w).set d.name j) := by
    funext j
    congr 1
    funext s
    by_cases e : s = d.name
    · rw [e, World.set_eq, World.set_eq]
    · rw [World.set_ne _ e, World.set_ne _ e]
      unfold onLine
      rw [World.set_ne _ e]
  rw [this]

theorem bestPlay_follows {n : Net α} (hn : n.Valid) (L : World → α) {stages : List NVar} (ht : ∀ v ∈ stages, v ∈ n.stateVars)
    (hnd : (stages.map NVar.name).Nodup) : n.Follows stages (bestPlay n L stages) := by
  intro A d B hl hd
  have hdv := ht d (by rw [hl]; simp)
  refine ⟨fun w _ => by unfold bestPlay; split_ifs <;> norm_num, fun w hw => ?_, fun w w' _ _ h => ?_⟩
  · simp only [bestPlay_set hn L hnd hl (mem_stateVars.1 hdv).1]
    rw [Finset.sum_ite_eq', if_pos (Finset.mem_range.2 (pick_spec _ (Nat.zero_lt_of_lt (hw d hdv))).1)]
  · refine bestPlay_known L hnd hl (fun s hs => h s ?_) (h _ (by simp))
    rw [List.map_append, List.mem_append]
    exact .inl hs

/-- Deciding as the tree says gives the value of the tree. -/
theorem tree_attained {n : Net α} (hn : n.Valid) (L : World → α) {stages : List NVar} (ht : ∀ v ∈ stages, v ∈ n.stateVars)
    (hnd : (stages.map NVar.name).Nodup) :
    ∀ (l A : List NVar), stages = A ++ l → ∀ w, n.Allowed w → (∀ s, s ∉ stages.map NVar.name → w s = 0) →
      sumWorlds l (fun w => L w * taken (bestPlay n L stages) l w) w = worldTree L l w := by
  intro l
  induction l with
  | nil => intro A _ w _ _; simp [sumWorlds, taken, worldTree]
  | cons v l ih =>
    intro A hl w hw h0
    have hv := ht v (by rw [hl]; simp)
    have ih' := fun k (hk : k < v.outcomes.length) => ih (A ++ [v]) (by rw [hl]; simp) _ (stage_allowed hn hw hv hk)
      (fun s hs => by
        rw [World.set_ne _ (fun e => hs (by rw [e, hl]; simp))]
        exact h0 s hs)
    by_cases hd : v.nodeType = .decision
    · rw [taken_step hn ht hnd (bestPlay_follows hn L ht hnd) L hl hd hw, worldTree, if_pos hd]
      simp only [bestPlay_set hn L hnd hl (mem_stateVars.1 hv).1, onLine_id h0]
      obtain ⟨p1, p2⟩ := pick_spec (fun j => worldTree L l (w.set v.name j)) (Nat.zero_lt_of_lt (hw v hv))
      simp only [ite_mul, one_mul, zero_mul]
      rw [Finset.sum_ite_eq', if_pos (Finset.mem_range.2 p1), ih' _ p1, p2]
    · simp only [sumWorlds, worldTree, if_neg hd, taken_skip hd]
      exact Finset.sum_congr rfl (fun k hk => ih' k (Finset.mem_range.1 hk))

/-- What is known after a path through the tree. -/
def told (l : List NVar) (w : World) : List (String × String) := l.map (fun v => (v.name, v.outcomes.getD (w v.name) ""))

theorem told_set {l : List NVar} {s : String} (h : s ∉ l.map NVar.name) (w : World) (k : Nat) :
    told l (w.set s k) = told l w := by
  unfold told
  refine List.map_congr_left (fun v hv => ?_)
  rw [World.set_ne _ (fun e : v.name = s => h (e ▸ List.mem_map_of_mem hv))]

/-- The tree of the reports is the tree of the worlds. -/
theorem rollback_world {n : Net α} (hn : n.Valid) (L : World → α) (leaf : List (String × String) → α) {stages : List NVar}
    (ht : ∀ v ∈ stages, v ∈ n.stateVars) (hnd : (stages.map NVar.name).Nodup)
    (hleaf : ∀ w, n.Allowed w → (∀ s, s ∉ stages.map NVar.name → w s = 0) → leaf (told stages w) = L w) :
    ∀ (l A : List NVar), stages = A ++ l → ∀ w, n.Allowed w → (∀ s, s ∉ stages.map NVar.name → w s = 0) →
      rollback leaf l (told A w) = worldTree L l w := by
  intro l
  induction l with
  | nil => intro A hl w hw h0; rw [List.append_nil] at hl; rw [rollback, worldTree, ← hl, hleaf w hw h0]
  | cons v l ih =>
    intro A hl w hw h0
    have hv := ht v (by rw [hl]; simp)
    have hnd' := hnd
    rw [hl, List.map_append, List.map_cons, List.nodup_append] at hnd'
    have hA : v.name ∉ A.map NVar.name := fun h => hnd'.2.2 _ h v.name (by simp) rfl
    have ih' : ∀ k < v.outcomes.length, rollback leaf l (told A w ++ [(v.name, v.outcomes.getD k "")]) =
        worldTree L l (w.set v.name k) := by
      intro k hk
      rw [← ih (A ++ [v]) (by rw [hl]; simp) _ (stage_allowed hn hw hv hk) (fun s hs => by
        rw [World.set_ne _ (fun e => hs (by rw [e, hl]; simp))]
        exact h0 s hs)]
      congr 1
      rw [← told_set hA w k]
      unfold told
      rw [List.map_append, List.map_singleton, World.set_eq]
    rw [rollback, worldTree]
    split_ifs with hd
    · exact largest_congr (Nat.zero_lt_of_lt (hw v hv)) ih'
    · exact Finset.sum_congr rfl (fun k hk => ih' k (Finset.mem_range.1 hk))

namespace Net.Timeline

variable {n : Net α} {stages : List NVar}

omit [Field α] [LinearOrder α] [IsStrictOrderedRing α] in
theorem known (h : n.Timeline stages) {A : List NVar} {d : NVar} {B : List NVar} (hl : stages = A ++ d :: B)
    (hd : d.nodeType = .decision) (s : String) : n.Known [d.name] s ↔ s = d.name ∨ s ∈ A.map NVar.name := by
  rw [← h.parents A d B hl hd s]
  unfold Net.Known
  simp only [List.mem_singleton]

omit [Field α] [LinearOrder α] [IsStrictOrderedRing α] in
theorem find (h : n.Timeline stages) (hn : n.Valid) {s : String} (hs : s ∈ n.decisions) :
    ∃ A d B, stages = A ++ d :: B ∧ d.name = s ∧ d.nodeType = .decision := by
  obtain ⟨d, hd, e⟩ := List.mem_map.1 (h.decisions s hs)
  obtain ⟨A, B, hl⟩ := List.append_of_mem hd
  exact ⟨A, d, B, hl, e, (isKind_iff hn (mem_stateVars.1 (h.state d hd)).1 _).1 (by rw [e]; exact mem_decisions.1 hs)⟩

omit [Field α] [LinearOrder α] [IsStrictOrderedRing α] in
theorem earlier (h : n.Timeline stages) {A : List NVar} {d : NVar} {B : List NVar} (hl : stages = A ++ d :: B)
    (hd : d.nodeType = .decision) {e : NVar} (he : e ∈ A) (het : e.nodeType = .decision) : n.Remembers e.name d.name := by
  have hnd := h.once
  rw [hl, List.map_append, List.map_cons, List.nodup_append] at hnd
  refine ⟨fun hh => hnd.2.2 _ (List.mem_map_of_mem he) d.name (by simp) hh, fun s hs => ?_⟩
  obtain ⟨A', B', rfl⟩ := List.append_of_mem he
  rw [h.known (A := A') (B := B' ++ d :: B) (by rw [hl]; simp) het] at hs
  rw [h.known hl hd]
  refine .inr ?_
  simp only [List.map_append, List.map_cons, List.mem_append, List.mem_cons]
  tauto

omit [Field α] [LinearOrder α] [IsStrictOrderedRing α] in
theorem recall (h : n.Timeline stages) (hn : n.Valid) : n.Recall := by
  intro d hd e he
  obtain ⟨A, u, B, hl, rfl, hu⟩ := h.find hn hd
  obtain ⟨A', v, B', hl', rfl, hv⟩ := h.find hn he
  have hm : v ∈ A ++ u :: B := by rw [← hl, hl']; simp
  rcases List.mem_append.1 hm with hm | hm
  · exact .inr (.inr (h.earlier hl hu hm hv))
  · rcases List.mem_cons.1 hm with rfl | hm
    · exact .inl rfl
    · obtain ⟨C, D, rfl⟩ := List.append_of_mem hm
      exact .inr (.inl (h.earlier (A := A ++ u :: C) (B := D) (by rw [hl]; simp) hv (by simp) hu))

/-- The decisions in the order of the timeline. -/
def order (stages : List NVar) : List String := (stages.filter (fun v => v.nodeType = .decision)).map NVar.name

omit [Field α] [LinearOrder α] [IsStrictOrderedRing α] in
theorem split {C : List String} {s : String} {D : List String} (e : order stages = C ++ s :: D) :
    ∃ A d B, stages = A ++ d :: B ∧ d.name = s ∧ d.nodeType = .decision ∧ C = order A := by
  unfold order at e
  obtain ⟨l1, l2, e1, rfl, e2⟩ := List.map_eq_append_iff.1 e
  obtain ⟨d, l3, rfl, rfl, rfl⟩ := List.map_eq_cons_iff.1 e2
  obtain ⟨A, R, rfl, rfl, e3⟩ := List.filter_eq_append_iff.1 e1
  obtain ⟨A', B, rfl, h2, h3, rfl⟩ := List.filter_eq_cons_iff.1 e3
  refine ⟨A ++ A', d, B, by simp, rfl, by simpa using h3, ?_⟩
  unfold order
  rw [List.filter_append, List.filter_eq_nil_iff.2 h2, List.append_nil]

omit [Field α] [LinearOrder α] [IsStrictOrderedRing α] in
theorem order_perm (h : n.Timeline stages) (hn : n.Valid) : (order stages).Perm n.decisions := by
  refine (List.perm_ext_iff_of_nodup (h.once.sublist (List.filter_sublist.map _)) (decisions_nodup hn)).2 (fun s => ?_)
  constructor
  · intro hs
    obtain ⟨v, hv, rfl⟩ := List.mem_map.1 hs
    obtain ⟨h1, h2⟩ := List.mem_filter.1 hv
    exact mem_decisions.2 ((isKind_iff hn (mem_stateVars.1 (h.state v h1)).1 _).2 (by simpa using h2))
  · intro hs
    obtain ⟨A, d, B, rfl, rfl, hd⟩ := h.find hn hs
    exact List.mem_map_of_mem (List.mem_filter.2 ⟨by simp, by simpa using hd⟩)

omit [Field α] [LinearOrder α] [IsStrictOrderedRing α] in
theorem order_ordered (h : n.Timeline stages) (hn : n.Valid) : n.Ordered (order stages) := by
  intro C s D e p ⟨hp, _, f, hf, h1, h2⟩
  obtain ⟨A, d, B, hl, rfl, hd, rfl⟩ := split e
  obtain ⟨v, hv, rfl⟩ := List.mem_map.1 ((h.parents A d B hl hd p).1 ⟨f, hf, h1, h2⟩)
  refine List.mem_map_of_mem (List.mem_filter.2 ⟨hv, ?_⟩)
  have := (isKind_iff hn (mem_stateVars.1 (h.state v (by rw [hl]; simp [hv]))).1 _).1 hp
  simpa using this

/-- To know what is listed before is to know the decisions taken and all their parents. -/
theorem strategies (h : n.Timeline stages) (hn : n.Valid) (δ : String → World → α) :
    (∀ C s D, order stages = C ++ s :: D → n.Strategy C s (δ s)) ↔ n.Follows stages δ := by
  have key : ∀ A d B, stages = A ++ d :: B → d.nodeType = .decision → ∀ s,
      n.Known (order A ++ [d.name]) s ↔ s ∈ (A ++ [d]).map NVar.name := by
    intro A d B hl hd s
    have ho : order stages = order A ++ d.name :: order B := by
      unfold order
      rw [hl, List.filter_append, List.filter_cons_of_pos (by simpa using hd), List.map_append, List.map_cons]
    have h1 : n.Known (order A ++ [d.name]) s ↔ n.Known [d.name] s := by
      constructor
      · exact (h.recall hn).known hn (h.order_perm hn) (h.order_ordered hn) ho
      · rintro (h | ⟨f, h1, h2, h3⟩)
        · exact .inl (List.mem_append_right _ h)
        · exact .inr ⟨f, h1, List.mem_append_right _ h2, h3⟩
    rw [h1, h.known hl hd]
    simp only [List.map_append, List.map_singleton, List.mem_append, List.mem_singleton]
    tauto
  constructor
  · intro hs A d B hl hd
    have ho : order stages = order A ++ d.name :: order B := by
      unfold order
      rw [hl, List.filter_append, List.filter_cons_of_pos (by simpa using hd), List.map_append, List.map_cons]
    have := hs _ _ _ ho
    refine ⟨this.nonneg, fun w hw => ?_, fun w w' hw hw' e => this.known w w' hw hw' (fun s hs => e s ((key A d B hl hd s).1 hs))⟩
    rw [← count_eq hn (mem_stateVars.1 (h.state d (by rw [hl]; simp))).1]
    exact this.one w hw
  · intro hs C s D e
    obtain ⟨A, d, B, hl, rfl, hd, rfl⟩ := split e
    obtain ⟨h1, h2, h3⟩ := hs A d B hl hd
    refine ⟨h1, fun w hw => ?_, fun w w' hw hw' e => h3 w w' hw hw' (fun s hs => e s ((key A d B hl hd s).2 hs))⟩
    rw [count_eq hn (mem_stateVars.1 (h.state d (by rw [hl]; simp))).1]
    exact h2 w hw

/-- The variables that never become known. -/
def rest (n : Net α) (stages : List NVar) : List NVar := n.stateVars.filter (fun v => v.name ∉ stages.map NVar.name)

/-- What is at the end of a path: probability times utility, summed over what never becomes known. -/
def ends (n : Net α) (stages : List NVar) (w : World) : α :=
  sumWorlds (rest n stages) (fun w => (n.chanceTables.map (fun f => n.prob f w)).prod * n.totalIn w) w

omit [Field α] [LinearOrder α] [IsStrictOrderedRing α] in
theorem perm (h : n.Timeline stages) (hn : n.Valid) : n.stateVars.Perm (stages ++ rest n stages) := by
  refine (List.perm_ext_iff_of_nodup (stateVars_names hn).of_map ?_).2 (fun v => ?_)
  · rw [List.nodup_append]
    refine ⟨h.once.of_map, (stateVars_names hn).of_map.filter _, fun a ha b hb e => ?_⟩
    have := (List.mem_filter.1 hb).2
    simp only [decide_eq_true_eq] at this
    exact this (e ▸ List.mem_map_of_mem ha)
  · rw [List.mem_append]
    constructor
    · intro hv
      by_cases e : v.name ∈ stages.map NVar.name
      · obtain ⟨u, hu, e⟩ := List.mem_map.1 e
        exact .inl (name_unique hn (mem_stateVars.1 (h.state u hu)).1 (mem_stateVars.1 hv).1 e ▸ hu)
      · exact .inr (List.mem_filter.2 ⟨hv, by simpa using e⟩)
    · rintro (hv | hv)
      · exact h.state v hv
      · exact (List.mem_filter.1 hv).1

theorem expected (h : n.Timeline stages) (hn : n.Valid) {δ : String → World → α} (hδ : n.Follows stages δ) :
    n.expectedTotal δ = sumWorlds stages (fun w => ends n stages w * taken δ stages w) (fun _ => 0) := by
  unfold Net.expectedTotal
  rw [sumWorlds_perm _ (h.perm hn) _ (stateVars_names hn), sumWorlds_append]
  have hall : ∀ w : World, (∀ v ∈ stages, w v.name < v.outcomes.length) →
      (∀ s, s ∉ stages.map NVar.name → w s = 0) → n.Allowed w := by
    intro w h1 h2 u hu
    by_cases e : u.name ∈ stages.map NVar.name
    · obtain ⟨x, hx, e⟩ := List.mem_map.1 e
      rw [← name_unique hn (mem_stateVars.1 (h.state x hx)).1 (mem_stateVars.1 hu).1 e]
      exact h1 x hx
    · rw [h2 _ e]
      exact allowed_zero hn u hu
  refine sumWorlds_congr _ _ h.once (fun w h1 h2 => ?_)
  have hw := hall w h1 h2
  unfold ends
  rw [mul_comm, ← sumWorlds_mul]
  refine sumWorlds_congr _ _ ((stateVars_names hn).sublist (List.filter_sublist.map _)) (fun w' h3 h4 => ?_)
  have hst : ∀ s ∈ stages.map NVar.name, w' s = w s := by
    intro s hs
    refine h4 s (fun hr => ?_)
    obtain ⟨v, hv, rfl⟩ := List.mem_map.1 hr
    have := (List.mem_filter.1 hv).2
    simp only [decide_eq_true_eq] at this
    exact this hs
  have hw' : n.Allowed w' := by
    intro u hu
    rcases List.mem_append.1 ((h.perm hn).subset hu) with hm | hm
    · rw [hst _ (List.mem_map_of_mem hm)]; exact hw u hu
    · exact h3 u hm
  rw [mul_comm]
  congr 1
  rw [← ((h.order_perm hn).map _).prod_eq]
  unfold order taken
  rw [List.map_map]
  congr 1
  refine List.map_congr_left (fun v hv => ?_)
  obtain ⟨h5, h6⟩ := List.mem_filter.1 hv
  obtain ⟨A, B, hl⟩ := List.append_of_mem h5
  refine (hδ A v B hl (by simpa using h6)).2.2 w' w hw' hw (fun s hs => hst s ?_)
  rw [hl]
  simp only [List.map_append, List.map_cons, List.map_nil, List.mem_append, List.mem_cons, List.not_mem_nil, or_false] at hs ⊢
  tauto

theorem leaf (h : n.Timeline stages) (hn : n.Valid) (ho : ∀ v ∈ stages, v.outcomes.Nodup) {w : World} (hw : n.Allowed w)
    (h0 : ∀ s, s ∉ stages.map NVar.name → w s = 0) :
    n.total [] (fun w' => if n.Agrees (told stages w) w' then n.totalIn w' else 0) = ends n stages w := by
  have hagr : ∀ w', n.Agrees (told stages w) w' ↔ ∀ v ∈ stages, w' v.name = w v.name := by
    intro w'
    unfold Net.Agrees told
    simp only [List.forall_mem_map]
    refine forall₂_congr (fun v hv => ?_)
    have hlt := hw v (h.state v hv)
    have hi : v.outcomes.idxOf (v.outcomes.getD (w v.name) "") = w v.name := by
      rw [List.getD_eq_getElem?_getD, List.getElem?_eq_getElem hlt, Option.getD_some]
      exact (ho v hv).idxOf_getElem _ hlt
    constructor
    · intro h'
      rw [h' v (mem_stateVars.1 (h.state v hv)).1 rfl, hi]
    · intro h' u hu e
      rw [name_unique hn hu (mem_stateVars.1 (h.state v hv)).1 e, hi, h']
  unfold Net.total
  have hjoint : (fun w' => n.joint [] w' * if n.Agrees (told stages w) w' then n.totalIn w' else 0) = fun w' =>
      if n.Agrees (told stages w) w' then (n.chanceTables.map (fun f => n.prob f w')).prod * n.totalIn w' else 0 := by
    funext w'
    unfold Net.joint
    split_ifs <;> simp
  rw [hjoint, sumWorlds_pin (P := fun v => decide (v.name ∈ stages.map NVar.name)) (t := w) (stateVars_names hn) hw]
  · unfold ends rest
    congr 1
    exact List.filter_congr (fun v _ => decide_not.symm)
  · intro s hs
    refine h0 s (fun e => hs ?_)
    obtain ⟨v, hv, rfl⟩ := List.mem_map.1 e
    exact List.mem_map_of_mem (h.state v hv)
  · exact (hagr w).2 (fun _ _ => rfl)
  · intro w' ha v _ hP
    obtain ⟨u, hu, e⟩ := List.mem_map.1 (of_decide_eq_true hP)
    rw [← e]
    exact (hagr w').1 ha u hu
  · intro w' w'' hh ha
    rw [hagr] at ha ⊢
    intro v hv
    rw [← hh v (h.state v hv) (by simp only [decide_eq_true_eq]; exact List.mem_map_of_mem hv)]
    exact ha v hv

end Net.Timeline

/-- **C154.** Perfect recall: all decisions and what is observed before them stand on a timeline, and each decision knows
exactly what comes before. Ask `SolveUtility` for the number at the end of each path, with everything on the timeline
observed, and roll the tree back by hand: the best branch where a decision is taken, the sum of the branches where
something is observed. The result is what `SolveUtility` reports without any evidence after `SolvePolicies`. -/
theorem C154_tree (sch : NSched α) {n : Net α} (hn : n.Valid) (hs : n.Solvable) (hd : n.decisions ≠ []) {stages : List NVar}
    (ht : n.Timeline stages) (ho : ∀ v ∈ stages, v.outcomes.Nodup) (hnn : ∀ f ∈ n.chanceTables, ∀ x ∈ f.tab, 0 ≤ x)
    (hm : ∀ d ∈ n.decisions, n.Matters [d] d) (stepwise : Bool) :
    ∃ tables n', n.solvePolicies sch stepwise = (.ok tables, n') ∧ ∃ leaf : List (String × String) → α,
      (∀ sch₁ path, n.EvidenceOK path → path.map Prod.fst = stages.map NVar.name →
        n'.Worth sch₁ path "" true (leaf path) ∧
        (n.policies = [] → ∀ ign, n.Worth sch₁ path "" ign (leaf path))) ∧
      ∀ sch₂ ign, n'.Worth sch₂ [] "" ign (rollback leaf stages []) := by
  obtain ⟨tables, n', k1, _, k3, _, k5, k6, ⟨vs0, names0, pols0, k7⟩, k8, _⟩ :=
    solvePolicies_net sch hn (fun _ => hs.toFeasible) stepwise
  have hvars : n'.variables = n.variables := by rw [k7]
  have hsol : n'.AllSolved := by
    intro v hv ht
    unfold Net.hasPolicy
    exact mapGet_isSome.2 (k8.symm.subset ((k3 _).2 (by rw [isKind_iff hn (by rw [← hvars]; exact hv)]; exact ht)))
  have hutil : n'.utilityVars ≠ [] := by rw [k7]; exact hs.utility
  have hask : ∀ w, n'.asked "" w = n.totalIn w := fun w => by rw [k7]; rfl
  have hagr : ∀ ev w, n'.Agrees ev w ↔ n.Agrees ev w := fun ev w => by unfold Net.Agrees; rw [hvars]
  refine ⟨tables, n', k1, fun path => n.total [] (fun w => if n.Agrees path w then n.totalIn w else 0),
    fun sch₁ path hev hpath => ⟨?_, fun hpol ign => ?_⟩, fun sch₂ ign => ?_⟩
  · have := worth_total sch₁ k5 k6.toPoliciesOK hsol (evidence := path) ⟨hev.keys, by rw [hvars]; exact hev.known⟩
      (u := "") (.inl ⟨rfl, hutil⟩) true
    obtain ⟨hpp, _⟩ := stored_tables sch hn (fun _ => hs.toFeasible) k1
    have hact : n'.active path true = n'.policies.filter (fun p => (fun _ => false) p.1) := by
      unfold Net.active
      rw [if_pos rfl]
      refine List.filter_congr (fun p hp => decide_eq_false (fun hh => ?_))
      have hk := ht.decisions p.1 (hpp.subset (List.mem_map_of_mem hp))
      rw [← hpath] at hk
      obtain ⟨e, he, h⟩ := List.mem_map.1 hk
      exact hh e he h
    rw [hact, solved_filter sch hn hs.toFeasible k1 (fun _ => false)] at this
    convert this using 3 with w
    simp [hagr, hask]
  · have hp : n.PoliciesOK := ⟨by rw [hpol]; simp, by rw [hpol]; simp, by rw [hpol]; simp, by rw [hpol]; simp⟩
    have := C75_expected_utility sch₁ hn hp hev (u := "") (.inl ⟨rfl, hs.utility⟩) ign (by
      intro v hv hfree
      have hns : v.name ∉ stages.map NVar.name := by
        rw [← hpath]
        intro h
        obtain ⟨e, he, h⟩ := List.mem_map.1 h
        exact hfree e he h
      refine List.mem_filter.2 ⟨hv, decide_eq_true ⟨.inl ?_, hfree, by simp, fun f hf hk _ hg => hns ?_⟩⟩
      · cases e : v.nodeType with
        | chance => rfl
        | decision => exact absurd (ht.decisions _ (mem_decisions.2 (isKind_mem.2 ⟨v, (mem_stateVars.1 hv).1, rfl, e⟩))) hns
        | utility => exact absurd e (mem_stateVars.1 hv).2
      · obtain ⟨A, d, B, hl, e, hdt⟩ := ht.find hn (mem_decisions.2 hk)
        have := (ht.parents A d B hl hdt v.name).1 ⟨f, hf, e.symm, hg⟩
        rw [hl, List.map_append, List.mem_append]
        exact .inl this)
    have hact : n.active path ign = [] := by unfold Net.active; rw [hpol]; simp
    rw [hact] at this
    exact this
  · have hr := ht.recall hn
    have hval : ∃ order, order.Perm n.decisions ∧ n.Ordered order ∧
        (∀ A d B, order = A ++ d :: B → n.Strategy A d (n.byTables tables d)) ∧
        (∀ δ : String → World → α, (∀ A d B, order = A ++ d :: B → n.Strategy A d (δ d)) →
          n.expectedTotal δ ≤ n.expectedTotal (n.byTables tables)) ∧
        n'.Worth sch₂ [] "" ign (n.expectedTotal (n.byTables tables)) := by
      cases stepwise with
      | true =>
        obtain ⟨tables', m', order, h1, h2, h3, h4, h5, h6⟩ := C99_recall sch sch₂ hn hs hr hnn hm ign
        rw [k1] at h1
        obtain ⟨e1, rfl⟩ := Prod.mk.inj h1
        obtain rfl := Except.ok.inj e1
        exact ⟨order, h2, h3, h4, h5, h6⟩
      | false =>
        obtain ⟨tables', m', order, h1, h2, h3, h4, h5, h6⟩ := C81_optimal sch sch₂ hn hs hd hnn (by
          intro o hp ho A d B e
          exact (hm d (hp.subset (by rw [e]; simp))).mono (fun s h => hr.known hn hp ho e h))
          (stepwise := false) (by simp) ign
        rw [k1] at h1
        obtain ⟨e1, rfl⟩ := Prod.mk.inj h1
        obtain rfl := Except.ok.inj e1
        exact ⟨order, h2, h3, fun A d B e => (h4 A d B e).1, h5, h6⟩
    obtain ⟨order, h2, h3, h4, h5, h6⟩ := hval
    obtain rfl := hr.inLine.unique hn h2 (ht.order_perm hn) h3 (ht.order_ordered hn)
    have hz := allowed_zero hn
    have f1 := (ht.strategies hn _).1 h4
    have f2 := bestPlay_follows hn (Net.Timeline.ends n stages) ht.state ht.once
    have e1 := tree_attained hn (Net.Timeline.ends n stages) ht.state ht.once stages [] rfl _ hz (fun _ _ => rfl)
    rw [← ht.expected hn f2] at e1
    have e2 := tree_bound hn ht.state ht.once f1 (Net.Timeline.ends n stages) stages [] rfl _ hz
    rw [← ht.expected hn f1] at e2
    have e3 := rollback_world hn (Net.Timeline.ends n stages)
      (fun path => n.total [] (fun w => if n.Agrees path w then n.totalIn w else 0)) ht.state ht.once
      (fun w hw h0 => ht.leaf hn ho hw h0) stages [] rfl _ hz (fun _ _ => rfl)
    rw [show told [] (fun _ => 0) = [] from rfl] at e3
    rw [e3, le_antisymm (e1 ▸ h5 _ ((ht.strategies hn _).2 f2)) e2]
    exact h6

namespace Ex

/-- The timeline of the oil network: whether to test, the test result, whether to drill. -/
def oilStages : List NVar := [⟨"Do test drill", .decision, ["yes", "no"], (38, 15), "", none⟩,
  ⟨"Test result", .chance, ["closed", "open", "diffuse"], (1, 8), "", some 1⟩,
  ⟨"Do drill", .decision, ["yes", "no"], (38, 8), "", some 2⟩]

theorem oil_timeline : oil.Timeline oilStages where
  state := by decide
  once := by decide
  decisions := by decide
  parents := by
    intro A d B e hd s
    rw [oilStages] at e
    match A, e with
    | [], e =>
      rw [List.nil_append] at e
      obtain ⟨rfl, _⟩ := List.cons.inj e
      simp [oil]
    | [a], e =>
      rw [List.cons_append, List.nil_append] at e
      obtain ⟨h, _⟩ := List.cons.inj (List.cons.inj e).2
      rw [← h] at hd
      cases hd
    | [a, b], e =>
      rw [List.cons_append, List.cons_append, List.nil_append] at e
      have h1 := (List.cons.inj e).1
      have h2 := (List.cons.inj (List.cons.inj e).2).1
      have h3 := (List.cons.inj (List.cons.inj (List.cons.inj e).2).2).1
      rw [← h1, ← h2, ← h3]
      simp [oil]
    | a :: b :: c :: A, e =>
      have := congrArg List.length e
      simp at this

/-- Rolling back the tree of the oil network gives what the solved network is worth, solved together or stepwise. -/
example (sch sch₂ : NSched ℚ) (stepwise : Bool) : ∃ tables n', oil.solvePolicies sch stepwise = (.ok tables, n') ∧
    ∃ leaf : List (String × String) → ℚ,
      oil.Worth sch₂ [("Do test drill", "no"), ("Test result", "open"), ("Do drill", "yes")] "" false
        (leaf [("Do test drill", "no"), ("Test result", "open"), ("Do drill", "yes")]) ∧
      n'.Worth sch₂ [] "" false (rollback leaf oilStages []) := by
  obtain ⟨tables, n', h1, leaf, h2, h3⟩ := C154_tree sch oil_valid oil_solvable (by rw [oil_decisions]; simp) oil_timeline
    (by decide) (by decide +kernel) oil_matters stepwise
  exact ⟨tables, n', h1, leaf, (h2 sch₂ _ ⟨by decide, by decide⟩ rfl).2 rfl false, h3 sch₂ false⟩

end Ex

end Bbn
