import Verif.Lemmas.NetTables
import Verif.Spec.NewNet

/-!
# The checks of `New`
-/

set_option autoImplicit false

namespace Bbn

variable {α : Type}

theorem checkNames_spec : ∀ (l : List NVar) (seen : List String),
    (checkNames seen l = .ok () ∧ (∀ v ∈ l, v.name ∉ seen) ∧ (l.map NVar.name).Nodup) ∨
      (Errors (checkNames seen l) ∧ ¬ ((∀ v ∈ l, v.name ∉ seen) ∧ (l.map NVar.name).Nodup)) := by
  intro l
  induction l with
  | nil => intro seen; exact .inl ⟨rfl, by simp, by simp⟩
  | cons v l ih =>
    intro seen
    unfold checkNames
    by_cases hv : v.name ∈ seen
    · rw [if_pos hv]
      exact .inr ⟨⟨_, rfl⟩, fun h => h.1 v List.mem_cons_self hv⟩
    · rw [if_neg hv]
      have key : ((∀ u ∈ l, u.name ∉ seen ++ [v.name]) ∧ (l.map NVar.name).Nodup) ↔
          ((∀ u ∈ v :: l, u.name ∉ seen) ∧ ((v :: l).map NVar.name).Nodup) := by
        rw [List.map_cons, List.nodup_cons]
        constructor
        · rintro ⟨h1, h2⟩
          refine ⟨?_, ?_, h2⟩
          · intro u hu
            rcases List.mem_cons.1 hu with rfl | hu
            · exact hv
            · intro h; exact h1 u hu (by simp [h])
          · intro h
            obtain ⟨u, hu, e⟩ := List.mem_map.1 h
            exact h1 u hu (by simp [e])
        · rintro ⟨h1, h2, h3⟩
          refine ⟨?_, h3⟩
          intro u hu h
          rcases List.mem_append.1 h with h | h
          · exact h1 u (List.mem_cons_of_mem _ hu) h
          · simp only [List.mem_singleton] at h
            exact h2 (h ▸ List.mem_map_of_mem hu)
      rcases ih (seen ++ [v.name]) with ⟨h1, h2⟩ | ⟨h1, h2⟩
      · exact .inl ⟨h1, key.1 h2⟩
      · exact .inr ⟨h1, fun h => h2 (key.2 h)⟩

theorem outcomeCount_some {all : List NVar} {g : String} : (outcomeCount all g).isSome ↔ ∃ u ∈ all, u.name = g := by
  unfold outcomeCount
  rw [Option.isSome_map, List.find?_isSome]
  simp

theorem parentCounts_spec (all : List NVar) : ∀ (l : List String),
    (parentCounts all l = .ok (l.map (fun g => (outcomeCount all g).getD 0)) ∧ ∀ g ∈ l, ∃ u ∈ all, u.name = g) ∨
      (Errors (parentCounts all l) ∧ ¬ ∀ g ∈ l, ∃ u ∈ all, u.name = g) := by
  intro l
  induction l with
  | nil => exact .inl ⟨rfl, by simp⟩
  | cons g l ih =>
    unfold parentCounts at ih ⊢
    rw [List.mapM_cons]
    cases hg : outcomeCount all g with
    | none =>
      refine .inr ⟨⟨_, rfl⟩, fun h => ?_⟩
      have := outcomeCount_some.2 (h g List.mem_cons_self)
      rw [hg] at this; cases this
    | some k =>
      have hgs : ∃ u ∈ all, u.name = g := outcomeCount_some.1 (by rw [hg]; rfl)
      dsimp only
      rw [ok_bind]
      rcases ih with ⟨h1, h2⟩ | ⟨⟨m, h1⟩, h2⟩
      · rw [h1, ok_bind]
        refine .inl ⟨by simp [hg]; rfl, ?_⟩
        intro x hx
        rcases List.mem_cons.1 hx with rfl | hx
        · exact hgs
        · exact h2 x hx
      · rw [h1]
        exact .inr ⟨⟨_, rfl⟩, fun h => h2 (fun x hx => h x (List.mem_cons_of_mem _ hx))⟩

/-- A factor without the fields that `New` fills in. -/
def NFactor.core (f : NFactor α) : NFactor α := { f with outcomes := [], columns := 0 }

theorem findIdx_core (s : String) : ∀ {l l' : List (NFactor α)}, l.map NFactor.core = l'.map NFactor.core →
    l.findIdx? (fun f => f.forVar = s) = l'.findIdx? (fun f => f.forVar = s) := by
  intro l
  induction l with
  | nil => intro l' h; cases l' with | nil => rfl | cons => simp at h
  | cons f l ih =>
    intro l' h
    cases l' with
    | nil => simp at h
    | cons f' l' =>
      simp only [List.map_cons, List.cons.injEq] at h
      rw [List.findIdx?_cons, List.findIdx?_cons, ih h.2]
      have : f.forVar = f'.forVar := (congrArg NFactor.forVar h.1 : f.core.forVar = f'.core.forVar)
      rw [this]

theorem find_core (s : String) : ∀ {l l' : List (NFactor α)}, l.map NFactor.core = l'.map NFactor.core →
    (l.find? (fun f => f.forVar = s)).map NFactor.core = (l'.find? (fun f => f.forVar = s)).map NFactor.core := by
  intro l
  induction l with
  | nil => intro l' h; cases l' with | nil => rfl | cons => simp at h
  | cons f l ih =>
    intro l' h
    cases l' with
    | nil => simp at h
    | cons f' l' =>
      simp only [List.map_cons, List.cons.injEq] at h
      rw [List.find?_cons, List.find?_cons]
      have : f.forVar = f'.forVar := (congrArg NFactor.forVar h.1 : f.core.forVar = f'.core.forVar)
      rw [this]
      split
      · simp [h.1]
      · exact ih h.2

theorem find_findIdx {β : Type} (p : β → Bool) : ∀ (l : List β),
    l.find? p = (l.findIdx? p).bind (fun i => l[i]?) := by
  intro l
  induction l with
  | nil => rfl
  | cons x l ih =>
    rw [List.find?_cons, List.findIdx?_cons]
    by_cases h : p x = true
    · simp [h]
    · simp only [h]
      rw [ih]
      cases l.findIdx? p <;> simp

/-- The variable with its pointer to its table. -/
def linked (fs : List (NFactor α)) (v : NVar) : NVar :=
  match fs.findIdx? (fun f => f.forVar = v.name) with
  | none => v
  | some i => { v with factor := some i }

/-- The parents of the tables in use are known. -/
def KnownParents (all : List NVar) (vs : List NVar) (fs : List (NFactor α)) : Prop :=
  ∀ v ∈ vs, ∀ f, tableFor fs v = some f → ∀ g ∈ f.given, ∃ u ∈ all, u.name = g

theorem KnownParents.core {all vs : List NVar} {l l' : List (NFactor α)} (h : l.map NFactor.core = l'.map NFactor.core)
    (hk : KnownParents all vs l) : KnownParents all vs l' := by
  intro v hv f hf g hg
  have := find_core v.name h
  unfold tableFor at hf
  rw [hf] at this
  obtain ⟨f', h1, h2⟩ := Option.map_eq_some_iff.1 this
  have hgiven : f'.given = f.given := (congrArg NFactor.given h2 : f'.core.given = f.core.given)
  exact hk v hv f' h1 g (by rw [hgiven]; exact hg)

theorem core_set {fs : List (NFactor α)} {i : Nat} {f : NFactor α} (h : fs[i]? = some f) (o : List Nat) (c : Nat) :
    (fs.set i { f with outcomes := o, columns := c }).map NFactor.core = fs.map NFactor.core := by
  rw [List.map_set]
  apply List.ext_getElem?
  intro j
  rw [List.getElem?_set]
  split_ifs with hij hlt
  · subst hij; rw [List.getElem?_map, h]; rfl
  · subst hij
    rw [List.getElem?_eq_none (by simpa using hlt)]
  · rfl

theorem linked_core {l l' : List (NFactor α)} (h : l.map NFactor.core = l'.map NFactor.core) : linked l = linked l' := by
  funext v
  unfold linked
  rw [findIdx_core v.name h]

theorem linkFactors_spec (all : List NVar) : ∀ (vs : List NVar) (fs : List (NFactor α)), (vs.map NVar.name).Nodup →
    (KnownParents all vs fs ∧ ∃ fs', linkFactors all vs fs = .ok (vs.map (linked fs), fs') ∧
      fs'.map NFactor.core = fs.map NFactor.core ∧
      (∀ v ∈ vs, ∀ i f, fs.findIdx? (fun f => f.forVar = v.name) = some i → fs[i]? = some f →
        fs'[i]? = some { f with outcomes := f.given.map (fun g => (outcomeCount all g).getD 0),
                                columns := v.outcomes.length }) ∧
      (∀ i : Nat, (∀ v ∈ vs, fs.findIdx? (fun f => f.forVar = v.name) ≠ some i) → fs'[i]? = fs[i]?)) ∨
    (¬ KnownParents all vs fs ∧ Errors (linkFactors all vs fs)) := by
  intro vs
  induction vs with
  | nil =>
    intro fs _
    exact .inl ⟨by intro v hv; simp at hv, fs, rfl, rfl, by simp, by simp⟩
  | cons v vs ih =>
    intro fs hnd
    rw [List.map_cons, List.nodup_cons] at hnd
    unfold linkFactors
    cases hi : fs.findIdx? (fun f => f.forVar = v.name) with
    | none =>
      dsimp only
      have hnone : tableFor fs v = none := by unfold tableFor; rw [find_findIdx, hi]; rfl
      have hlink : linked fs v = v := by unfold linked; rw [hi]
      rcases ih fs hnd.2 with ⟨h1, fs', h2, h3, h4, h5⟩ | ⟨h1, m, h2⟩
      · refine .inl ⟨?_, fs', by rw [h2, ok_bind, List.map_cons, hlink]; rfl, h3, ?_, ?_⟩
        · intro u hu f hf
          rcases List.mem_cons.1 hu with rfl | hu
          · rw [hnone] at hf; cases hf
          · exact h1 u hu f hf
        · intro u hu i f hui hf
          rcases List.mem_cons.1 hu with rfl | hu
          · rw [hi] at hui; cases hui
          · exact h4 u hu i f hui hf
        · intro i h
          exact h5 i (fun u hu => h u (List.mem_cons_of_mem _ hu))
      · exact .inr ⟨fun h => h1 (fun u hu => h u (List.mem_cons_of_mem _ hu)), m, by rw [h2]; rfl⟩
    | some i =>
      dsimp only
      obtain ⟨hlt, hp, _⟩ := List.findIdx?_eq_some_iff_getElem.1 hi
      have hget : fs[i]? = some fs[i] := List.getElem?_eq_getElem hlt
      have htab : tableFor fs v = some fs[i] := by unfold tableFor; rw [find_findIdx, hi]; exact hget
      have hlink : linked fs v = { v with factor := some i } := by unfold linked; rw [hi]
      rw [goGet_eq.2 hget, ok_bind]
      rcases parentCounts_spec all fs[i].given with ⟨h1, h2⟩ | ⟨⟨m, h1⟩, h2⟩
      · rw [h1, ok_bind]
        set o := fs[i].given.map (fun g => (outcomeCount all g).getD 0) with ho
        have hcore := core_set hget o v.outcomes.length
        set fs₁ := fs.set i { fs[i] with outcomes := o, columns := v.outcomes.length } with hfs₁
        have hne : ∀ u ∈ vs, fs.findIdx? (fun f => f.forVar = u.name) ≠ some i := by
          intro u hu e
          obtain ⟨_, hp', _⟩ := List.findIdx?_eq_some_iff_getElem.1 e
          simp only [decide_eq_true_eq] at hp hp'
          exact hnd.1 (by rw [← hp, hp']; exact List.mem_map_of_mem hu)
        rcases ih fs₁ hnd.2 with ⟨k1, fs', k2, k3, k4, k5⟩ | ⟨k1, m, k2⟩
        · have hi' : fs'[i]? = some { fs[i] with outcomes := o, columns := v.outcomes.length } := by
            rw [k5 i (by intro u hu; rw [findIdx_core u.name hcore]; exact hne u hu), hfs₁, List.getElem?_set_self hlt]
          refine .inl ⟨?_, fs', by rw [k2, ok_bind, List.map_cons, hlink, linked_core hcore]; rfl, k3.trans hcore, ?_, ?_⟩
          · intro u hu f hf
            rcases List.mem_cons.1 hu with rfl | hu
            · rw [htab] at hf
              simp only [Option.some.injEq] at hf
              subst hf; exact h2
            · exact k1.core hcore u hu f hf
          · intro u hu j f hj hf
            rcases List.mem_cons.1 hu with rfl | hu
            · rw [hi] at hj
              simp only [Option.some.injEq] at hj
              subst hj
              rw [hget] at hf
              simp only [Option.some.injEq] at hf
              subst hf
              exact hi'
            · have hji : i ≠ j := by rintro rfl; exact hne u hu hj
              exact k4 u hu j f (by rw [findIdx_core u.name hcore]; exact hj)
                (by rw [hfs₁, List.getElem?_set_ne hji]; exact hf)
          · intro j hj
            have hji : i ≠ j := by rintro rfl; exact hj v List.mem_cons_self hi
            rw [k5 j (by intro u hu; rw [findIdx_core u.name hcore]; exact hj u (List.mem_cons_of_mem _ hu)), hfs₁,
              List.getElem?_set_ne hji]
        · refine .inr ⟨fun h => k1 ?_, m, by rw [k2]; rfl⟩
          exact KnownParents.core hcore.symm (fun u hu => h u (List.mem_cons_of_mem _ hu))
      · rw [h1]
        exact .inr ⟨fun h => h2 (h v List.mem_cons_self _ htab), m, rfl⟩

section

open Classical in
theorem parentKinds_spec (all : List NVar) (hnames : (all.map NVar.name).Nodup) : ∀ (l : List String) (u o : Bool),
    (∀ g ∈ l, ∃ v ∈ all, v.name = g) →
    parentKinds all l (u, o) = .ok (u || decide (∃ g ∈ l, IsUtility all g), o || decide (∃ g ∈ l, ¬ IsUtility all g)) := by
  intro l
  induction l with
  | nil => intro u o _; simp [parentKinds]
  | cons g l ih =>
    intro u o h
    unfold parentKinds
    obtain ⟨v, hv, hvn⟩ := h g List.mem_cons_self
    have hl := fun x hx => h x (List.mem_cons_of_mem g hx)
    have hfind : all.find? (fun u => u.name = g) = some v := by
      cases hf : all.find? (fun u => u.name = g) with
      | none =>
        rw [List.find?_eq_none] at hf
        exact absurd hvn (by simpa using hf v hv)
      | some w =>
        have h1 := List.mem_of_find?_eq_some hf
        have h2 := List.find?_some hf
        simp only [decide_eq_true_eq] at h2
        rw [List.inj_on_of_nodup_map hnames h1 hv (h2.trans hvn.symm)]
    rw [hfind]
    dsimp only
    have hiff : IsUtility all g ↔ v.nodeType = .utility := by
      constructor
      · rintro ⟨w, hw, h1, h2⟩
        rwa [← List.inj_on_of_nodup_map hnames hw hv (h1.trans hvn.symm)]
      · intro h; exact ⟨v, hv, hvn, h⟩
    by_cases hu : v.nodeType = .utility
    · rw [if_pos hu, ih _ _ hl]
      have hg := hiff.2 hu
      simp [hg]
    · rw [if_neg hu, ih _ _ hl]
      have hg : ¬ IsUtility all g := fun h => hu (hiff.1 h)
      simp [hg]

end

theorem parentKinds_bools (all : List NVar) (hnames : (all.map NVar.name).Nodup) (l : List String)
    (h : ∀ g ∈ l, ∃ v ∈ all, v.name = g) : ∃ u o, parentKinds all l (false, false) = .ok (u, o) ∧
      (u = true ↔ ∃ g ∈ l, IsUtility all g) ∧ (o = true ↔ ∃ g ∈ l, ¬ IsUtility all g) := by
  refine ⟨_, _, parentKinds_spec all hnames l false false h, ?_, ?_⟩ <;> simp

/-- What `prepareUtilityNodes` asks of one variable. -/
def UtilityNodeOK (all : List NVar) (fs : List (NFactor α)) (v : NVar) : Prop :=
  v.nodeType = .utility → ∃ f, derefFactor fs v = .ok f ∧ f.given ≠ [] ∧
    ((∀ g ∈ f.given, IsUtility all g) ∧ v.outcomes.length = f.given.length ∨ ∀ g ∈ f.given, ¬ IsUtility all g)

/-- A total-utility node, by the variable's pointer. -/
def TotalAt (all : List NVar) (fs : List (NFactor α)) (v : NVar) : Prop :=
  v.nodeType = .utility ∧ ∃ f, derefFactor fs v = .ok f ∧ f.given ≠ [] ∧ ∀ g ∈ f.given, IsUtility all g

theorem utilityNodes_spec (all : List NVar) (hnames : (all.map NVar.name).Nodup) (fs : List (NFactor α)) :
    ∀ (vs : List NVar) (i : Nat) (total : Option Nat),
    (∀ v ∈ vs, ∀ f, derefFactor fs v = .ok f → ∀ g ∈ f.given, ∃ u ∈ all, u.name = g) →
    (((∀ v ∈ vs, UtilityNodeOK all fs v) ∧ vs.Pairwise (fun v w => ¬ (TotalAt all fs v ∧ TotalAt all fs w)) ∧
        (total.isSome → ∀ v ∈ vs, ¬ TotalAt all fs v)) ∧
      ∃ t, utilityNodes all fs i vs total = .ok t ∧
        ((∀ v ∈ vs, ¬ TotalAt all fs v) → t = total) ∧
        ∀ j v, vs[j]? = some v → TotalAt all fs v → t = some (i + j)) ∨
    (¬ ((∀ v ∈ vs, UtilityNodeOK all fs v) ∧ vs.Pairwise (fun v w => ¬ (TotalAt all fs v ∧ TotalAt all fs w)) ∧
        (total.isSome → ∀ v ∈ vs, ¬ TotalAt all fs v)) ∧
      (Errors (utilityNodes all fs i vs total) ∨
        (Panics (utilityNodes all fs i vs total) ∧ ∃ v ∈ vs, v.nodeType = .utility ∧ ∀ f, derefFactor fs v ≠ .ok f))) := by
  intro vs
  induction vs with
  | nil =>
    intro i total _
    exact .inl ⟨⟨by simp, by simp, by simp⟩, total, rfl, fun _ => rfl, by simp⟩
  | cons v vs ih =>
    intro i total hk
    have hk' : ∀ v ∈ vs, ∀ f, derefFactor fs v = .ok f → ∀ g ∈ f.given, ∃ u ∈ all, u.name = g :=
      fun u hu => hk u (List.mem_cons_of_mem _ hu)
    -- a variable that is no total-utility node and is fine by itself
    have pass : UtilityNodeOK all fs v → ¬ TotalAt all fs v →
        utilityNodes all fs i (v :: vs) total = utilityNodes all fs (i + 1) vs total →
        (((∀ u ∈ v :: vs, UtilityNodeOK all fs u) ∧
            (v :: vs).Pairwise (fun v w => ¬ (TotalAt all fs v ∧ TotalAt all fs w)) ∧
            (total.isSome → ∀ u ∈ v :: vs, ¬ TotalAt all fs u)) ∧
          ∃ t, utilityNodes all fs i (v :: vs) total = .ok t ∧ ((∀ u ∈ v :: vs, ¬ TotalAt all fs u) → t = total) ∧
            ∀ j u, (v :: vs)[j]? = some u → TotalAt all fs u → t = some (i + j)) ∨
        (¬ ((∀ u ∈ v :: vs, UtilityNodeOK all fs u) ∧
            (v :: vs).Pairwise (fun v w => ¬ (TotalAt all fs v ∧ TotalAt all fs w)) ∧
            (total.isSome → ∀ u ∈ v :: vs, ¬ TotalAt all fs u)) ∧
          (Errors (utilityNodes all fs i (v :: vs) total) ∨ (Panics (utilityNodes all fs i (v :: vs) total) ∧
            ∃ u ∈ v :: vs, u.nodeType = .utility ∧ ∀ f, derefFactor fs u ≠ .ok f))) := by
      intro h1 h2 h3
      rw [h3]
      rcases ih (i + 1) total hk' with ⟨⟨a1, a2, a3⟩, t, a4, a5, a6⟩ | ⟨a1, a2⟩
      · refine .inl ⟨⟨?_, ?_, ?_⟩, t, a4, ?_, ?_⟩
        · intro u hu
          rcases List.mem_cons.1 hu with rfl | hu
          · exact h1
          · exact a1 u hu
        · exact List.pairwise_cons.2 ⟨fun u _ h => h2 h.1, a2⟩
        · intro ht u hu
          rcases List.mem_cons.1 hu with rfl | hu
          · exact h2
          · exact a3 ht u hu
        · intro h; exact a5 (fun u hu => h u (List.mem_cons_of_mem _ hu))
        · intro j u hj hu
          cases j with
          | zero =>
            simp only [List.getElem?_cons_zero, Option.some.injEq] at hj
            subst hj; exact absurd hu h2
          | succ j =>
            simp only [List.getElem?_cons_succ] at hj
            rw [a6 j u hj hu]; congr 1; omega
      · refine .inr ⟨?_, ?_⟩
        · rintro ⟨b1, b2, b3⟩
          exact a1 ⟨fun u hu => b1 u (List.mem_cons_of_mem _ hu), (List.pairwise_cons.1 b2).2,
            fun ht u hu => b3 ht u (List.mem_cons_of_mem _ hu)⟩
        · rcases a2 with h | ⟨h, u, hu, h'⟩
          · exact .inl h
          · exact .inr ⟨h, u, List.mem_cons_of_mem _ hu, h'⟩
    by_cases hu : v.nodeType = .utility
    swap
    · exact pass (fun h => absurd h hu) (fun h => hu h.1) (by rw [utilityNodes, if_pos hu])
    have hstep : utilityNodes all fs i (v :: vs) total = (derefFactor fs v >>= fun f =>
        parentKinds all f.given (false, false) >>= fun r =>
          if r.1 && r.2 then .error (.error "utility parents and other parents")
          else if !r.1 && !r.2 then .error (.error "utility node has no parents")
          else if !r.1 then utilityNodes all fs (i + 1) vs total
          else if total.isSome then .error (.error "multiple nodes for total utility")
          else if v.outcomes.length ≠ f.given.length then .error (.error "invalid total utility node")
          else utilityNodes all fs (i + 1) vs (some i)) := by
      rw [utilityNodes, if_neg (by simp [hu])]
    cases hd : derefFactor fs v with
    | error e =>
      right
      refine ⟨?_, ?_⟩
      · rintro ⟨h, _⟩
        obtain ⟨f, hf, _⟩ := h v List.mem_cons_self hu
        rw [hd] at hf; cases hf
      · rw [hstep, hd]
        have : ∃ m, e = .panic m := by
          unfold derefFactor at hd
          cases hf : v.factor with
          | none =>
            rw [hf] at hd
            simp only [Except.error.injEq] at hd
            exact ⟨_, hd.symm⟩
          | some k =>
            rw [hf] at hd
            unfold goGet at hd
            dsimp only at hd
            split at hd
            · cases hd
            · simp only [Except.error.injEq] at hd
              exact ⟨_, hd.symm⟩
        obtain ⟨m, rfl⟩ := this
        exact .inr ⟨⟨m, rfl⟩, v, List.mem_cons_self, hu, by intro f; rw [hd]; simp⟩
    | ok f =>
      obtain ⟨bu, bo, hpk, hbu, hbo⟩ := parentKinds_bools all hnames f.given (hk v List.mem_cons_self f hd)
      rw [hd, ok_bind, hpk, ok_bind] at hstep
      dsimp only at hstep
      have hnot : ¬ UtilityNodeOK all fs v → ¬ ((∀ u ∈ v :: vs, UtilityNodeOK all fs u) ∧
          (v :: vs).Pairwise (fun v w => ¬ (TotalAt all fs v ∧ TotalAt all fs w)) ∧
          (total.isSome → ∀ u ∈ v :: vs, ¬ TotalAt all fs u)) := fun h h' => h (h'.1 v List.mem_cons_self)
      by_cases hA : ∃ g ∈ f.given, IsUtility all g
      · obtain rfl := hbu.2 hA
        by_cases hB : ∃ g ∈ f.given, ¬ IsUtility all g
        · obtain rfl := hbo.2 hB
          rw [if_pos (by decide)] at hstep
          refine .inr ⟨hnot ?_, .inl ⟨_, hstep⟩⟩
          intro h
          obtain ⟨f', h1, h2, h3⟩ := h hu
          rw [hd] at h1
          simp only [Except.ok.injEq] at h1
          subst h1
          obtain ⟨a, ha, ha'⟩ := hA
          obtain ⟨b, hb, hb'⟩ := hB
          rcases h3 with ⟨h3, _⟩ | h3
          · exact hb' (h3 b hb)
          · exact h3 a ha ha'
        · have hall : ∀ g ∈ f.given, IsUtility all g := by
            intro g hg
            by_contra h; exact hB ⟨g, hg, h⟩
          have hbo' : bo = false := by rw [Bool.eq_false_iff]; exact fun h => hB (hbo.1 h)
          subst hbo'
          have hT : TotalAt all fs v := ⟨hu, f, hd, by obtain ⟨g, hg, _⟩ := hA; intro h; rw [h] at hg; simp at hg, hall⟩
          rw [if_neg (by decide), if_neg (by decide), if_neg (by decide)] at hstep
          cases htot : total with
          | some t =>
            rw [htot, if_pos Option.isSome_some] at hstep
            exact .inr ⟨fun h => h.2.2 rfl v List.mem_cons_self hT, .inl ⟨_, hstep⟩⟩
          | none =>
            rw [htot, if_neg (by simp)] at hstep
            by_cases hlen : v.outcomes.length = f.given.length
            · rw [if_neg (by simp [hlen])] at hstep
              have hok : UtilityNodeOK all fs v := fun _ => ⟨f, hd, hT.2.choose_spec.2.1 |> fun _ => by
                obtain ⟨g, hg, _⟩ := hA; intro h; rw [h] at hg; simp at hg, .inl ⟨hall, hlen⟩⟩
              rcases ih (i + 1) (some i) hk' with ⟨⟨a1, a2, a3⟩, t, a4, a5, a6⟩ | ⟨a1, a2⟩
              · have hno := a3 rfl
                refine .inl ⟨⟨?_, ?_, by simp⟩, t, by rw [hstep, a4], ?_, ?_⟩
                · intro u hu'
                  rcases List.mem_cons.1 hu' with rfl | hu'
                  · exact hok
                  · exact a1 u hu'
                · exact List.pairwise_cons.2 ⟨fun u hu' h => hno u hu' h.2, a2⟩
                · intro h; exact absurd hT (h v List.mem_cons_self)
                · intro j u hj hu'
                  cases j with
                  | zero => rw [a5 hno]; rfl
                  | succ j =>
                    simp only [List.getElem?_cons_succ] at hj
                    exact absurd hu' (hno u (List.mem_of_getElem? hj))
              · refine .inr ⟨?_, ?_⟩
                · rintro ⟨b1, b2, b3⟩
                  obtain ⟨b4, b5⟩ := List.pairwise_cons.1 b2
                  exact a1 ⟨fun u hu' => b1 u (List.mem_cons_of_mem _ hu'), b5, fun _ u hu' h => b4 u hu' ⟨hT, h⟩⟩
                · rw [hstep]
                  rcases a2 with h | ⟨h, u, hu', h'⟩
                  · exact .inl h
                  · exact .inr ⟨h, u, List.mem_cons_of_mem _ hu', h'⟩
            · rw [if_pos hlen] at hstep
              rw [← htot]
              refine .inr ⟨hnot ?_, .inl ⟨_, by rw [htot]; exact hstep⟩⟩
              intro h
              obtain ⟨f', h1, h2, h3⟩ := h hu
              rw [hd] at h1
              simp only [Except.ok.injEq] at h1
              subst h1
              rcases h3 with ⟨_, h3⟩ | h3
              · exact hlen h3
              · obtain ⟨a, ha, ha'⟩ := hA
                exact h3 a ha ha'
      · have hbu' : bu = false := by rw [Bool.eq_false_iff]; exact fun h => hA (hbu.1 h)
        subst hbu'
        have hnone : ∀ g ∈ f.given, ¬ IsUtility all g := fun g hg h => hA ⟨g, hg, h⟩
        by_cases hB : ∃ g ∈ f.given, ¬ IsUtility all g
        · obtain rfl := hbo.2 hB
          rw [if_neg (by decide), if_neg (by decide), if_pos (by decide)] at hstep
          have hne : f.given ≠ [] := by obtain ⟨g, hg, _⟩ := hB; intro h; rw [h] at hg; simp at hg
          refine pass (fun _ => ⟨f, hd, hne, .inr hnone⟩) ?_ hstep
          rintro ⟨_, f', h1, h2, h3⟩
          rw [hd] at h1
          simp only [Except.ok.injEq] at h1
          subst h1
          obtain ⟨g, hg, h⟩ := hB
          exact h (h3 g hg)
        · have hbo' : bo = false := by rw [Bool.eq_false_iff]; exact fun h => hB (hbo.1 h)
          subst hbo'
          rw [if_neg (by decide), if_pos (by decide)] at hstep
          refine .inr ⟨hnot ?_, .inl ⟨_, hstep⟩⟩
          intro h
          obtain ⟨f', h1, h2, h3⟩ := h hu
          rw [hd] at h1
          simp only [Except.ok.injEq] at h1
          subst h1
          obtain ⟨g, hg⟩ := List.exists_mem_of_ne_nil _ h2
          exact hB ⟨g, hg, hnone g hg⟩

end Bbn
