import Verif.Lemmas.MachineExact
import Verif.Lemmas.Product
import Verif.Lemmas.Rearrange
import Verif.Lemmas.RoundingSolve
import Verif.Lemmas.VEStep

/-!
# Tables over a small set of variables stay small
-/

set_option autoImplicit false

namespace Bbn

/-- The second result is the first one, unless that is a fault, and has the given property. -/
def Leq {β : Type _} (Q : β → Prop) (r r' : Except Fault β) : Prop := ∀ x, r = .ok x → r' = .ok x ∧ Q x

theorem Leq.le {β : Type _} {Q : β → Prop} {r r' : Except Fault β} (h : Leq Q r r') : Le r r' := fun x hx => (h x hx).1

theorem Le.leq {β : Type _} {Q : β → Prop} {r r' : Except Fault β} (h : Le r r') (hQ : ∀ x, r = .ok x → Q x) :
    Leq Q r r' := fun x hx => ⟨h x hx, hQ x hx⟩

theorem Leq.self {β : Type _} {Q : β → Prop} {r : Except Fault β} (hQ : ∀ x, r = .ok x → Q x) : Leq Q r r :=
  fun x hx => ⟨hx, hQ x hx⟩

theorem Leq.ok {β : Type _} {Q : β → Prop} {x : β} (h : Q x) : Leq Q (.ok x) (.ok x) :=
  Leq.self (fun y hy => by cases hy; exact h)

theorem Leq.pure {β : Type} {Q : β → Prop} {x : β} (h : Q x) :
    Leq Q (Pure.pure x : Except Fault β) (Pure.pure x) := Leq.ok h

theorem Leq.err {β : Type _} {Q : β → Prop} {e : Fault} {r : Except Fault β} : Leq Q (.error e) r :=
  fun _ h => by cases h

theorem Leq.mono {β : Type _} {Q Q' : β → Prop} {r r' : Except Fault β} (h : Leq Q r r') (hQ : ∀ x, Q x → Q' x) :
    Leq Q' r r' := fun x hx => ⟨(h x hx).1, hQ x (h x hx).2⟩

theorem Leq.bind {β γ : Type} {Q : β → Prop} {Q' : γ → Prop} {r r' : Except Fault β} {g g' : β → Except Fault γ}
    (h : Leq Q r r') (hg : ∀ x, Q x → Leq Q' (g x) (g' x)) : Leq Q' (r >>= g) (r' >>= g') := by
  intro y hy
  cases r with
  | error e => cases hy
  | ok x =>
    obtain ⟨h1, h2⟩ := h x rfl
    rw [h1]
    exact hg x h2 y hy

theorem Leq.same {β γ : Type} {Q' : γ → Prop} {r : Except Fault β} {g g' : β → Except Fault γ}
    (hg : ∀ x, r = .ok x → Leq Q' (g x) (g' x)) : Leq Q' (r >>= g) (r >>= g') :=
  Leq.bind (Q := fun x => r = .ok x) (Leq.self (fun _ h => h)) hg

theorem Leq.foldlM {β γ : Type} {Q : β → Prop} {g g' : β → γ → Except Fault β} (l : List γ)
    (h : ∀ b x, x ∈ l → Q b → Leq Q (g b x) (g' b x)) (b : β) (hb : Q b) : Leq Q (l.foldlM g b) (l.foldlM g' b) := by
  induction l generalizing b with
  | nil => exact Leq.ok hb
  | cons a l ih =>
    rw [List.foldlM_cons, List.foldlM_cons]
    exact Leq.bind (h b a List.mem_cons_self hb) (fun x hx => ih (fun b y hy => h b y (List.mem_cons_of_mem _ hy)) x hx)

/-- All lists of different variables with the given property have less than `2^63` combinations of outcomes. -/
def Roomy (P : Var → Prop) : Prop := ∀ l : List Var, l.Nodup → (∀ v ∈ l, P v) → size l < 2 ^ 63

/-- A table over different variables with the given property, with one entry for each combination. -/
structure Factor.Small {α : Type} (P : Var → Prop) (f : Factor α) : Prop where
  nodup : f.vars.Nodup
  vars : ∀ v ∈ f.vars, P v
  len : f.data.length = size f.vars

section
variable {α : Type} {P : Var → Prop}

theorem Factor.Small.lt {f : Factor α} (hf : f.Small P) (hP : Roomy P) : f.data.length < 2 ^ 63 := by
  rw [hf.len]
  exact hP _ hf.nodup hf.vars

/-- What `CreateFactor` promises. -/
def Created (vars : List Var) (a : Factor α × Vs) : Prop := a.1.vars = vars ∧ a.1.data.length = size vars

theorem createFactorM_leq [Zero α] (s : Vs) {vars : List Var} (d : Option (List α)) (h : size vars < 2 ^ 63) :
    Leq (Created vars) (s.createFactorM .exact vars d) (s.createFactorM .careful vars d) := by
  unfold Vs.createFactorM
  refine Leq.bind (Q := fun r => r = (size vars : Int)) ?_ (fun r hr => ?_)
  · unfold Mach.exact Mach.careful
    dsimp only
    rw [if_pos h]
    exact Leq.ok rfl
  · subst hr
    cases d with
    | none =>
      dsimp only
      rw [if_neg (by omega)]
      exact Leq.ok ⟨rfl, by simp⟩
    | some d =>
      dsimp only
      split
      · exact Leq.err
      · rename_i hd
        exact Leq.ok ⟨rfl, by push Not at hd; exact_mod_cast hd⟩

theorem bind_pos_careful {β : Type} (vars : List Var) (t : List Nat) (g : Int → Except Fault β) :
    (Mach.careful.pos vars t >>= g) = (varsIndex vars t >>= fun i => if i < 2 ^ 63 then g (i : Int) else
      .error (.panic "too large")) := by
  unfold Mach.careful
  dsimp only
  cases varsIndex vars t with
  | error e => rfl
  | ok i =>
    rw [ok_bind, ok_bind]
    split <;> rfl

theorem getM_small (f : Factor α) (t : List Nat) (h : f.data.length < 2 ^ 63) :
    Le (f.getM .exact t) (f.getM .careful t) := by
  unfold Factor.getM
  rw [bind_pos_exact, bind_pos_careful]
  refine Le.bind (Le.refl _) (fun i x hx => ?_)
  rw [goGetI_cast] at hx ⊢
  have := goGet_eq.1 hx
  have hi : i < f.data.length := by
    by_contra hc
    rw [List.getElem?_eq_none (by omega)] at this
    cases this
  rw [if_pos (by omega)]
  exact hx

theorem setM_small (vars : List Var) (t : List Nat) (new : List α) (x : α) (h : new.length < 2 ^ 63) :
    Leq (fun r : List α => r.length = new.length) (do let j ← Mach.exact.pos vars t; goSetI new j x)
      (do let j ← Mach.careful.pos vars t; goSetI new j x) := by
  rw [bind_pos_exact, bind_pos_careful]
  refine Leq.same (fun i _ y hy => ?_)
  rw [goSetI_cast] at hy ⊢
  obtain ⟨h1, h2⟩ := goSet_inv hy
  rw [if_pos (by omega)]
  exact ⟨hy, by rw [h2]; simp⟩

theorem restrictLoopM_small (vars newVars : List Var) (idx obs : Nat) (xs : List α) (old : List Nat)
    (new : List α) (h : new.length < 2 ^ 63) :
    Leq (fun r => r.length = new.length) (restrictLoopM .exact vars newVars idx obs xs old new)
      (restrictLoopM .careful vars newVars idx obs xs old new) := by
  induction xs generalizing old new with
  | nil => exact Leq.ok rfl
  | cons x xs ih =>
    unfold restrictLoopM
    refine Leq.same (fun o _ => ?_)
    dsimp only
    have rest : ∀ new' : List α, new'.length = new.length →
        Leq (fun r : List α => r.length = new.length)
          (restrictLoopM .exact vars newVars idx obs xs (increment vars old).1 new')
          (restrictLoopM .careful vars newVars idx obs xs (increment vars old).1 new') :=
      fun new' hn => (ih _ _ (by omega)).mono (fun _ hr => hr.trans hn)
    split
    · have := Leq.bind (setM_small newVars (old.eraseIdx idx) new x h) rest
      simpa only [bind_assoc] using this
    · exact Leq.bind (Leq.ok (Q := fun n : List α => n.length = new.length) rfl) rest

theorem otherVars_small {f : Factor α} (hf : f.Small P) (id : Nat) :
    (otherVars id f.vars).Nodup ∧ ∀ v ∈ otherVars id f.vars, P v :=
  ⟨hf.nodup.filter _, fun v hv => hf.vars v (List.mem_filter.1 hv).1⟩

/-- What the operations on factors promise. -/
def Made (P : Var → Prop) (a : Factor α × Vs) : Prop := a.1.Small P

theorem restrictM_small [Zero α] (hP : Roomy P) (s : Vs) (f : Factor α) (hf : f.Small P) (v : Var) (obs : Int) :
    Leq (Made P) (s.restrictM .exact f v obs) (s.restrictM .careful f v obs) := by
  unfold Vs.restrictM
  obtain ⟨o1, o2⟩ := otherVars_small hf v.id
  split
  · exact Leq.err
  · split
    · exact Leq.err
    · refine Leq.bind (createFactorM_leq s _ (hP _ o1 o2)) (fun p hp => ?_)
      obtain ⟨g, s'⟩ := p
      obtain ⟨h1, h2⟩ := hp
      dsimp only at h1 h2 ⊢
      refine Leq.bind (restrictLoopM_small _ _ _ _ _ _ _ (h2 ▸ hP _ o1 o2)) (fun d hd => ?_)
      exact Leq.ok ⟨by dsimp only; rw [h1]; exact o1, by dsimp only; rw [h1]; exact o2,
        by dsimp only; rw [h1, hd, h2]⟩

theorem sumOutLoopM_small [Add α] (vars newVars : List Var) (idx : Nat) (xs : List α) (old : List Nat)
    (new : List α) (h : new.length < 2 ^ 63) :
    Leq (fun r => r.length = new.length) (sumOutLoopM .exact vars newVars idx xs old new)
      (sumOutLoopM .careful vars newVars idx xs old new) := by
  induction xs generalizing old new with
  | nil => exact Leq.ok rfl
  | cons x xs ih =>
    unfold sumOutLoopM
    rw [bind_pos_exact, bind_pos_careful]
    refine Leq.same (fun i _ y hy => ?_)
    obtain ⟨c, hc, hy⟩ := bind_inv hy
    obtain ⟨n', hn, hy⟩ := bind_inv hy
    have hn' := hn
    rw [goSetI_cast] at hn'
    obtain ⟨h1, h2⟩ := goSet_inv hn'
    rw [if_pos (by omega), hc, ok_bind, hn, ok_bind]
    have hl : n'.length = new.length := by rw [h2]; simp
    exact ((ih _ _ (by omega)).mono (fun _ hr => hr.trans hl)) y hy

theorem sumOutM_small [Zero α] [Add α] (hP : Roomy P) (s : Vs) (f : Factor α) (hf : f.Small P) (v : Var) :
    Leq (Made P) (s.sumOutM .exact f v) (s.sumOutM .careful f v) := by
  unfold Vs.sumOutM
  obtain ⟨o1, o2⟩ := otherVars_small hf v.id
  split
  · exact Leq.err
  · refine Leq.bind (createFactorM_leq s _ (hP _ o1 o2)) (fun p hp => ?_)
    obtain ⟨g, s'⟩ := p
    obtain ⟨h1, h2⟩ := hp
    dsimp only at h1 h2 ⊢
    refine Leq.bind (sumOutLoopM_small _ _ _ _ _ _ (h2 ▸ hP _ o1 o2)) (fun d hd => ?_)
    exact Leq.ok ⟨by dsimp only; rw [h1]; exact o1, by dsimp only; rw [h1]; exact o2,
      by dsimp only; rw [h1, hd, h2]⟩

section
variable [Zero α] [One α] [Div α] [NatCast α] [LE α] [DecidableLE α] [LT α] [DecidableLT α] [DecidableEq α]

theorem policyRowM_small (f : Factor α) (hf : f.data.length < 2 ^ 63) (newVars : List Var) (idx cols row : Nat)
    (new : List α) (h : new.length < 2 ^ 63) :
    Leq (fun r => r.length = new.length) (policyRowM .exact f newVars idx cols row new)
      (policyRowM .careful f newVars idx cols row new) := by
  unfold policyRowM
  refine Leq.bind (Q := fun _ => True) ((Le.mapM _ (fun c => getM_small f _ hf)).leq (fun _ _ => trivial)) (fun d _ => ?_)
  dsimp only
  split
  · exact Leq.err
  · refine Leq.foldlM (Q := fun r : List α => r.length = new.length) _ (fun b c _ hb => ?_) _ rfl
    exact (setM_small _ _ b _ (by omega)).mono (fun _ hr => hr.trans hb)

theorem policyM_small (hP : Roomy P) (s : Vs) (f : Factor α) (hf : f.Small P) (v : Var) :
    Leq (Made P) (s.policyM .exact f v) (s.policyM .careful f v) := by
  unfold Vs.policyM
  obtain ⟨o1, o2⟩ := otherVars_small hf v.id
  split
  · exact Leq.err
  · rename_i idx hidx
    refine Leq.same (fun w hw => ?_)
    have hmem : w ∈ f.vars := List.mem_of_getElem? (goGet_eq.1 hw)
    obtain ⟨w', hw', hid⟩ := lastIdx_some hidx
    have hww : w = w' := by
      have := goGet_eq.1 hw
      rw [hw'] at this
      exact (Option.some.inj this).symm
    have n1 : (otherVars v.id f.vars ++ [w]).Nodup := by
      rw [List.nodup_append]
      refine ⟨o1, by simp, fun a ha b hb => ?_⟩
      rw [List.mem_singleton] at hb
      subst hb
      have := (List.mem_filter.1 ha).2
      intro e
      subst e
      rw [hww] at this
      simp [hid] at this
    have n2 : ∀ x ∈ otherVars v.id f.vars ++ [w], P x := by
      intro x hx
      rcases List.mem_append.1 hx with hx | hx
      · exact o2 x hx
      · rw [List.mem_singleton] at hx
        exact hx ▸ hf.vars w hmem
    refine Leq.bind (createFactorM_leq s _ (hP _ n1 n2)) (fun p hp => ?_)
    obtain ⟨g, s'⟩ := p
    obtain ⟨h1, h2⟩ := hp
    dsimp only at h1 h2 ⊢
    split
    · exact Leq.err
    · refine Leq.bind (Leq.foldlM (Q := fun r : List α => r.length = g.data.length) _ (fun b r _ hb => ?_) _ rfl)
        (fun d hd => ?_)
      · have := policyRowM_small f (hf.lt hP) (otherVars v.id f.vars ++ [w]) idx w.outcomes r b
          (by rw [hb, h2]; exact hP _ n1 n2)
        exact this.mono (fun _ hr => hr.trans hb)
      · exact Leq.ok ⟨by dsimp only; rw [h1]; exact n1, by dsimp only; rw [h1]; exact n2,
          by dsimp only; rw [h1, hd, h2]⟩

end

theorem odoBuild_leq {g g' : List Nat → Except Fault α} (vars : List Var) (h : ∀ t, Le (g t) (g' t)) (k : Nat)
    (t : List Nat) : Leq (fun r => r.length = k) (odoBuild vars g k t) (odoBuild vars g' k t) := by
  refine (odoBuild_le vars h k t).leq ?_
  induction k generalizing t with
  | zero => intro x hx; cases hx; rfl
  | succ k ih =>
    intro x hx
    obtain ⟨a, _, hx⟩ := bind_inv hx
    obtain ⟨b, hb, hx⟩ := bind_inv hx
    cases hx
    rw [List.length_cons, ih _ b hb]

theorem rearrangeM_small [Zero α] (hP : Roomy P) (s : Vs) (f : Factor α) (hf : f.Small P) (vars : List Var)
    (hp : vars.Perm f.vars) : Leq (Made P) (s.rearrangeM .exact f vars) (s.rearrangeM .careful f vars) := by
  unfold Vs.rearrangeM
  have n1 : vars.Nodup := hp.symm.nodup hf.nodup
  have n2 : ∀ v ∈ vars, P v := fun v hv => hf.vars v (hp.subset hv)
  split
  · exact Leq.err
  · refine Leq.same (fun is _ => ?_)
    split
    · refine (createFactorM_leq s _ (hP _ hf.nodup hf.vars)).mono (fun a ha => ?_)
      exact ⟨by rw [ha.1]; exact hf.nodup, by rw [ha.1]; exact hf.vars, by rw [ha.1]; exact ha.2⟩
    · refine Leq.bind (createFactorM_leq s _ (hP _ n1 n2)) (fun p hp => ?_)
      obtain ⟨g, s'⟩ := p
      obtain ⟨h1, h2⟩ := hp
      dsimp only at h1 h2 ⊢
      refine Leq.bind (odoBuild_leq _ (fun t => getM_small f _ (hf.lt hP)) _ _) (fun d hd => ?_)
      exact Leq.ok ⟨by dsimp only; rw [h1]; exact n1, by dsimp only; rw [h1]; exact n2,
        by dsimp only; rw [h1, hd, h2]⟩

theorem productCellM_small [Mul α] (t : List Nat) (ps : List (Factor α × List Nat))
    (h : ∀ p ∈ ps, p.1.data.length < 2 ^ 63) (acc : α) :
    Le (productCellM .exact t ps acc) (productCellM .careful t ps acc) := by
  induction ps generalizing acc with
  | nil => exact Le.refl _
  | cons p ps ih =>
    exact Le.bind (Le.refl _) (fun i => Le.bind (getM_small _ _ (h p List.mem_cons_self)) (fun x =>
      ih (fun q hq => h q (List.mem_cons_of_mem _ hq)) _))

theorem sumCellM_small [Add α] (t : List Nat) (ps : List (Factor α × List Nat))
    (h : ∀ p ∈ ps, p.1.data.length < 2 ^ 63) (acc : α) :
    Le (sumCellM .exact t ps acc) (sumCellM .careful t ps acc) := by
  induction ps generalizing acc with
  | nil => exact Le.refl _
  | cons p ps ih =>
    exact Le.bind (Le.refl _) (fun i => Le.bind (getM_small _ _ (h p List.mem_cons_self)) (fun x =>
      ih (fun q hq => h q (List.mem_cons_of_mem _ hq)) _))

theorem zip_small {fs : List (Factor α)} (hf : ∀ f ∈ fs, f.data.length < 2 ^ 63) (ms : List (List Nat)) :
    ∀ p ∈ fs.zip ms, p.1.data.length < 2 ^ 63 := fun _ hp => hf _ (List.of_mem_zip hp).1

theorem mergeAll_small {fs : List (Factor α)} (hf : ∀ f ∈ fs, f.Small P) :
    (mergeAll [] (fs.map Factor.vars)).1.Nodup ∧ ∀ v ∈ (mergeAll [] (fs.map Factor.vars)).1, P v := by
  obtain ⟨_, _, h3, h4⟩ := mergeAll_spec [] (fs.map Factor.vars)
  refine ⟨h4 List.nodup_nil, fun v hv => ?_⟩
  rcases (h3 v).1 hv with h | ⟨vs, h, hv⟩
  · cases h
  · obtain ⟨f, hff, rfl⟩ := List.mem_map.1 h
    exact (hf f hff).vars v hv

theorem copy_small [Zero α] (hP : Roomy P) (s : Vs) (f : Factor α) (hf : f.Small P) :
    Leq (Made P) (s.createFactorM .exact f.vars (some f.data)) (s.createFactorM .careful f.vars (some f.data)) :=
  (createFactorM_leq s _ (hP _ hf.nodup hf.vars)).mono (fun _ ha =>
    ⟨by rw [ha.1]; exact hf.nodup, by rw [ha.1]; exact hf.vars, by rw [ha.1]; exact ha.2⟩)

theorem productM_small [Zero α] [One α] [Mul α] (hP : Roomy P) (s : Vs) (fs : List (Factor α))
    (hf : ∀ f ∈ fs, f.Small P) : Leq (Made P) (s.productM .exact fs) (s.productM .careful fs) := by
  obtain ⟨n1, n2⟩ := mergeAll_small hf
  unfold Vs.productM
  split
  · exact copy_small hP s _ (hf _ (by simp))
  · refine Leq.bind (createFactorM_leq s _ (hP _ n1 n2)) (fun p hp => ?_)
    obtain ⟨g, s'⟩ := p
    obtain ⟨h1, h2⟩ := hp
    dsimp only at h1 h2 ⊢
    refine Leq.bind (odoBuild_leq _ (fun t => productCellM_small _ _ (zip_small (fun f h => (hf f h).lt hP) _) _) _ _)
      (fun d hd => ?_)
    exact Leq.ok ⟨by dsimp only; rw [h1]; exact n1, by dsimp only; rw [h1]; exact n2,
      by dsimp only; rw [h1, hd, h2]⟩

theorem sumM_small [Zero α] [Add α] (hP : Roomy P) (s : Vs) (fs : List (Factor α))
    (hf : ∀ f ∈ fs, f.Small P) : Leq (Made P) (s.sumM .exact fs) (s.sumM .careful fs) := by
  obtain ⟨n1, n2⟩ := mergeAll_small hf
  unfold Vs.sumM
  split
  · exact copy_small hP s _ (hf _ (by simp))
  · refine Leq.bind (createFactorM_leq s _ (hP _ n1 n2)) (fun p hp => ?_)
    obtain ⟨g, s'⟩ := p
    obtain ⟨h1, h2⟩ := hp
    dsimp only at h1 h2 ⊢
    refine Leq.bind (odoBuild_leq _ (fun t => sumCellM_small _ _ (zip_small (fun f h => (hf f h).lt hP) _) _) _ _)
      (fun d hd => ?_)
    exact Leq.ok ⟨by dsimp only; rw [h1]; exact n1, by dsimp only; rw [h1]; exact n2,
      by dsimp only; rw [h1, hd, h2]⟩

theorem marginalLoop_length [Add α] (vars : List Var) (idx : Nat) (xs : List α) (old : List Nat) (new : List α) :
    ∀ r, marginalLoop vars idx xs old new = .ok r → r.length = new.length := by
  induction xs generalizing old new with
  | nil => intro r hr; cases hr; rfl
  | cons x xs ih =>
    intro r hr
    obtain ⟨o, _, hr⟩ := bind_inv hr
    obtain ⟨c, _, hr⟩ := bind_inv hr
    obtain ⟨n, hn, hr⟩ := bind_inv hr
    rw [ih _ _ r hr, (goSet_inv hn).2]
    simp

theorem marginalM_small [Zero α] [Add α] (hP : Roomy P) (s : Vs) (f : Factor α) (v : Var) (hv : P v) :
    Leq (Made P) (s.marginalM .exact f v) (s.marginalM .careful f v) := by
  have n1 : [v].Nodup := by simp
  have n2 : ∀ w ∈ [v], P w := by simpa using hv
  unfold Vs.marginalM
  split
  · exact Leq.err
  · refine Leq.bind (createFactorM_leq s _ (hP _ n1 n2)) (fun p hp => ?_)
    obtain ⟨g, s'⟩ := p
    obtain ⟨h1, h2⟩ := hp
    dsimp only at h1 h2 ⊢
    refine Leq.same (fun d hd => ?_)
    exact Leq.ok ⟨by dsimp only; rw [h1]; exact n1, by dsimp only; rw [h1]; exact n2,
      by dsimp only; rw [h1, marginalLoop_length _ _ _ _ _ d hd, h2]⟩

theorem normalizeM_small [Zero α] [Add α] [Div α] (hP : Roomy P) (s : Vs) (f : Factor α) (hf : f.Small P) :
    Leq (Made P) (s.normalizeM .exact f) (s.normalizeM .careful f) := by
  unfold Vs.normalizeM
  refine Leq.bind (copy_small hP s f hf) (fun p hp => ?_)
  exact Leq.ok ⟨hp.nodup, hp.vars, by dsimp only; rw [List.length_map]; exact hp.len⟩

theorem invertM_small [Zero α] [One α] [Div α] (hP : Roomy P) (s : Vs) (f : Factor α) (hf : f.Small P) :
    Leq (Made P) (s.invertM .exact f) (s.invertM .careful f) := by
  unfold Vs.invertM
  refine Leq.bind (copy_small hP s f hf) (fun p hp => ?_)
  exact Leq.ok ⟨hp.nodup, hp.vars, by dsimp only; rw [List.length_map]; exact hp.len⟩

theorem normalizeForM_small [Zero α] [Add α] [Div α] [DecidableEq α] (hP : Roomy P) (s : Vs) (f : Factor α)
    (hf : f.Small P) (v : Var) : Leq (Made P) (s.normalizeForM .exact f v) (s.normalizeForM .careful f v) := by
  unfold Vs.normalizeForM
  split
  · exact Leq.err
  · rename_i idx _
    refine Leq.same (fun w hw => ?_)
    have hp : (f.vars.eraseIdx idx ++ [w]).Perm f.vars := by
      have h1 := goGet_eq.1 hw
      obtain ⟨hi, rfl⟩ := List.getElem?_eq_some_iff.1 h1
      have := List.getElem_cons_eraseIdx_perm hi
      exact (List.perm_append_comm.trans (by simpa using this))
    refine Leq.bind (rearrangeM_small hP s f hf _ hp) (fun p hq => ?_)
    obtain ⟨g, s'⟩ := p
    dsimp only
    split
    · exact Leq.err
    · exact Leq.ok ⟨hq.nodup, hq.vars, by dsimp only; rw [normBins_length]; exact hq.len⟩

/-! ## The solver -/

/-- All tables of the solver are small. -/
def VE.Small (P : Var → Prop) (st : VE α) : Prop := ∀ f ∈ st.factors, f.Small P

theorem iter_small {sch : Sched α} {st : VE α} (h : st.Small P) : ∀ f ∈ st.iter sch, f.Small P :=
  fun f hf => h f ((sch.fac_perm st.tick st.factors).subset hf)

theorem insert_small {fs : List (Factor α)} {f : Factor α} (h : ∀ g ∈ fs, g.Small P) (hf : f.Small P) :
    ∀ g ∈ insertFactor fs f, g.Small P := fun g hg => by
  rcases mem_insertFactor hg with hg | rfl
  · exact h g hg
  · exact hf

theorem deleteAll_small {fs : List (Factor α)} (h : ∀ g ∈ fs, g.Small P) (ids : List Nat) :
    ∀ g ∈ deleteAll fs ids, g.Small P := fun g hg => by
  rw [deleteAll_eq] at hg
  exact h g (List.mem_filter.1 hg).1

theorem lookup_small {fs : List (Factor α)} (h : ∀ g ∈ fs, g.Small P) {i : Nat} {f : Factor α}
    (hf : lookupFactor fs i = .ok f) : f.Small P := by
  unfold lookupFactor at hf
  split at hf
  · rename_i g hg
    cases hf
    exact h _ (List.mem_of_find?_eq_some hg)
  · cases hf

theorem restrictIdsM_small [Zero α] (hP : Roomy P) (e : Evid) (is : List Nat) (st : VE α) (h : st.Small P) :
    Leq (VE.Small P) (restrictIdsM .exact e is st) (restrictIdsM .careful e is st) := by
  induction is generalizing st with
  | nil => exact Leq.ok h
  | cons i is ih =>
    refine Leq.same (fun f hf => Leq.bind (restrictM_small hP _ f (lookup_small h hf) _ _) (fun p hp => ?_))
    obtain ⟨g, s'⟩ := p
    exact ih _ (insert_small (fun g hg => h g (List.mem_filter.1 hg).1) hp)

theorem eliminateEvidenceM_small [Zero α] (hP : Roomy P) (sch : Sched α) (st : VE α) (ev : List Evid)
    (h : st.Small P) :
    Leq (VE.Small P) (st.eliminateEvidenceM .exact sch ev) (st.eliminateEvidenceM .careful sch ev) :=
  Leq.foldlM _ (fun st e _ hb => restrictIdsM_small hP e _ { st with tick := st.tick + 1 } hb) st h

theorem constant_small (w : α) : (⟨0, [w], []⟩ : Factor α).Small P := ⟨List.nodup_nil, by simp, rfl⟩

theorem collectUtilsM_small [Zero α] [One α] [Mul α] (hP : Roomy P) (utils : List Var) (ws : Option (List α))
    (fs : List (Factor α)) (hf : ∀ f ∈ fs, f.Small P) (vs : Vs) :
    Leq (fun r => ∀ f ∈ r.2.1, f.Small P) (collectUtilsM .exact utils ws fs vs)
      (collectUtilsM .careful utils ws fs vs) := by
  have hs : ∀ i (f : Factor α) vs, f.Small P → Leq (Made P) (scaleUtilM .exact ws i f vs) (scaleUtilM .careful ws i f vs) := by
    intro i f vs h
    unfold scaleUtilM
    split
    · exact Leq.ok h
    · refine Leq.same (fun w _ => productM_small hP vs _ (fun g hg => ?_))
      rcases List.mem_cons.1 hg with rfl | hg
      · exact h
      · rw [List.mem_singleton] at hg
        exact hg ▸ constant_small w
  induction fs generalizing vs with
  | nil => exact Leq.ok (by simp)
  | cons f fs ih =>
    have ih := ih (fun g hg => hf g (List.mem_cons_of_mem _ hg))
    unfold collectUtilsM
    split
    · exact ih _
    · refine Leq.bind (hs _ f _ (hf f List.mem_cons_self)) (fun p hp => Leq.bind (ih _) (fun q hq => ?_))
      refine Leq.ok (fun g hg => ?_)
      rcases List.mem_cons.1 hg with rfl | hg
      · exact hp
      · exact hq g hg

theorem sumOutUtilsM_small [Zero α] [Add α] (hP : Roomy P) (us : List Var) (f : Factor α) (hf : f.Small P) (vs : Vs)
    (el : List Bool) :
    Leq (fun r => r.1.Small P) (sumOutUtilsM .exact us f vs el) (sumOutUtilsM .careful us f vs el) := by
  induction us generalizing f vs el with
  | nil => exact Leq.ok hf
  | cons u us ih =>
    exact Leq.bind (sumOutM_small hP _ f hf _) (fun p hp => Leq.same (fun e _ => ih _ hp _ _))

section
variable [Zero α] [One α] [Add α] [Mul α]

theorem sumUtilitiesM_small (hP : Roomy P) (sch : Sched α) (st : VE α) (h : st.Small P) :
    Leq (VE.Small P) (st.sumUtilitiesM .exact sch) (st.sumUtilitiesM .careful sch) := by
  unfold VE.sumUtilitiesM
  dsimp only
  split
  · exact Leq.ok h
  · refine Leq.bind (collectUtilsM_small hP _ _ _ (iter_small h) _) (fun p hp => ?_)
    refine Leq.bind (sumM_small hP _ _ hp) (fun q hq => Leq.bind (sumOutUtilsM_small hP _ _ hq _ _) (fun r hr => ?_))
    exact Leq.ok (insert_small (deleteAll_small h _) hr)

theorem removeHiddenM_small (hP : Roomy P) (sch : Sched α) (st : VE α) (v : Var) (h : st.Small P) :
    Leq (VE.Small P) (st.removeHiddenM .exact sch v) (st.removeHiddenM .careful sch v) := by
  unfold VE.removeHiddenM
  refine Leq.bind (productM_small hP _ _ (fun f hf => iter_small h f (List.mem_filter.1 hf).1)) (fun p hp =>
    Leq.bind (sumOutM_small hP _ _ hp _) (fun q hq => Leq.same (fun e _ => ?_)))
  exact Leq.ok (insert_small (deleteAll_small h _) hq)

theorem eliminateHiddenM_small (hP : Roomy P) (sch : Sched α) (st : VE α) (ev : List Evid) (q : List Var)
    (single : Bool) (h : st.Small P) :
    Leq (VE.Small P) (st.eliminateHiddenM .exact sch ev q single) (st.eliminateHiddenM .careful sch ev q single) := by
  unfold VE.eliminateHiddenM
  exact Leq.same (fun p _ => Leq.same (fun hid _ =>
    Leq.foldlM _ (fun st v _ hb => removeHiddenM_small hP sch st _ hb) _ h))

theorem multiplyAllM_small (hP : Roomy P) (sch : Sched α) (st : VE α) (h : st.Small P) :
    Leq (fun r => r.1.Small P) (st.multiplyAllM .exact sch) (st.multiplyAllM .careful sch) := by
  unfold VE.multiplyAllM
  exact Leq.bind (productM_small hP _ _ (iter_small h)) (fun p hp => Leq.ok hp)

theorem removeUtilities_small {sch : Sched α} {st : VE α} (h : st.Small P) (u : Option Var) :
    (st.removeUtilities sch u).Small P := by
  unfold VE.removeUtilities
  dsimp only
  split
  · exact h
  · exact deleteAll_small h _

theorem veSolveM_small (hP : Roomy P) (sch : Sched α) (st : VE α) (ev : List Evid) (q : List Var) (utility : Bool)
    (u : Option Var) (h : st.Small P) :
    Leq (fun r => r.1.Small P) (st.solveM .exact sch ev q utility u) (st.solveM .careful sch ev q utility u) := by
  unfold VE.solveM
  refine Leq.bind (eliminateEvidenceM_small hP sch st ev h) (fun st hst => ?_)
  have rest : ∀ st : VE α, st.Small P → Leq (fun r => r.1.Small P)
      (do let st ← st.eliminateHiddenM .exact sch ev q false; st.multiplyAllM .exact sch)
      (do let st ← st.eliminateHiddenM .careful sch ev q false; st.multiplyAllM .careful sch) := fun st h =>
    Leq.bind (eliminateHiddenM_small hP sch st ev q false h) (fun st h => multiplyAllM_small hP sch st h)
  dsimp only
  split
  · split
    · exact Leq.bind (sumUtilitiesM_small hP sch st hst) rest
    · exact Leq.bind (Leq.pure (removeUtilities_small hst _)) rest
  · exact Leq.bind (Leq.pure (removeUtilities_small hst _)) rest

theorem decisionProductM_small (hP : Roomy P) (vs : Vs) (fs : List (Factor α)) (hf : ∀ f ∈ fs, f.Small P) :
    Leq (Made P) (decisionProductM .exact vs fs) (decisionProductM .careful vs fs) := by
  match fs, hf with
  | [], _ => exact Leq.err
  | [f], hf => exact Leq.ok (hf f (by simp))
  | f :: g :: fs, hf => exact productM_small hP vs (f :: g :: fs) hf

theorem solveNamedM_small (hP : Roomy P) (sch : NSched α) (ve : VE α) (names : List (String × NVar × Var))
    (ev : List (String × String)) (q : List String) (utility : Bool) (u : String) (h : ve.Small P) :
    Leq (fun r => r.1.Small P) (solveNamedM .exact sch ve names ev q utility u)
      (solveNamedM .careful sch ve names ev q utility u) := by
  unfold solveNamedM
  refine Leq.same (fun e _ => Leq.same (fun q _ => ?_))
  split
  · exact Leq.same (fun u _ => veSolveM_small hP _ _ _ _ _ _ h)
  · exact veSolveM_small hP _ _ _ _ _ _ h

end

section
variable [Zero α] [One α] [Add α] [Mul α] [Div α] [NatCast α] [LE α] [DecidableLE α] [LT α] [DecidableLT α]
  [DecidableEq α]

theorem solvePolicyM_small (hP : Roomy P) (sch : Sched α) (st : VE α) (single : Bool) (dec : Var) (h : st.Small P) :
    Leq (fun r => r.2.Small P ∧ r.1.2.2.Small P) (st.solvePolicyM .exact sch single dec)
      (st.solvePolicyM .careful sch single dec) := by
  unfold VE.solvePolicyM
  have hd : ∀ f ∈ st.findDecisionFactors sch dec, f.Small P := by
    intro f hf
    unfold VE.findDecisionFactors at hf
    dsimp only at hf
    split at hf
    · exact h f ((sch.fac_perm _ _).subset (List.mem_filter.1 hf).1)
    · exact iter_small h f (List.mem_filter.1 hf).1
  refine Leq.bind (decisionProductM_small hP _ _ hd) (fun p hp => Leq.bind (policyM_small hP _ _ hp _) (fun q hq =>
    Leq.same (fun vars _ => Leq.bind (eliminateHiddenM_small hP _ _ _ _ _ (insert_small h hq)) (fun st hst => ?_))))
  exact Leq.ok ⟨hst, hq⟩

theorem solvePolicyListM_small (hP : Roomy P) (sch : Sched α) (single : Bool) (ds : List Var) (st : VE α)
    (h : st.Small P) :
    Leq (fun r => ∀ p ∈ r.1, p.2.2.Small P) (VE.solvePolicyListM .exact sch single ds st)
      (VE.solvePolicyListM .careful sch single ds st) := by
  induction ds generalizing st with
  | nil => exact Leq.ok (by simp)
  | cons d ds ih =>
    unfold VE.solvePolicyListM
    refine Leq.bind (solvePolicyM_small hP _ _ _ _ h) (fun p hp => ?_)
    obtain ⟨p, st'⟩ := p
    dsimp only at hp ⊢
    split
    · refine Leq.ok (fun q hq => ?_)
      rw [List.mem_singleton] at hq
      exact hq ▸ hp.2
    · refine Leq.bind (ih _ hp.1) (fun r hr => Leq.ok (fun q hq => ?_))
      rcases List.mem_cons.1 hq with rfl | hq
      · exact hp.2
      · exact hr q hq

theorem veSolvePoliciesM_small (hP : Roomy P) (sch : Sched α) (st : VE α) (single : Bool) (h : st.Small P) :
    Leq (fun r => ∀ ps, r.1 = some ps → ∀ p ∈ ps, p.2.2.Small P) (st.solvePoliciesM .exact sch single)
      (st.solvePoliciesM .careful sch single) := by
  unfold VE.solvePoliciesM
  refine Leq.same (fun p _ => ?_)
  obtain ⟨ds, tick⟩ := p
  dsimp only
  split
  · exact Leq.ok (by simp)
  · exact Leq.bind (sumUtilitiesM_small hP _ _ h) (fun st h => Leq.bind (eliminateHiddenM_small hP _ _ _ _ _ h)
      (fun st h => Leq.bind (solvePolicyListM_small hP _ _ _ _ h) (fun r hr => Leq.ok (fun ps e p hp => by
        injection e with e
        exact hr p (e ▸ hp)))))

end
end

end Bbn
