import Verif.Lemmas.NetOptimal
import Verif.Props.NetUtility
import Verif.Spec.Acyclic
import Mathlib.Data.List.Sort
import Mathlib.Algebra.BigOperators.Ring.Finset

/-!
# Sums over worlds: reordering, and dropping variables on which nothing depends
-/

set_option autoImplicit false

namespace Bbn

open Finset

variable {α : Type}

theorem World.set_comm (w : World) {s t : String} (h : s ≠ t) (a b : Nat) :
    (w.set s a).set t b = (w.set t b).set s a := by
  funext r
  unfold World.set
  by_cases h1 : r = t
  · subst h1
    simp [Ne.symm h]
  · by_cases h2 : r = s
    · subst h2
      simp [h1]
    · simp [h1, h2]

theorem World.set_set (w : World) (s : String) (a b : Nat) : (w.set s a).set s b = w.set s b := by
  funext r
  unfold World.set
  by_cases h1 : r = s <;> simp [h1]

theorem World.set_self (w : World) (s : String) : w.set s (w s) = w := by
  funext r
  unfold World.set
  by_cases h1 : r = s <;> simp [h1]

theorem World.set_eq (w : World) (s : String) (k : Nat) : (w.set s k) s = k := if_pos rfl

theorem World.set_ne (w : World) {s t : String} (h : t ≠ s) (k : Nat) : (w.set s k) t = w t := if_neg h

theorem sumWorlds_append [AddCommMonoid α] (F : World → α) : ∀ (l l' : List NVar) (w : World),
    sumWorlds (l ++ l') F w = sumWorlds l (sumWorlds l' F) w := by
  intro l l'
  induction l with
  | nil => intro w; rfl
  | cons v l ih =>
    intro w
    simp only [List.cons_append, sumWorlds, ih]

theorem sumWorlds_perm [AddCommMonoid α] (F : World → α) {l l' : List NVar} (h : l.Perm l') : ∀ w : World,
    (l.map NVar.name).Nodup → sumWorlds l F w = sumWorlds l' F w := by
  induction h with
  | nil => intro w _; rfl
  | cons v _ ih =>
    intro w hnd
    rw [List.map_cons, List.nodup_cons] at hnd
    simp only [sumWorlds]
    exact Finset.sum_congr rfl (fun k _ => ih _ hnd.2)
  | swap u v l =>
    intro w hnd
    simp only [List.map_cons, List.nodup_cons, List.mem_cons, not_or] at hnd
    simp only [sumWorlds]
    rw [Finset.sum_comm]
    refine Finset.sum_congr rfl (fun k _ => Finset.sum_congr rfl (fun j _ => ?_))
    rw [World.set_comm w hnd.1.1]
  | trans h1 _ ih1 ih2 =>
    intro w hnd
    rw [ih1 w hnd, ih2 w ((h1.map NVar.name).nodup_iff.1 hnd)]

/-- `F` does not look at the variable `s`. -/
def Blind (F : World → α) (s : String) : Prop := ∀ w k, F (w.set s k) = F w

theorem Blind.prod [CommMonoid α] {ι : Type} {l : List ι} {K : ι → World → α} {s : String}
    (h : ∀ i ∈ l, Blind (K i) s) : Blind (fun w => (l.map (fun i => K i w)).prod) s := by
  intro w k
  dsimp only
  rw [List.map_congr_left (fun i hi => h i hi w k)]

theorem Blind.mul [Mul α] {F G : World → α} {s : String} (hF : Blind F s) (hG : Blind G s) :
    Blind (fun w => F w * G w) s := by
  intro w k
  dsimp only
  rw [hF, hG]

/-- Variables on which nothing but their own table depends can be dropped. -/
theorem drop_barren [CommSemiring α] (K : NVar → World → α) (c : NVar → α) (F : World → α) (S : List NVar) (w : World) :
    ∀ bs : List NVar, ((S ++ bs).map NVar.name).Nodup →
    (∀ pre v post, bs = pre ++ v :: post → ∀ u ∈ S ++ pre, Blind (K u) v.name) →
    (∀ v ∈ bs, Blind F v.name) →
    (∀ v ∈ bs, ∀ w' : World, (∀ u ∈ S ++ bs, w' u.name < u.outcomes.length ∨ w' u.name = w u.name) →
      (∀ s, s ∉ (S ++ bs).map NVar.name → w' s = w s) → ∑ k ∈ range v.outcomes.length, K v (w'.set v.name k) = c v) →
    sumWorlds (S ++ bs) (fun w => ((S ++ bs).map (fun v => K v w)).prod * F w) w =
      (bs.map c).prod * sumWorlds S (fun w => (S.map (fun v => K v w)).prod * F w) w := by
  intro bs
  induction bs using List.reverseRecOn with
  | nil => intro _ _ _ _; simp
  | append_singleton bs v ih =>
    intro hnd hdep hF hone
    rw [← List.append_assoc] at hnd
    have hnd1 : ((S ++ bs).map NVar.name).Nodup := by
      rw [List.map_append] at hnd
      exact (List.nodup_append.1 hnd).1
    have hvn : v.name ∉ (S ++ bs).map NVar.name := by
      rw [List.map_append] at hnd
      intro hm
      exact (List.nodup_append.1 hnd).2.2 _ hm _ (by simp) rfl
    have hb : Blind (fun w => ((S ++ bs).map (fun v => K v w)).prod * F w) v.name :=
      Blind.mul (Blind.prod (fun u hu => hdep bs v [] rfl u hu)) (hF v (by simp))
    have e1 : sumWorlds (S ++ (bs ++ [v])) (fun w => ((S ++ (bs ++ [v])).map (fun v => K v w)).prod * F w) w =
        sumWorlds (S ++ bs) (fun w => c v * (((S ++ bs).map (fun v => K v w)).prod * F w)) w := by
      rw [← List.append_assoc, sumWorlds_append]
      refine sumWorlds_congr _ w hnd1 (fun w' h1 h2 => ?_)
      simp only [sumWorlds]
      have h3 := hone v (by simp) w' ?_ ?_
      · rw [← h3, Finset.sum_mul]
        refine Finset.sum_congr rfl (fun k _ => ?_)
        have h4 := hb w' k
        dsimp only at h4
        rw [← h4, List.map_append (l₁ := S ++ bs), List.prod_append]
        simp only [List.map_cons, List.map_nil, List.prod_cons, List.prod_nil, mul_one]
        ring
      · intro u hu
        rw [← List.append_assoc] at hu
        rcases List.mem_append.1 hu with hu | hu
        · exact .inl (h1 u hu)
        · rw [List.mem_singleton] at hu
          subst hu
          exact .inr (h2 _ hvn)
      · intro s hs
        apply h2 s
        rw [← List.append_assoc, List.map_append] at hs
        exact fun hm => hs (List.mem_append_left _ hm)
    rw [e1, sumWorlds_mul, ih hnd1 ?_ ?_ ?_]
    · simp only [List.map_append, List.map_cons, List.map_nil, List.prod_append, List.prod_cons, List.prod_nil, mul_one]
      ring
    · intro pre u post e
      exact hdep pre u (post ++ [v]) (by rw [e]; simp)
    · intro u hu
      exact hF u (by simp [hu])
    · intro u hu w' h1 h2
      refine hone u (by simp [hu]) w' ?_ ?_
      · intro x hx
        rw [← List.append_assoc] at hx
        rcases List.mem_append.1 hx with hx | hx
        · exact h1 x hx
        · rw [List.mem_singleton] at hx
          subst hx
          exact .inr (h2 _ hvn)
      · intro s hs
        apply h2 s
        rw [← List.append_assoc, List.map_append] at hs
        exact fun hm => hs (List.mem_append_left _ hm)

end Bbn
