import Verif.Spec.Near
import Verif.Props.NetBarren
import Verif.Props.NetAttain
import Verif.Props.NetRecall
import Verif.Props.NetShift
import Verif.Props.NetExpect

/-!
# Answers of networks whose tables differ slightly
-/

set_option autoImplicit false

namespace Bbn

open Finset

variable {α : Type}

section ordered

variable [Field α] [LinearOrder α] [IsStrictOrderedRing α]

/-- The sum over all worlds of a product of tables, each with known sums over its own variable. -/
theorem sum_products (K : NVar → World → α) (c : NVar → α) (w : World) (bs : List NVar) (hnd : (bs.map NVar.name).Nodup)
    (hdep : ∀ pre v post, bs = pre ++ v :: post → ∀ u ∈ pre, Blind (K u) v.name)
    (hone : ∀ v ∈ bs, ∀ w' : World, (∀ u ∈ bs, w' u.name < u.outcomes.length ∨ w' u.name = w u.name) →
      ∑ k ∈ range v.outcomes.length, K v (w'.set v.name k) = c v) :
    sumWorlds bs (fun w => (bs.map (fun v => K v w)).prod) w = (bs.map c).prod := by
  have := drop_barren K c (fun _ => 1) [] w bs hnd (by simpa using hdep) (fun v _ w k => rfl)
    (fun v hv w' h _ => hone v hv w' (by simpa using h))
  simpa [sumWorlds] using this

/-- Products of tables that are close are close. -/
theorem close_products (K K' : NVar → World → α) (c δ : NVar → α) (w : World) (hK : ∀ v w, 0 ≤ K v w)
    (hK' : ∀ v w, 0 ≤ K' v w) : ∀ bs : List NVar, (bs.map NVar.name).Nodup →
    (∀ pre v post, bs = pre ++ v :: post → ∀ u ∈ pre, Blind (K u) v.name ∧ Blind (K' u) v.name) →
    (∀ v ∈ bs, ∀ w' : World, (∀ u ∈ bs, w' u.name < u.outcomes.length ∨ w' u.name = w u.name) →
      ∑ k ∈ range v.outcomes.length, K v (w'.set v.name k) = c v ∧
      ∑ k ∈ range v.outcomes.length, K' v (w'.set v.name k) = c v ∧
      ∑ k ∈ range v.outcomes.length, |K v (w'.set v.name k) - K' v (w'.set v.name k)| ≤ c v * δ v) →
    sumWorlds bs (fun w => |(bs.map (fun v => K v w)).prod - (bs.map (fun v => K' v w)).prod|) w ≤
      (bs.map c).prod * (bs.map δ).sum := by
  intro bs
  induction bs using List.reverseRecOn with
  | nil => intro _ _ _; simp [sumWorlds]
  | append_singleton bs v ih =>
    intro hnd hdep hone
    have hnd1 : (bs.map NVar.name).Nodup := by
      rw [List.map_append] at hnd
      exact (List.nodup_append.1 hnd).1
    have hvn : v.name ∉ bs.map NVar.name := by
      rw [List.map_append] at hnd
      intro hm
      exact (List.nodup_append.1 hnd).2.2 _ hm _ (by simp) rfl
    set A : World → α := fun w => (bs.map (fun v => K v w)).prod with hA
    set A' : World → α := fun w => (bs.map (fun v => K' v w)).prod with hA'
    have hb : Blind A v.name := Blind.prod (fun u hu => (hdep bs v [] rfl u hu).1)
    have hb' : Blind A' v.name := Blind.prod (fun u hu => (hdep bs v [] rfl u hu).2)
    have hA0 : ∀ w, 0 ≤ A' w := fun w => prod_nonneg' (fun x hx => by
      obtain ⟨u, _, rfl⟩ := List.mem_map.1 hx; exact hK' u w)
    have hdep1 : ∀ pre u post, bs = pre ++ u :: post → ∀ x ∈ pre, Blind (K x) u.name ∧ Blind (K' x) u.name := by
      intro pre u post e
      exact hdep pre u (post ++ [v]) (by rw [e]; simp)
    have hwide : ∀ w' : World, (∀ u ∈ bs, w' u.name < u.outcomes.length ∨ w' u.name = w u.name) →
        w' v.name < v.outcomes.length ∨ w' v.name = w v.name →
        ∀ u ∈ bs ++ [v], w' u.name < u.outcomes.length ∨ w' u.name = w u.name := by
      intro w' h h2 u hu
      rcases List.mem_append.1 hu with hu | hu
      · exact h u hu
      · rw [List.mem_singleton] at hu; subst hu; exact h2
    have hcv : ∀ w' : World, (∀ u ∈ bs, w' u.name < u.outcomes.length ∨ w' u.name = w u.name) → w' v.name = w v.name →
        ∑ k ∈ range v.outcomes.length, |K v (w'.set v.name k) * A w' - K' v (w'.set v.name k) * A' w'| ≤
          c v * |A w' - A' w'| + c v * δ v * A' w' := by
      intro w' h h2
      obtain ⟨h3, h4, h5⟩ := hone v (by simp) w' (hwide w' h (.inr h2))
      calc ∑ k ∈ range v.outcomes.length, |K v (w'.set v.name k) * A w' - K' v (w'.set v.name k) * A' w'|
          ≤ ∑ k ∈ range v.outcomes.length, (K v (w'.set v.name k) * |A w' - A' w'| +
              |K v (w'.set v.name k) - K' v (w'.set v.name k)| * A' w') := by
            refine Finset.sum_le_sum (fun k _ => ?_)
            have e : K v (w'.set v.name k) * A w' - K' v (w'.set v.name k) * A' w' =
                K v (w'.set v.name k) * (A w' - A' w') + (K v (w'.set v.name k) - K' v (w'.set v.name k)) * A' w' := by
              ring
            rw [e]
            refine (abs_add_le _ _).trans (le_of_eq ?_)
            rw [abs_mul, abs_mul, abs_of_nonneg (hK _ _), abs_of_nonneg (hA0 _)]
        _ = c v * |A w' - A' w'| +
            (∑ k ∈ range v.outcomes.length, |K v (w'.set v.name k) - K' v (w'.set v.name k)|) * A' w' := by
            rw [Finset.sum_add_distrib, ← Finset.sum_mul, ← Finset.sum_mul, h3]
        _ ≤ _ := by
            have := mul_le_mul_of_nonneg_right h5 (hA0 w')
            linarith
    have hc0 : 0 ≤ c v := by
      obtain ⟨h3, _, _⟩ := hone v (by simp) w (fun u _ => .inr rfl)
      rw [← h3]
      exact Finset.sum_nonneg (fun k _ => hK _ _)
    have hih := ih hnd1 hdep1 (fun u hu w' h => by
      -- the last variable does not matter for the earlier tables
      have hne : v.name ≠ u.name := fun e => hvn (e ▸ List.mem_map_of_mem hu)
      have hKb : ∀ k, K u ((w'.set v.name (w v.name)).set u.name k) = K u (w'.set u.name k) := by
        intro k
        rw [World.set_comm _ hne, (hdep bs v [] rfl u hu).1]
      have hKb' : ∀ k, K' u ((w'.set v.name (w v.name)).set u.name k) = K' u (w'.set u.name k) := by
        intro k
        rw [World.set_comm _ hne, (hdep bs v [] rfl u hu).2]
      have := hone u (by simp [hu]) (w'.set v.name (w v.name)) (hwide _ (fun x hx => by
        rw [World.set_ne _ (fun e : x.name = v.name => hvn (e ▸ List.mem_map_of_mem hx))]; exact h x hx) (.inr (World.set_eq _ _ _)))
      simpa only [hKb, hKb'] using this)
    have hmass : sumWorlds bs A' w = (bs.map c).prod := by
      refine sum_products K' c w bs hnd1 (fun pre u post e x hx => (hdep1 pre u post e x hx).2) (fun u hu w' h => ?_)
      have hne : v.name ≠ u.name := fun e => hvn (e ▸ List.mem_map_of_mem hu)
      have hKb' : ∀ k, K' u ((w'.set v.name (w v.name)).set u.name k) = K' u (w'.set u.name k) := by
        intro k
        rw [World.set_comm _ hne, (hdep bs v [] rfl u hu).2]
      have := (hone u (by simp [hu]) (w'.set v.name (w v.name)) (hwide _ (fun x hx => by
        rw [World.set_ne _ (fun e : x.name = v.name => hvn (e ▸ List.mem_map_of_mem hx))]; exact h x hx) (.inr (World.set_eq _ _ _)))).2.1
      simpa only [hKb'] using this
    calc sumWorlds (bs ++ [v]) (fun w => |((bs ++ [v]).map (fun v => K v w)).prod -
          ((bs ++ [v]).map (fun v => K' v w)).prod|) w
        ≤ sumWorlds bs (fun w' => c v * |A w' - A' w'| + c v * δ v * A' w') w := by
          rw [sumWorlds_append]
          refine sumWorlds_le _ _ hnd1 (fun w' h1 h2 => ?_)
          refine le_trans (le_of_eq ?_) (hcv w' (fun u hu => .inl (h1 u hu)) (h2 _ hvn))
          simp only [sumWorlds]
          refine Finset.sum_congr rfl (fun k _ => ?_)
          have e1 := hb w' k
          have e2 := hb' w' k
          simp only [hA, hA'] at e1 e2
          simp only [List.map_append, List.prod_append, List.map_cons, List.map_nil, List.prod_cons, List.prod_nil,
            mul_one, e1, e2]
          rw [mul_comm, mul_comm (List.prod _) (K' v _)]
      _ = c v * sumWorlds bs (fun w' => |A w' - A' w'|) w + c v * δ v * (bs.map c).prod := by
          rw [sumWorlds_add, sumWorlds_mul, sumWorlds_mul, hmass]
      _ ≤ c v * ((bs.map c).prod * (bs.map δ).sum) + c v * δ v * (bs.map c).prod := by
          have := mul_le_mul_of_nonneg_left hih hc0
          linarith
      _ = _ := by
          simp only [List.map_append, List.prod_append, List.map_cons, List.map_nil, List.prod_cons, List.prod_nil,
            mul_one, List.sum_append, List.sum_cons, List.sum_nil, add_zero]
          ring

theorem abs_sumWorlds (F : World → α) : ∀ (l : List NVar) (w : World), |sumWorlds l F w| ≤ sumWorlds l (fun w => |F w|) w := by
  intro l
  induction l with
  | nil => intro w; exact le_rfl
  | cons v l ih =>
    intro w
    simp only [sumWorlds]
    exact (Finset.abs_sum_le_sum_abs _ _).trans (Finset.sum_le_sum (fun k _ => ih _))

section near

variable {n n' : Net α} {δ : String → α} (hn : n.Valid) (hn' : n'.Valid) (hd : n.Near n' δ)

include hd in
theorem near_state : n'.stateVars = n.stateVars := by unfold Net.stateVars; rw [hd.vars]

include hd in
theorem near_count (s : String) : n'.count s = n.count s := by unfold Net.count; rw [hd.vars]

include hd in
theorem near_isKind (t : NodeType) (s : String) : n'.isKind t s = n.isKind t s := by unfold Net.isKind; rw [hd.vars]

include hd in
theorem near_allowed {w : World} (h : n.Allowed w) : n'.Allowed w := by
  unfold Net.Allowed at h ⊢; rw [near_state hd]; exact h

include hn hn' hd in
theorem near_back {f' : NFactor α} (hf' : f' ∈ n'.chanceTables) :
    ∃ f ∈ n.chanceTables, f'.forVar = f.forVar ∧ f'.given = f.given := by
  obtain ⟨v, hv, e, hc⟩ := chanceTables_forVar hf'
  rw [near_state hd] at hv
  have hv0 := (mem_stateVars.1 hv).1
  obtain ⟨f, hf, ef⟩ := hn.hasTable v hv0 (by rw [hc]; decide)
  have hf0 : f ∈ n.chanceTables := mem_chanceTables.2 ⟨hf, by rw [ef, isKind_iff hn hv0, hc]⟩
  obtain ⟨g, hg, g1, g2, _⟩ := hd.tables f hf0
  have : g = f' := List.inj_on_of_nodup_map (chanceTables_nodup hn') hg hf' (by rw [g1, ef, e])
  subst this
  exact ⟨f, hf0, g1, g2⟩

theorem kernel_nonneg (hnn : n.Nonneg) (v : NVar) (w : World) : 0 ≤ n.kernel v w := by
  unfold Net.kernel
  refine prod_nonneg' (fun x hx => ?_)
  obtain ⟨f, hf, rfl⟩ := List.mem_map.1 hx
  exact prob_nonneg (hnn.tables f (List.mem_filter.1 hf).1) w

include hn hn' hd in
/-- Worlds have nearly the same weights in both networks. -/
theorem near_joint (ha : n.Acyclic) (hr : n.Regular) (hr' : n'.Regular) (hnn : n.Nonneg) (hnn' : n'.Nonneg) :
    sumWorlds n.stateVars (fun w => |n.joint [] w - n'.joint [] w|) (fun _ => 0) ≤
      (n.stateVars.map openCount).prod * (2 * n.distance δ) := by
  obtain ⟨rank, hrank⟩ := ha
  set le : NVar → NVar → Bool := fun a b => decide (rank a.name ≤ rank b.name) with hle
  set bs := n.stateVars.mergeSort le with hbs
  have hbp : bs.Perm n.stateVars := List.mergeSort_perm _ _
  have hnd : (bs.map NVar.name).Nodup := (hbp.map NVar.name).nodup_iff.2 (stateVars_names hn)
  have hsort : bs.Pairwise (fun a b => le a b = true) := by
    refine List.pairwise_mergeSort ?_ ?_ _
    · intro a b c h1 h2; simp only [hle, decide_eq_true_eq] at *; omega
    · intro a b; simp only [hle, Bool.or_eq_true, decide_eq_true_eq]; omega
  have hsum : 2 * n.distance δ = (bs.map (fun v => if v.nodeType = .chance then 2 * δ v.name else 0)).sum := by
    rw [(hbp.map _).sum_eq]
    unfold Net.distance Net.stateVars
    generalize n.variables = l
    induction l with
    | nil => simp
    | cons v l ih =>
      by_cases hc : v.nodeType = .chance
      · rw [List.filter_cons_of_pos (by simp [hc]), List.filter_cons_of_pos (by simp [hc]), List.map_cons, List.map_cons,
          List.sum_cons, List.sum_cons, mul_add, ih, if_pos hc]
      · rw [List.filter_cons_of_neg (by simp [hc]), ih]
        by_cases hu : v.nodeType = .utility
        · rw [List.filter_cons_of_neg (by simp [hu])]
        · rw [List.filter_cons_of_pos (by simp [hu]), List.map_cons, List.sum_cons, if_neg hc, zero_add]
  rw [hsum, ← (hbp.map openCount).prod_eq, ← sumWorlds_perm _ hbp _ hnd]
  have e1 : (fun w => |n.joint [] w - n'.joint [] w|) =
      fun w => |(bs.map (fun v => n.kernel v w)).prod - (bs.map (fun v => n'.kernel v w)).prod| := by
    funext w
    rw [joint_kernel hn, joint_kernel hn', near_state hd, (hbp.map (fun v => n.kernel v w)).prod_eq,
      (hbp.map (fun v => n'.kernel v w)).prod_eq]
  rw [e1]
  refine close_products n.kernel n'.kernel openCount _ _ (kernel_nonneg hnn) (kernel_nonneg hnn') bs hnd ?_ ?_
  · intro pre v post e u hu
    have hrk : rank u.name ≤ rank v.name := by
      rw [e, List.pairwise_append] at hsort
      simpa [hle] using hsort.2.2 u hu v (by simp)
    have hne : u.name ≠ v.name := by
      intro e'
      rw [e, List.map_append, List.nodup_append] at hnd
      exact hnd.2.2 _ (List.mem_map_of_mem hu) _ (by simp) e'
    refine ⟨kernel_blind hne (fun f hf hfu hg => ?_), kernel_blind hne (fun f' hf' hfu hg => ?_)⟩
    · have := hrank f hf _ hg
      rw [hfu] at this
      omega
    · obtain ⟨f, hf, g1, g2⟩ := near_back hn hn' hd hf'
      have := hrank f hf _ (g2 ▸ hg)
      rw [← g1, hfu] at this
      omega
  · intro v hv w' h
    have hvs := hbp.subset hv
    have hw : n.Allowed w' := by
      intro u hu
      rcases h u (hbp.symm.subset hu) with h | h
      · exact h
      · rw [h]; exact allowed_zero hn u hu
    refine ⟨kernel_sum hn hr hvs hw, kernel_sum hn' hr' (by rw [near_state hd]; exact hvs) (near_allowed hd hw), ?_⟩
    have hv0 := (mem_stateVars.1 hvs).1
    by_cases hc : v.nodeType = .chance
    · obtain ⟨f, hf, ef⟩ := hn.hasTable v hv0 (by rw [hc]; decide)
      have hf0 : f ∈ n.chanceTables := mem_chanceTables.2 ⟨hf, by rw [ef, isKind_iff hn hv0, hc]⟩
      obtain ⟨f', hf', g1, _, g3⟩ := hd.tables f hf0
      have := g3 w' hw
      rw [kernel_table hn hf0 ef.symm, kernel_table hn' hf' (by rw [g1, ef]), if_pos hc]
      unfold openCount
      rw [if_pos hc, one_mul, ← count_eq hn hv0, ← ef]
      exact this
    · rw [kernel_none (n := n) (by rw [Bool.eq_false_iff, ne_eq, isKind_iff hn hv0]; exact hc),
        kernel_none (n := n') (by rw [near_isKind hd, Bool.eq_false_iff, ne_eq, isKind_iff hn hv0]; exact hc)]
      simp [hc]

theorem total_const (ha : n.Acyclic) (hn : n.Valid) (hr : n.Regular) (m : α) :
    n.total [] (fun _ => m) = (n.stateVars.map openCount).prod * m := by
  have := total_kept hn ha hr (fun _ => false) (by simp) (fun _ => m) (fun s _ w k => rfl)
  simpa [sumWorlds] using this

include hn hn' hd in
theorem near_acyclic (ha : n.Acyclic) : n'.Acyclic := by
  obtain ⟨rank, hrank⟩ := ha
  refine ⟨rank, fun f' hf' g hg => ?_⟩
  obtain ⟨f, hf, g1, g2⟩ := near_back hn hn' hd hf'
  rw [g1]
  exact hrank f hf g (g2 ▸ hg)

include hn hn' hd in
/-- Averages over all worlds are nearly the same in both networks. -/
theorem near_total (ha : n.Acyclic) (hr : n.Regular) (hr' : n'.Regular) (hnn : n.Nonneg) (hnn' : n'.Nonneg)
    (F : World → α) (m h : α) (hF : ∀ w, n.Allowed w → |F w - m| ≤ h) :
    |n.total [] F - n'.total [] F| ≤ h * ((n.stateVars.map openCount).prod * (2 * n.distance δ)) := by
  have hc := total_const ha hn hr m
  have hc' := total_const (near_acyclic hn hn' hd ha) hn' hr' m
  rw [near_state hd] at hc'
  have key : n.total [] F - n'.total [] F =
      sumWorlds n.stateVars (fun w => (n.joint [] w - n'.joint [] w) * (F w - m)) (fun _ => 0) := by
    have e : sumWorlds n.stateVars (fun w => (n.joint [] w - n'.joint [] w) * (F w - m)) (fun _ => 0) +
        (n'.total [] F + n.total [] (fun _ => m)) = n.total [] F + n'.total [] (fun _ => m) := by
      unfold Net.total
      rw [near_state hd, ← sumWorlds_add, ← sumWorlds_add, ← sumWorlds_add]
      congr 1
      funext w
      ring
    rw [hc, hc'] at e
    linarith
  rw [key]
  refine (abs_sumWorlds _ _ _).trans ?_
  have h1 : sumWorlds n.stateVars (fun w => |(n.joint [] w - n'.joint [] w) * (F w - m)|) (fun _ => 0) ≤
      sumWorlds n.stateVars (fun w => h * |n.joint [] w - n'.joint [] w|) (fun _ => 0) := by
    refine sumWorlds_le _ _ (stateVars_names hn) (fun w hw _ => ?_)
    rw [abs_mul, mul_comm]
    exact mul_le_mul_of_nonneg_right (hF w hw) (abs_nonneg _)
  refine h1.trans ?_
  rw [sumWorlds_mul]
  have h0 : 0 ≤ h := (abs_nonneg _).trans (hF _ (allowed_zero hn))
  exact mul_le_mul_of_nonneg_left (near_joint hn hn' hd ha hr hr' hnn hnn') h0

end near

/-- **C127, nearly the same answers.** If the rows of two networks' tables differ by at most `δ s` for the chance variable
`s` (in total variation), then the answers differ by at most the sum of these differences, divided by the probability of
the evidence. -/
theorem C127_close (sch sch' : NSched α) {n n' : Net α} {δ : String → α} (hn : n.Valid) (hn' : n'.Valid)
    (hpol : n.policies = []) (hpol' : n'.policies = []) (ha : n.Acyclic) (hr : n.Regular) (hr' : n'.Regular)
    (hnn : n.Nonneg) (hnn' : n'.Nonneg) (hd : n.Near n' δ) {evidence : List (String × String)}
    (hev : n.EvidenceOK evidence) {query : List String}
    (hq : ∀ q ∈ query, n.isKind .chance q = true ∧ q ∉ evidence.map Prod.fst) (ign ign' : Bool)
    (possible : n.mass [] (n.Agrees evidence) ≠ 0) (possible' : n'.mass [] (n'.Agrees evidence) ≠ 0) :
    ∃ r f m r' f' m', n.solveQuery sch evidence query ign = (.ok (r, f), m) ∧
      n'.solveQuery sch' evidence query ign' = (.ok (r', f'), m') ∧ ∀ q ∈ query, ∃ d d' : List α, (q, d) ∈ r ∧ (q, d') ∈ r' ∧
        d.length = n.count q ∧ d'.length = n.count q ∧ ∀ k < n.count q, ∃ x x', d[k]? = some x ∧ d'[k]? = some x' ∧
          |x - x'| ≤ n.distance δ / (n.mass [] (n.Agrees evidence) / n.mass [] (fun _ => True)) := by
  have hag : ∀ w, n'.Agrees evidence w ↔ n.Agrees evidence w := fun w => by unfold Net.Agrees; rw [hd.vars]
  have hev' : n'.EvidenceOK evidence := ⟨hev.keys, by rw [hd.vars]; exact hev.known⟩
  have hok : ∀ {m : Net α}, m.Valid → ∀ i, (∀ q ∈ query, ∃ v ∈ m.variables, v.name = q ∧ v.nodeType = .chance) →
      m.QueryOK evidence i query := by
    intro m hm i h
    refine ⟨fun q hq' => ?_, fun q hq' e he e' => (hq q hq').2 (e' ▸ List.mem_map_of_mem he), fun q hq' => ?_⟩
    · obtain ⟨v, hv, e1, e2⟩ := h q hq'
      exact ⟨v, mem_stateVars.2 ⟨hv, by rw [e2]; decide⟩, e1⟩
    · obtain ⟨v, hv, e1, e2⟩ := h q hq'
      rw [← e1]; exact chance_occurs hm _ hv e2
  have hact : n.active evidence ign = [] := by simp [Net.active, hpol]
  have hact' : n'.active evidence ign' = [] := by simp [Net.active, hpol']
  have hk : ∀ q ∈ query, ∃ v ∈ n.variables, v.name = q ∧ v.nodeType = .chance := fun q h => isKind_mem.1 (hq q h).1
  obtain ⟨r, f, m, a1, _, _, a4⟩ := C31_solveQuery_posterior sch hn (by constructor <;> simp [hpol]) hev ign
    (hok hn _ hk) (by rw [hact]; exact possible)
  obtain ⟨r', f', m', b1, _, _, b4⟩ := C31_solveQuery_posterior sch' hn' (by constructor <;> simp [hpol']) hev' ign'
    (hok hn' _ (by rw [hd.vars]; exact hk)) (by rw [hact']; exact possible')
  refine ⟨r, f, m, r', f', m', a1, b1, fun q hqm => ?_⟩
  obtain ⟨d, u1, u2, u3⟩ := a4 q hqm
  obtain ⟨d', v1, v2, v3⟩ := b4 q hqm
  rw [near_count hd] at v2 v3
  refine ⟨d, d', u1, v1, u2, v2, fun k hkc => ⟨_, _, u3 k hkc, v3 k hkc, ?_⟩⟩
  rw [hact, hact']
  have hsub : ∀ p ∈ ([] : List (String × Factor α)), p ∈ n.policies := by simp
  have hsub' : ∀ p ∈ ([] : List (String × Factor α)), p ∈ n'.policies := by simp
  have hmm := lt_of_le_of_ne (mass_nonneg hnn hsub (n.Agrees evidence)) (Ne.symm possible)
  have hmm' := lt_of_le_of_ne (mass_nonneg hnn' hsub' (n'.Agrees evidence)) (Ne.symm possible')
  have hq0 := mass_nonneg hnn' hsub' (fun w => n'.Agrees evidence w ∧ w q = k)
  have hq1 := mass_mono hnn' hsub' (fun w => n'.Agrees evidence w ∧ w q = k) (n'.Agrees evidence) (fun w h => h.1)
  set M := n.mass [] (n.Agrees evidence) with hM
  set M' := n'.mass [] (n'.Agrees evidence) with hM'
  set Q := n.mass [] (fun w => n.Agrees evidence w ∧ w q = k) with hQ
  set Q' := n'.mass [] (fun w => n'.Agrees evidence w ∧ w q = k) with hQ'
  set t := Q' / M' with ht
  have t0 : 0 ≤ t := div_nonneg hq0 hmm'.le
  have t1 : t ≤ 1 := (div_le_one hmm').2 hq1
  have key := near_total hn hn' hd ha hr hr' hnn hnn'
    (fun w => (if n.Agrees evidence w ∧ w q = k then 1 else 0) + (-t) * (if n.Agrees evidence w then 1 else 0))
    (1 / 2 - t) (1 / 2) (by
      intro w _
      by_cases h1 : n.Agrees evidence w
      · by_cases h2 : w q = k
        · simp only [h1, h2, and_self, if_true]
          rw [abs_le]; constructor <;> linarith
        · simp only [h1, h2, and_false, if_true, if_false]
          rw [abs_le]; constructor <;> linarith
      · simp only [h1, false_and, if_false]
        rw [abs_le]; constructor <;> linarith)
  have split : ∀ (net : Net α) (P P' : World → Prop) [DecidablePred P] [DecidablePred P'],
      net.total [] (fun w => (if P w then (1 : α) else 0) + (-t) * (if P' w then 1 else 0)) =
        net.mass [] P + (-t) * net.mass [] P' := by
    intro net P P' _ _
    unfold Net.mass Net.total
    rw [← sumWorlds_mul, ← sumWorlds_add]
    congr 1
    funext w
    ring
  rw [split n, split n'] at key
  have e1 : n'.mass [] (fun w => n.Agrees evidence w ∧ w q = k) = Q' := mass_congr n' [] (fun w => by rw [hag])
  have e2 : n'.mass [] (fun w => n.Agrees evidence w) = M' := mass_congr n' [] (fun w => (hag w).symm)
  have e3 : n.mass [] (fun w => n.Agrees evidence w) = M := rfl
  have e4 : Q' + -t * M' = 0 := by rw [ht]; field_simp; ring
  rw [e1, e2, e3, e4, sub_zero] at key
  have hone : n.mass [] (fun _ => True) = (n.stateVars.map openCount).prod := by
    have := total_const ha hn hr (1 : α)
    rw [mul_one] at this
    rw [← this]
    unfold Net.mass
    simp
  rw [hone]
  have e5 : Q / M - t = (Q + -t * M) / M := by field_simp; ring
  rw [e5, abs_div, abs_of_pos hmm, ← div_mul, div_mul_eq_mul_div]
  apply div_le_div_of_nonneg_right _ hmm.le
  linarith

/-- **C127, still possible.** Evidence that is more likely than the tables differ is possible in the other network, too. -/
theorem C127_possible {n n' : Net α} {δ : String → α} (hn : n.Valid) (hn' : n'.Valid) (ha : n.Acyclic) (hr : n.Regular)
    (hr' : n'.Regular) (hnn : n.Nonneg) (hnn' : n'.Nonneg) (hd : n.Near n' δ) (evidence : List (String × String))
    (likely : n.distance δ < n.mass [] (n.Agrees evidence) / n.mass [] (fun _ => True)) :
    n'.mass [] (n'.Agrees evidence) ≠ 0 := by
  intro h0
  have hag : ∀ w, n'.Agrees evidence w ↔ n.Agrees evidence w := fun w => by unfold Net.Agrees; rw [hd.vars]
  have key := near_total hn hn' hd ha hr hr' hnn hnn' (fun w => if n.Agrees evidence w then 1 else 0) (1 / 2) (1 / 2) (by
    intro w _
    split_ifs <;> rw [abs_le] <;> constructor <;> linarith)
  have e1 : n'.total [] (fun w => if n.Agrees evidence w then 1 else 0) = 0 :=
    (mass_congr n' [] (fun w => (hag w).symm)).trans h0
  have hsub : ∀ p ∈ ([] : List (String × Factor α)), p ∈ n.policies := by simp
  have hge := mass_nonneg hnn hsub (n.Agrees evidence)
  rw [e1, sub_zero, show n.total [] (fun w => if n.Agrees evidence w then 1 else 0) = n.mass [] (n.Agrees evidence) from rfl,
    abs_of_nonneg hge] at key
  have hone : n.mass [] (fun _ => True) = (n.stateVars.map openCount).prod := by
    have := total_const ha hn hr (1 : α)
    rw [mul_one] at this
    rw [← this]
    unfold Net.mass
    simp
  rw [hone] at likely
  have hpos : (0 : α) < (n.stateVars.map openCount).prod := by
    rw [← hone]
    refine lt_of_le_of_ne (mass_nonneg hnn hsub _) (fun e => ?_)
    rw [hone] at e
    rw [← e, div_zero] at likely
    rw [← e] at key
    have hz : n.stateVars.map (openCount (α := α)) ≠ [] := by
      intro h; rw [h] at e; simp at e
    have : (n.stateVars.map (openCount (α := α))).prod ≠ 0 := by
      apply List.prod_ne_zero
      intro h0
      obtain ⟨v, hv, e⟩ := List.mem_map.1 h0
      have hv := (mem_stateVars.1 hv).1
      unfold openCount at e
      split_ifs at e
      · exact one_ne_zero e
      · have := (hn.outcomes v hv).1
        rw [Nat.cast_eq_zero] at e
        omega
    exact this e.symm
  rw [lt_div_iff₀ hpos] at likely
  linarith

/-- **C127, expected utilities.** In networks without decisions whose tables of chance variables differ by at most `δ`, the
expected value of a utility variable differs by at most the sum of the differences times the range of the utilities. -/
theorem C127_utility (sch sch' : NSched α) {n n' : Net α} {δ : String → α} (hn : n.Valid) (hn' : n'.Valid)
    (hdec : ∀ v ∈ n.variables, v.nodeType ≠ .decision) (hpol : n.policies = []) (hpol' : n'.policies = [])
    (ha : n.Acyclic) (hr : n.Regular) (hr' : n'.Regular) (hnn : n.Nonneg) (hnn' : n'.Nonneg) (hd : n.Near n' δ)
    {u : NVar} (hu : u ∈ n.utilityVars) (hu' : u ∈ n'.utilityVars) {f f' : NFactor α} (hf : f ∈ n.factors)
    (hf' : f' ∈ n'.factors) (hfu : f.forVar = u.name) (hfu' : f'.forVar = u.name) (hgiven : f'.given = f.given)
    (htable : f'.table = f.table) {lo hi : α} (hb : ∀ x ∈ f.tab, lo ≤ x ∧ x ≤ hi) (ign ign' : Bool) :
    ∃ y y' : α, n.Worth sch [] u.name ign y ∧ n'.Worth sch' [] u.name ign' y' ∧
      |y - y'| ≤ (hi - lo) * n.distance δ := by
  have hs : n.AllSolved := fun v hv h => absurd h (hdec v hv)
  have hs' : n'.AllSolved := fun v hv h => absurd h (hdec v (hd.vars ▸ hv))
  have hact : n.active [] ign = [] := by simp [Net.active, hpol]
  have hact' : n'.active [] ign' = [] := by simp [Net.active, hpol']
  have h1 := worth_total sch hn (by constructor <;> simp [hpol]) hs (evidence := []) ⟨by simp, by simp⟩
    (.inr ⟨u, hu, rfl⟩) ign
  have h1' := worth_total sch' hn' (by constructor <;> simp [hpol']) hs' (evidence := []) ⟨by simp, by simp⟩
    (.inr ⟨u, hu', rfl⟩) ign'
  refine ⟨_, _, h1, h1', ?_⟩
  rw [hact, hact']
  have hne : u.name ≠ "" := hn.named u (List.mem_filter.1 hu).1
  have hag : ∀ (m : Net α) w, m.Agrees [] w := fun m w e he => by simp at he
  simp only [hag, if_true]
  have hsame : n'.asked u.name = n.asked u.name := by
    funext w
    unfold Net.asked
    rw [if_neg hne, if_neg hne, ← hfu, utilityIn_table hn hf, hfu, ← hfu', utilityIn_table hn' hf']
    have hdims : f'.dims = f.dims := by unfold NFactor.dims; rw [hgiven, hfu, hfu']
    unfold Net.entry NFactor.tab
    rw [hdims, htable]
    simp only [near_count hd]
  rw [hsame]
  have hlen : (n.stateVars.map (openCount (α := α))).prod = 1 := by
    rw [List.map_congr_left (g := fun _ => (1 : α)) (fun v hv => ?_)]
    · simp
    · have hv := mem_stateVars.1 hv
      unfold openCount
      rw [if_pos]
      have := hdec v hv.1
      have := hv.2
      cases hk : v.nodeType <;> simp_all
  have key := near_total hn hn' hd ha hr hr' hnn hnn' (n.asked u.name) ((lo + hi) / 2) ((hi - lo) / 2) (by
    intro w hw
    have : n.asked u.name w ∈ f.tab := by
      unfold Net.asked
      rw [if_neg hne]
      exact utility_entry hn hf hu hfu hw
    obtain ⟨b1, b2⟩ := hb _ this
    rw [abs_le]
    constructor <;> linarith)
  rw [hlen] at key
  calc _ ≤ _ := key
    _ = _ := by ring

end ordered

/-- The network with rain and a sprinkler, with other numbers. -/
def Ex.dry2 : Net ℚ :=
  { Ex.dry with
    factors := [⟨"Sprinkler", ["Rain"], some [2, 98, 38, 62], [2], 2⟩, ⟨"Rain", [], some [1, 3], [], 2⟩] }

theorem Ex.dry2_valid : Ex.dry2.Valid where
  names := by decide
  named := by decide
  few := by decide
  outcomes := by decide
  tables := by decide
  hasTable := by decide
  known := by decide
  dims := by decide
  parents := by decide
  size := by
    intro f hf _ _
    simp only [Ex.dry2, List.mem_cons, List.not_mem_nil, or_false] at hf
    rcases hf with rfl | rfl <;> exact ⟨_, rfl, by decide⟩
  single := by decide
  weights := by intro i h; simp [Ex.dry2, Ex.dry] at h

/-- A world as seen by the tables of the example. -/
theorem Ex.dry_prob {n : Net ℚ} {f : NFactor ℚ} (hf : ∀ s ∈ f.dims, s = "Rain" ∨ s = f.forVar) (w : World) (k : Nat) :
    n.prob f (w.set f.forVar k) = n.prob f ((World.set (fun _ => 0) "Rain" (w "Rain")).set f.forVar k) := by
  refine prob_congr n f (fun s hs => ?_)
  by_cases e : s = f.forVar
  · rw [e, World.set_eq, World.set_eq]
  · rcases hf s hs with rfl | h
    · rw [World.set_ne _ e, World.set_ne _ e, World.set_eq]
    · exact absurd h e

theorem Ex.dry2_regular : Ex.dry2.Regular := by
  intro f hf w hw
  have h1 : w "Rain" < 2 := hw ⟨"Rain", .chance, ["yes", "no"], (0, 0), "", some 1⟩ (by decide)
  have key : ∀ a < 2, ∀ f ∈ Ex.dry2.chanceTables, Ex.dry2.rowSum f (World.set (fun _ => 0) "Rain" a) ≠ 0 := by
    decide +kernel
  intro h0
  apply key _ h1 f hf
  rw [← h0]
  unfold Net.rowSum
  refine Finset.sum_congr rfl (fun k _ => entry_congr _ f (fun s hs => ?_))
  have : ∀ f ∈ Ex.dry2.chanceTables, ∀ s ∈ f.dims, s = "Rain" ∨ s = f.forVar := by decide
  unfold World.set
  by_cases e0 : s = f.forVar
  · simp [e0]
  · rcases this f hf s hs with rfl | e
    · simp [e0]
    · exact absurd e e0

theorem Ex.dry_near : Ex.dry.Near Ex.dry2 (fun s => if s = "Rain" then 1 / 20 else 1 / 50) := by
  refine ⟨rfl, fun f hf => ?_⟩
  have hex : ∀ f ∈ Ex.dry.chanceTables, ∃ f' ∈ Ex.dry2.chanceTables, f'.forVar = f.forVar ∧ f'.given = f.given ∧
      ∀ a < 2, ∑ k ∈ range (Ex.dry.count f.forVar),
        |Ex.dry.prob f ((World.set (fun _ => 0) "Rain" a).set f.forVar k) -
          Ex.dry2.prob f' ((World.set (fun _ => 0) "Rain" a).set f.forVar k)| ≤
            2 * (if f.forVar = "Rain" then 1 / 20 else 1 / 50) := by
    decide +kernel
  have hdims : ∀ f ∈ Ex.dry.chanceTables, ∀ s ∈ f.dims, s = "Rain" ∨ s = f.forVar := by decide
  have hdims' : ∀ f ∈ Ex.dry2.chanceTables, ∀ s ∈ f.dims, s = "Rain" ∨ s = f.forVar := by decide
  obtain ⟨f', hf', g1, g2, g3⟩ := hex f hf
  refine ⟨f', hf', g1, g2, fun w hw => ?_⟩
  have h1 : w "Rain" < 2 := hw ⟨"Rain", .chance, ["yes", "no"], (0, 0), "", some 1⟩ (by decide)
  have e1 : ∀ k, Ex.dry2.prob f' (w.set f.forVar k) =
      Ex.dry2.prob f' ((World.set (fun _ => 0) "Rain" (w "Rain")).set f.forVar k) := by
    intro k
    rw [← g1]; exact Ex.dry_prob (hdims' f' hf') w k
  simp only [Ex.dry_prob (hdims f hf) w, e1]
  exact g3 _ h1

/-- The hypotheses of **C127** are met: rain given the sprinkler, from two estimates of the tables. -/
example : ∃ r f m r' f' m', Ex.dry.solveQuery Ex.back [("Sprinkler", "on")] ["Rain"] false = (.ok (r, f), m) ∧
      Ex.dry2.solveQuery Ex.back [("Sprinkler", "on")] ["Rain"] false = (.ok (r', f'), m') ∧
      ∀ q ∈ ["Rain"], ∃ d d' : List ℚ, (q, d) ∈ r ∧ (q, d') ∈ r' ∧
        d.length = Ex.dry.count q ∧ d'.length = Ex.dry.count q ∧ ∀ k < Ex.dry.count q, ∃ x x', d[k]? = some x ∧
          d'[k]? = some x' ∧ |x - x'| ≤ Ex.dry.distance (fun s => if s = "Rain" then 1 / 20 else 1 / 50) /
            (Ex.dry.mass [] (Ex.dry.Agrees [("Sprinkler", "on")]) / Ex.dry.mass [] (fun _ => True)) :=
  C127_close Ex.back Ex.back Ex.dry_valid Ex.dry2_valid rfl rfl Ex.dry_acyclic Ex.dry_regular Ex.dry2_regular
    ⟨by decide, by decide⟩ ⟨by decide, by decide⟩ Ex.dry_near ⟨by decide, by decide⟩ (by decide) false false
    (by decide +kernel)
    (C127_possible Ex.dry_valid Ex.dry2_valid Ex.dry_acyclic Ex.dry_regular Ex.dry2_regular ⟨by decide, by decide⟩
      ⟨by decide, by decide⟩ Ex.dry_near _ (by decide +kernel))

/-- The bound in this case. -/
example : Ex.dry.distance (fun s => if s = "Rain" then 1 / 20 else 1 / 50) /
    (Ex.dry.mass [] (Ex.dry.Agrees [("Sprinkler", "on")]) / Ex.dry.mass [] (fun _ => True)) = (5 / 23 : ℚ) := by
  decide +kernel

/-- A harvest that depends on the weather. -/
def Ex.crop : Net ℚ where
  name := "crop"
  info := ""
  «variables» := [⟨"Rain", .chance, ["yes", "no"], (0, 0), "", some 0⟩, ⟨"Harvest", .utility, ["tons"], (0, 0), "", some 1⟩]
  factors := [⟨"Rain", [], some [2, 8], [], 2⟩, ⟨"Harvest", ["Rain"], some [10, 4], [2], 1⟩]
  policies := []
  vs := none
  names := []
  totalUtility := none

/-- The same with more rain. -/
def Ex.crop2 : Net ℚ :=
  { Ex.crop with factors := [⟨"Rain", [], some [3, 7], [], 2⟩, ⟨"Harvest", ["Rain"], some [10, 4], [2], 1⟩] }

theorem Ex.crop_valid : Ex.crop.Valid where
  names := by decide
  named := by decide
  few := by decide
  outcomes := by decide
  tables := by decide
  hasTable := by decide
  known := by decide
  dims := by decide
  parents := by decide
  size := by
    intro f hf _ _
    simp only [Ex.crop, List.mem_cons, List.not_mem_nil, or_false] at hf
    rcases hf with rfl | rfl <;> exact ⟨_, rfl, by decide⟩
  single := by decide
  weights := by intro i h; simp [Ex.crop] at h

theorem Ex.crop_regular : Ex.crop.Regular := by
  intro f hf w _
  have key : ∀ f ∈ Ex.crop.chanceTables, Ex.crop.rowSum f (fun _ => 0) ≠ 0 ∧ f.dims = ["Rain"] ∧ f.forVar = "Rain" := by
    decide +kernel
  obtain ⟨h1, h2, h3⟩ := key f hf
  intro h0
  apply h1
  rw [← h0]
  unfold Net.rowSum
  refine Finset.sum_congr rfl (fun k _ => entry_congr _ f (fun s hs => ?_))
  rw [h2, List.mem_singleton] at hs
  rw [hs, h3, World.set_eq, World.set_eq]

theorem Ex.crop2_valid : Ex.crop2.Valid where
  names := by decide
  named := by decide
  few := by decide
  outcomes := by decide
  tables := by decide
  hasTable := by decide
  known := by decide
  dims := by decide
  parents := by decide
  size := by
    intro f hf _ _
    simp only [Ex.crop2, Ex.crop, List.mem_cons, List.not_mem_nil, or_false] at hf
    rcases hf with rfl | rfl <;> exact ⟨_, rfl, by decide⟩
  single := by decide
  weights := by intro i h; simp [Ex.crop2, Ex.crop] at h

theorem Ex.crop2_regular : Ex.crop2.Regular := by
  intro f hf w _
  have key : ∀ f ∈ Ex.crop2.chanceTables, Ex.crop2.rowSum f (fun _ => 0) ≠ 0 ∧ f.dims = ["Rain"] ∧ f.forVar = "Rain" := by
    decide +kernel
  obtain ⟨h1, h2, h3⟩ := key f hf
  intro h0
  apply h1
  rw [← h0]
  unfold Net.rowSum
  refine Finset.sum_congr rfl (fun k _ => entry_congr _ f (fun s hs => ?_))
  rw [h2, List.mem_singleton] at hs
  rw [hs, h3, World.set_eq, World.set_eq]

theorem Ex.crop_near : Ex.crop.Near Ex.crop2 (fun _ => 1 / 10) := by
  refine ⟨rfl, fun f hf => ?_⟩
  have hex : ∀ f ∈ Ex.crop.chanceTables, f.forVar = "Rain" ∧ f.dims = ["Rain"] ∧ ∃ f' ∈ Ex.crop2.chanceTables,
      f'.forVar = f.forVar ∧ f'.given = f.given ∧ f'.dims = ["Rain"] ∧ ∑ k ∈ range (Ex.crop.count f.forVar),
        |Ex.crop.prob f (World.set (fun _ => 0) f.forVar k) - Ex.crop2.prob f' (World.set (fun _ => 0) f.forVar k)| ≤
          2 * (1 / 10) := by
    decide +kernel
  obtain ⟨h1, h2, f', hf', g1, g2, g3, g4⟩ := hex f hf
  refine ⟨f', hf', g1, g2, fun w _ => ?_⟩
  refine le_trans (le_of_eq (Finset.sum_congr rfl (fun k _ => ?_))) g4
  rw [prob_congr Ex.crop f (w' := World.set (fun _ => 0) f.forVar k) (fun s hs => ?_),
    prob_congr Ex.crop2 f' (w' := World.set (fun _ => 0) f.forVar k) (fun s hs => ?_)]
  · rw [g3, List.mem_singleton] at hs
    rw [hs, h1, World.set_eq, World.set_eq]
  · rw [h2, List.mem_singleton] at hs
    rw [hs, h1, World.set_eq, World.set_eq]

/-- The hypotheses of **C127** are met: the expected harvest. It is 5.2 and 5.8, so that the bound is attained. -/
example : ∃ y y' : ℚ, Ex.crop.Worth Ex.back [] "Harvest" false y ∧ Ex.crop2.Worth Ex.back [] "Harvest" false y' ∧
    |y - y'| ≤ (10 - 4) * Ex.crop.distance (fun _ => 1 / 10) :=
  C127_utility Ex.back Ex.back Ex.crop_valid Ex.crop2_valid (by decide) rfl rfl ⟨fun s => 0, by decide⟩ Ex.crop_regular
    Ex.crop2_regular ⟨by decide, by decide⟩ ⟨by decide, by decide⟩ Ex.crop_near
    (u := ⟨"Harvest", .utility, ["tons"], (0, 0), "", some 1⟩) (by decide) (by decide)
    (f := ⟨"Harvest", ["Rain"], some [10, 4], [2], 1⟩) (f' := ⟨"Harvest", ["Rain"], some [10, 4], [2], 1⟩)
    (by decide) (by decide) rfl rfl rfl rfl (by decide) false false

example : Ex.crop.total [] (Ex.crop.asked "Harvest") = 26 / 5 ∧ Ex.crop2.total [] (Ex.crop2.asked "Harvest") = 29 / 5 := by
  decide +kernel

end Bbn
