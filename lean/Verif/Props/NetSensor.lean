import Verif.Props.NetSameJoint
import Verif.Props.NetMarkov

/-!
# C139: a sensor's reading multiplies the odds

The reading of a sensor changes the answer for what it measures as Bayes' rule says: probability before times
probability of the reading, scaled to sum one. So only the ratios of the probabilities of the reading matter.
-/

set_option autoImplicit false

namespace Bbn

open Finset

variable {α : Type}

/-- The reading of a sensor contributes the entry of its table. -/
theorem sensor_mass [Field α] [DecidableEq α] {n : Net α} (hn : n.Valid) (ha : n.Acyclic) (hr : n.Regular)
    {evidence : List (String × String)} (hev : n.EvidenceOK evidence) {f : NFactor α} (hf : f ∈ n.chanceTables) {x : String}
    (hx : x ∈ f.given) (hpar : ∀ g ∈ f.given, g = x ∨ g ∈ evidence.map Prod.fst)
    (hself : f.forVar ∉ evidence.map Prod.fst) (hdesc : ∀ e ∈ evidence, ¬ n.Below f.forVar e.1)
    {w : World} (hw : n.Allowed w) (hwe : n.Agrees evidence w) :
    n.mass [] (fun w' => (n.Agrees evidence w' ∧ w' x = w x) ∧ w' f.forVar = w f.forVar) =
      n.prob f w * n.mass [] (fun w' => n.Agrees evidence w' ∧ w' x = w x) := by
  classical
  obtain ⟨v, hv, e, hc⟩ := chanceTables_forVar hf
  have hxs : x ≠ f.forVar ∧ ¬ n.Below f.forVar x := by
    obtain ⟨rank, hrank⟩ := ha
    refine ⟨fun e' => ?_, fun hb => ?_⟩
    · have := hrank f hf x hx
      rw [e'] at this
      exact absurd this (lt_irrefl _)
    · exact absurd (below_rank hrank hb) (not_lt.2 (hrank f hf x hx).le)
  have hnself : ∀ a ∈ evidence, a.1 ≠ f.forVar := fun a ha' e' => hself (e' ▸ List.mem_map_of_mem ha')
  obtain ⟨M, hM⟩ := markov_total hn ha hr hf (fun w' => if n.Agrees evidence w' ∧ w' x = w x then (1 : α) else 0)
    (fun w' k => by simp only [agrees_blind hnself, World.set_ne _ hxs.1])
    (fun s hs w' k => by
      have : x ≠ s := fun e' => hxs.2 (e' ▸ hs)
      simp only [agrees_blind (fun a ha' e' => hdesc a ha' (e' ▸ hs)), World.set_ne _ this])
    (fun k => n.prob f (w.set f.forVar k)) (fun w' k h0 => by
      have hw' : n.Agrees evidence w' ∧ w' x = w x := by
        by_contra hcon
        simp [hcon] at h0
      refine prob_congr n f (fun s hs => ?_)
      by_cases es : s = f.forVar
      · subst es; rw [World.set_eq, World.set_eq]
      · rw [World.set_ne _ es, World.set_ne _ es]
        have hg : s ∈ f.given := by simpa [NFactor.dims, es] using hs
        rcases hpar s hg with rfl | hm
        · exact hw'.2
        · obtain ⟨a, ha', rfl⟩ := List.mem_map.1 hm
          obtain ⟨u, hu, hue, _⟩ := hev.known a ha'
          rw [hw'.1 a ha' u hu hue, hwe a ha' u hu hue])
  have hwx : w f.forVar < n.count f.forVar := by
    rw [← e, count_eq hn (mem_stateVars.1 hv).1]; exact hw v hv
  have m1 : n.mass [] (fun w' => n.Agrees evidence w' ∧ w' x = w x) = M := by
    have := hM (fun _ => 1)
    simp only [mul_one] at this
    rw [prob_one n f (hr f hf w hw), one_mul] at this
    exact this
  have := hM (fun k => if k = w f.forVar then 1 else 0)
  simp only [mul_ite, mul_one, mul_zero, Finset.sum_ite_eq', Finset.mem_range, hwx, if_true, World.set_self] at this
  rw [m1, ← this]
  unfold Net.mass
  congr 1
  funext w'
  by_cases c1 : n.Agrees evidence w' ∧ w' x = w x <;> by_cases c2 : w' f.forVar = w f.forVar <;> simp [c1, c2]

/-- **C139.** A variable `s` measures `x`: its parents are `x` and possibly variables that are observed. Nothing below `s`
is observed. Then the reading `o` of `s` changes the answer for `x` by Bayes' rule: each probability is multiplied with the
probability of the reading in the table of `s`, and the results are scaled to sum one. -/
theorem C139_sensor [Field α] [CharZero α] [DecidableEq α] (s1 s2 : NSched α) {n : Net α} (hn : n.Valid)
    (hpol : n.policies = []) (ha : n.Acyclic) (hr : n.Regular) {evidence : List (String × String)}
    (hev : n.EvidenceOK evidence) {x s : NVar} (hx : x ∈ n.variables) (hxc : x.nodeType = .chance)
    (hxf : x.name ∉ evidence.map Prod.fst) (hs : s ∈ n.variables) {f : NFactor α} (hf : f ∈ n.chanceTables)
    (hfs : f.forVar = s.name) (hxg : x.name ∈ f.given) (hpar : ∀ g ∈ f.given, g = x.name ∨ g ∈ evidence.map Prod.fst)
    (hself : s.name ∉ evidence.map Prod.fst) (hdesc : ∀ e ∈ evidence, ¬ n.Below s.name e.1) {o : String}
    (ho : o ∈ s.outcomes) (ign : Bool) (possible : n.mass [] (n.Agrees evidence) ≠ 0)
    (possible' : n.mass [] (n.Agrees ((s.name, o) :: evidence)) ≠ 0) :
    ∃ d d' : List α, n.Answers s1 evidence x.name ign d ∧ n.Answers s2 ((s.name, o) :: evidence) x.name ign d' ∧
      ∀ w, n.Allowed w → n.Agrees ((s.name, o) :: evidence) w → d'[w x.name]? =
        some (d.getD (w x.name) 0 * (n.entry f w / n.rowSum f w) /
          ∑ k ∈ range x.outcomes.length, d.getD k 0 * (n.entry f (w.set x.name k) / n.rowSum f (w.set x.name k))) := by
  have hsc : s.nodeType = .chance := (isKind_iff hn hs _).1 (hfs ▸ (mem_chanceTables.1 hf).2)
  have hsx : s.name ≠ x.name := by
    obtain ⟨rank, hrank⟩ := ha
    intro e
    have := hrank f hf x.name hxg
    rw [hfs, e] at this
    exact absurd this (lt_irrefl _)
  have hact : n.active evidence ign = [] := by simp [Net.active, hpol]
  have hact' : n.active ((s.name, o) :: evidence) ign = [] := by simp [Net.active, hpol]
  have hp : n.PoliciesOK := by constructor <;> simp [hpol]
  obtain ⟨d, h1, l1, h1'⟩ := answers_mass s1 hn hp hev hx hxc hxf ign (by rw [hact]; exact possible)
  obtain ⟨d', h2, l2, h2'⟩ := answers_mass s2 hn hp (evidence_cons hev hs hsc hself ho) hx hxc
    (by rw [List.map_cons, List.mem_cons, not_or]; exact ⟨hsx.symm, hxf⟩) ign (by rw [hact']; exact possible')
  refine ⟨d, d', h1, h2, fun w hw hwe => ?_⟩
  obtain ⟨hwe1, hwe2⟩ := (agrees_cons hn hs o w).1 hwe
  have hwx : ∀ k < x.outcomes.length, n.Allowed (w.set x.name k) := by
    intro k hk u hu
    by_cases e : u.name = x.name
    · rw [e, World.set_eq, name_unique hn (mem_stateVars.1 hu).1 hx e]; exact hk
    · rw [World.set_ne _ e]; exact hw u hu
  have hk0 : w x.name < x.outcomes.length := hw x (mem_stateVars.2 ⟨hx, by rw [hxc]; decide⟩)
  -- the mass of a reading together with an outcome of `x`
  have key : ∀ k < x.outcomes.length, n.mass [] (fun w' => n.Agrees ((s.name, o) :: evidence) w' ∧ w' x.name = k) =
      n.prob f (w.set x.name k) * n.mass [] (fun w' => n.Agrees evidence w' ∧ w' x.name = k) := by
    intro k hk
    have := sensor_mass hn ha hr hev hf hxg hpar (hfs ▸ hself) (hfs ▸ hdesc) (hwx k hk)
      ((agrees_blind (fun (e : String × String) he (e' : e.1 = x.name) => hxf (e' ▸ List.mem_map_of_mem he)) w k).2 hwe1)
    rw [World.set_eq, hfs, World.set_ne _ hsx, hwe2] at this
    rw [← this]
    refine mass_congr n [] (fun w' => ?_)
    rw [agrees_cons hn hs]
    tauto
  have hprob : ∀ k < x.outcomes.length, n.prob f (w.set x.name k) =
      n.entry f (w.set x.name k) / n.rowSum f (w.set x.name k) := by
    intro k hk
    unfold Net.prob
    rw [if_neg (hr f hf _ (hwx k hk))]
  have hd : ∀ k < x.outcomes.length, d.getD k 0 =
      n.mass [] (fun w => n.Agrees evidence w ∧ w x.name = k) / n.mass [] (n.Agrees evidence) := by
    intro k hk
    rw [List.getD_eq_getElem?_getD, h1' k hk, hact]; rfl
  have hsum : n.mass [] (n.Agrees ((s.name, o) :: evidence)) = n.mass [] (n.Agrees evidence) *
      ∑ k ∈ range x.outcomes.length, d.getD k 0 * (n.entry f (w.set x.name k) / n.rowSum f (w.set x.name k)) := by
    rw [← mass_split hn [] (mem_stateVars.2 ⟨hx, by rw [hxc]; decide⟩ : x ∈ n.stateVars), Finset.mul_sum]
    refine Finset.sum_congr rfl (fun k hk => ?_)
    have hk := Finset.mem_range.1 hk
    rw [key k hk, hd k hk, ← hprob k hk]
    field_simp
  have hwself : w.set x.name (w x.name) = w := World.set_self _ _
  have e0 := hprob _ hk0
  rw [hwself] at e0
  rw [h2' _ hk0, hact', key _ hk0, hsum, hwself, e0, hd _ hk0]
  congr 1
  rw [hsum] at possible'
  have hne := right_ne_zero_of_mul possible'
  field_simp

/-- **C139, only ratios matter.** Two networks have the same variables and the same probabilities, except those of the
variable `s`, whose reading `o` is observed: the probabilities of `o` in the one network are those in the other times a
constant. The probabilities of the other readings, and the parents that the networks declare, do not matter. The networks
give the same answers. -/
theorem C139_ratios [Field α] [CharZero α] [DecidableEq α] (sch sch' : NSched α) {n n' : Net α} (hn : n.Valid)
    (hn' : n'.Valid) (hpol : n.policies = []) (hpol' : n'.policies = []) (hv : n.SameVars n') {s : NVar}
    (hs : s ∈ n.variables) (hp : n.SameChances n' [s.name]) {f f' : NFactor α} (hf : f ∈ n.chanceTables)
    (hf' : f' ∈ n'.chanceTables) (ef : f.forVar = s.name) (ef' : f'.forVar = s.name) {o : String} {c : α} (hc : c ≠ 0)
    (hratio : ∀ w, n.Allowed w → w s.name = s.outcomes.idxOf o → n'.prob f' w = c * n.prob f w)
    {evidence : List (String × String)} (ho : (s.name, o) ∈ evidence) (hev : n.EvidenceOK evidence) {query : List String}
    (hq : ∀ q ∈ query, n.isKind .chance q = true ∧ q ∉ evidence.map Prod.fst) (ign ign' : Bool)
    (possible : n.mass [] (n.Agrees evidence) ≠ 0) :
    ∃ r f m r' f' m', n.solveQuery sch evidence query ign = (.ok (r, f), m) ∧
      n'.solveQuery sch' evidence query ign' = (.ok (r', f'), m') ∧
      (∀ s, s ∈ r.map Prod.fst ↔ s ∈ query) ∧ ∀ q d, (q, d) ∈ r' ↔ (q, d) ∈ r := by
  refine C138_same_joint sch sch' hn hn' hpol hpol' hv hc (fun w hw hwe => ?_) hev hq ign ign' possible
  refine SameVars.joint hv hn hn' hp hw ?_
  obtain ⟨v, hvs, nv, _⟩ := chanceTables_forVar hf
  have hfil : n.stateVars.filter (fun u => u.name ∈ [s.name]) = [v] := by
    rw [show (fun u : NVar => decide (u.name ∈ [s.name])) = fun u => decide (u.name = v.name) by
      funext u; simp only [List.mem_singleton, nv, ef]]
    exact filter_single NVar.name _ (stateVars_names hn) v hvs
  rw [hfil]
  simp only [List.map_cons, List.map_nil, List.prod_cons, List.prod_nil, mul_one]
  rw [kernel_table hn hf nv, kernel_table hn' hf' (by rw [nv, ef, ef'])]
  exact hratio w hw (hwe _ ho s hs rfl)

namespace Ex

/-- The network with rain and a sprinkler, with a sprinkler that is on twice as often. -/
def dryTwice : Net ℚ :=
  { Ex.dry with factors := [⟨"Sprinkler", ["Rain"], some [1, 49, 4, 1], [2], 2⟩, ⟨"Rain", [], some [20, 80], [], 2⟩] }

theorem dryTwice_valid : dryTwice.Valid where
  names := by decide
  named := by decide
  few := by decide
  outcomes := by decide
  tables := by decide
  hasTable := by decide
  known := by decide
  dims := by decide
  parents := by decide
  size := by
    intro f hf _ _
    simp only [dryTwice, List.mem_cons, List.not_mem_nil, or_false] at hf
    rcases hf with rfl | rfl <;> exact ⟨_, rfl, by decide⟩
  single := by decide
  weights := by intro i h; simp [dryTwice, dry] at h

theorem dryTwice_same : dry.SameChances dryTwice ["Sprinkler"] := by
  intro f hf f' hf' e hne w hw
  have h1 : ∀ f ∈ dry.chanceTables, ∀ f' ∈ dryTwice.chanceTables, f'.forVar = f.forVar → f.forVar ∉ ["Sprinkler"] → f' = f ∧
      f.dims = ["Rain"] := by decide
  obtain ⟨rfl, hd⟩ := h1 f hf f' hf' e hne
  rfl

theorem dryTwice_ratio (w : World) (hw : dry.Allowed w) (h : w "Sprinkler" = 0) :
    dryTwice.prob ⟨"Sprinkler", ["Rain"], some [1, 49, 4, 1], [2], 2⟩ w =
      2 * dry.prob ⟨"Sprinkler", ["Rain"], some [1, 99, 4, 6], [2], 2⟩ w := by
  rw [prob_three _ _ (x := "Rain") (y := "Sprinkler") (z := "Sprinkler") (by decide) w,
    prob_three _ _ (x := "Rain") (y := "Sprinkler") (z := "Sprinkler") (by decide) w, h]
  have : ∀ a < 2, dryTwice.prob ⟨"Sprinkler", ["Rain"], some [1, 49, 4, 1], [2], 2⟩ (three "Rain" "Sprinkler" "Sprinkler" a 0 0) =
      2 * dry.prob ⟨"Sprinkler", ["Rain"], some [1, 99, 4, 6], [2], 2⟩ (three "Rain" "Sprinkler" "Sprinkler" a 0 0) := by
    decide +kernel
  exact this _ (dry_allowed hw).1

end Ex

open Ex in
/-- The hypotheses of `C139_sensor` are met: the sprinkler tells about the rain. -/
example (s1 s2 : NSched ℚ) : ∃ d d' : List ℚ, dry.Answers s1 [] "Rain" false d ∧
    dry.Answers s2 [("Sprinkler", "on")] "Rain" false d' := by
  obtain ⟨d, d', h1, h2, _⟩ := C139_sensor s1 s2 dry_valid rfl dry_acyclic dry_regular (evidence := []) ⟨by decide, by decide⟩
    (x := ⟨"Rain", .chance, ["yes", "no"], (0, 0), "", some 1⟩)
    (s := ⟨"Sprinkler", .chance, ["on", "off"], (0, 0), "", some 0⟩) (by decide) rfl (by decide) (by decide)
    (f := ⟨"Sprinkler", ["Rain"], some [1, 99, 4, 6], [2], 2⟩) (by decide) rfl (by decide) (by decide) (by decide)
    (by simp) (o := "on") (by decide) false (by decide +kernel) (by decide +kernel)
  exact ⟨d, d', h1, h2⟩

open Ex in
/-- The hypotheses of `C139_ratios` are met: it does not matter how often the sprinkler is on in general. -/
example (sch sch' : NSched ℚ) : ∃ r f m r' f' m', dry.solveQuery sch [("Sprinkler", "on")] ["Rain"] false = (.ok (r, f), m) ∧
      dryTwice.solveQuery sch' [("Sprinkler", "on")] ["Rain"] false = (.ok (r', f'), m') ∧
      (∀ s, s ∈ r.map Prod.fst ↔ s ∈ ["Rain"]) ∧ ∀ q d, (q, d) ∈ r' ↔ (q, d) ∈ r :=
  C139_ratios sch sch' dry_valid dryTwice_valid rfl rfl rfl
    (s := ⟨"Sprinkler", .chance, ["on", "off"], (0, 0), "", some 0⟩) (by decide) dryTwice_same
    (f := ⟨"Sprinkler", ["Rain"], some [1, 99, 4, 6], [2], 2⟩)
    (f' := ⟨"Sprinkler", ["Rain"], some [1, 49, 4, 1], [2], 2⟩) (by decide) (by decide) rfl rfl (o := "on")
    (c := 2) (by norm_num) dryTwice_ratio (by decide) ⟨by decide, by decide⟩ (by decide) false false (by decide +kernel)

end Bbn
