import Verif.Spec.Memory
import Verif.Props.Training
import Verif.Props.NetCalls
import Verif.Props.Reproduce

/-!
# C130: networks that share memory
-/

set_option autoImplicit false

namespace Bbn

variable {α : Type}

theorem readFactor_set (μ : Memory α) {l : List MFactor} {p k : Nat} {f : MFactor} (hf : l[p]? = some f)
    (hk : f.table = some k) (hex : k < μ.tabs.length)
    (hd : ∀ (j : Nat) (g : MFactor), l[j]? = some g → g.table = some k → j = p) (x : List α) :
    (l.map μ.readFactor).set p { μ.readFactor f with table := some x } =
      l.map ({ μ with tabs := μ.tabs.set k x }).readFactor := by
  apply List.ext_getElem?
  intro j
  by_cases hj : p = j
  · subst hj
    have hp : p < l.length := (List.getElem?_eq_some_iff.1 hf).1
    rw [List.getElem?_set_self (by simpa using hp), List.getElem?_map, hf]
    simp [Memory.readFactor, hk, List.getD, List.getElem?_set_self hex]
  · rw [List.getElem?_set_ne hj, List.getElem?_map, List.getElem?_map]
    cases hg : l[j]? with
    | none => rfl
    | some g =>
      simp only [Option.map_some, Option.some.injEq]
      unfold Memory.readFactor
      cases ht : g.table with
      | none => rfl
      | some k' =>
        have : k ≠ k' := by
          rintro rfl
          exact hj (hd j g hg ht).symm
        simp [List.getD, List.getElem?_set_ne this]

theorem memUpdateNodes_read [Div α] [NatCast α] (t : Trainer α) (b : Nat) : ∀ (l : List (MVar × Nat)) (μ : Memory α),
    (∀ v ∈ l, ∀ p, v.1.factor = some p → p.1 = b) →
    (∀ f ∈ μ.facs.getD b [], ∀ k, f.table = some k → k < μ.tabs.length) →
    (∀ (i j : Nat) (f g : MFactor) (k : Nat), (μ.facs.getD b [])[i]? = some f →
      (μ.facs.getD b [])[j]? = some g → f.table = some k → g.table = some k → i = j) →
    updateNodes t (l.map (fun p => (p.1.read, p.2))) (μ.readFactors b) =
      (memUpdateNodes t l μ).map (fun r => (r.1.readFactors b, r.2)) := by
  intro l
  induction l with
  | nil => intro μ _ _ _; rfl
  | cons e l ih =>
    obtain ⟨v, i⟩ := e
    intro μ h1 h2 h3
    simp only [List.map_cons]
    unfold updateNodes memUpdateNodes
    cases goGet t.data i with
    | error e => rfl
    | ok data =>
      simp only [ok_bind]
      unfold Memory.deref
      cases hv : v.factor with
      | none => simp [MVar.read, hv]; rfl
      | some p =>
        obtain ⟨b', p⟩ := p
        obtain rfl : b' = b := h1 (v, i) List.mem_cons_self _ hv
        have : v.read.factor = some p := by simp [MVar.read, hv]
        rw [this]
        dsimp only
        cases hf : (μ.facs.getD b' [])[p]? with
        | none =>
          have e1 : goGet (μ.readFactors b') p = .error (.panic "index out of range") := by
            unfold goGet Memory.readFactors; rw [List.getElem?_map, hf]; rfl
          have e2 : goGet (μ.facs.getD b' []) p = .error (.panic "index out of range") := by
            unfold goGet; rw [hf]
          rw [e1, e2]
          rfl
        | some f =>
          have e1 : goGet (μ.readFactors b') p = .ok (μ.readFactor f) := by
            unfold goGet Memory.readFactors; rw [List.getElem?_map, hf]; rfl
          have e2 : goGet (μ.facs.getD b' []) p = .ok f := by
            unfold goGet; rw [hf]
          rw [e1, e2, ok_bind, ok_bind]
          change (if f.columns = 0 then _ else _) = _
          by_cases hc : f.columns = 0
          · simp only [hc, if_true]; rfl
          · rw [if_neg hc, if_neg hc]
            cases goGet t.counter i with
            | error e => rfl
            | ok counter =>
              rw [ok_bind, ok_bind]
              change (updateRows data counter f.columns (List.range
                (((f.table.map (fun k => μ.tabs.getD k [])).getD []).length / f.columns))
                ((f.table.map (fun k => μ.tabs.getD k [])).getD []) >>= _) = _
              cases updateRows data counter f.columns (List.range
                (((f.table.map (fun k => μ.tabs.getD k [])).getD []).length / f.columns))
                ((f.table.map (fun k => μ.tabs.getD k [])).getD []) with
              | error e => rfl
              | ok r =>
                rw [ok_bind, ok_bind]
                have key : (μ.readFactors b').set p { μ.readFactor f with
                    table := (μ.readFactor f).table.map (fun _ => r.1) } =
                    ({ μ with tabs := match f.table with
                      | none => μ.tabs
                      | some k => μ.tabs.set k r.1 } : Memory α).readFactors b' := by
                  unfold Memory.readFactors
                  cases ht : f.table with
                  | none =>
                    have hp : p < (μ.facs.getD b' []).length := (List.getElem?_eq_some_iff.1 hf).1
                    apply List.ext_getElem?
                    intro j
                    by_cases hj : p = j
                    · subst hj
                      rw [List.getElem?_set_self (by simpa using hp), List.getElem?_map, hf]
                      simp [Memory.readFactor, ht]
                    · rw [List.getElem?_set_ne hj]
                  | some k =>
                    have := readFactor_set μ hf ht (h2 f (List.mem_of_getElem? hf) k ht)
                      (fun j g hg hk => h3 j p g f k hg hf hk ht) r.1
                    rw [← this]
                    simp [Memory.readFactor, ht]
                rw [key]
                cases r.2 with
                | some e => rfl
                | none =>
                  refine ih _ (fun w hw => h1 w (List.mem_cons_of_mem _ hw)) (fun g hg k hk => ?_) h3
                  have := h2 g hg k hk
                  cases f.table <;> simpa using this

/-- `UpdateNetwork` writes only into the tables of the factors that its variables point to. -/
theorem memUpdateNodes_writes [Div α] [NatCast α] (t : Trainer α) (b : Nat) : ∀ (l : List (MVar × Nat))
    (μ μ' : Memory α) (e : Option String), (∀ v ∈ l, ∀ p, v.1.factor = some p → p.1 = b) →
    memUpdateNodes t l μ = .ok (μ', e) → μ'.vars = μ.vars ∧ μ'.facs = μ.facs ∧ μ'.tabs.length = μ.tabs.length ∧
      ∀ k, (∀ f ∈ μ.facs.getD b [], f.table ≠ some k) → μ'.tabs.getD k [] = μ.tabs.getD k [] := by
  intro l
  induction l with
  | nil =>
    intro μ μ' e _ h
    cases h
    exact ⟨rfl, rfl, rfl, fun _ _ => rfl⟩
  | cons p l ih =>
    obtain ⟨v, i⟩ := p
    intro μ μ' e h1 h
    unfold memUpdateNodes at h
    obtain ⟨data, _, h⟩ := bind_ok h
    obtain ⟨f, hf, h⟩ := bind_ok h
    split at h
    · cases h
    obtain ⟨counter, _, h⟩ := bind_ok h
    obtain ⟨r, _, h⟩ := bind_ok h
    have hmem : f ∈ μ.facs.getD b [] := by
      unfold Memory.deref at hf
      split at hf
      · cases hf
      · rename_i p hp
        rw [h1 (v, i) List.mem_cons_self p hp] at hf
        unfold goGet at hf
        split at hf
        · rename_i x hx
          cases hf
          exact List.mem_of_getElem? hx
        · cases hf
    have key : ∀ k, (∀ f ∈ μ.facs.getD b [], f.table ≠ some k) → ((match f.table with
        | none => μ.tabs
        | some k => μ.tabs.set k r.1).getD k []) = μ.tabs.getD k [] := by
      intro k hk
      cases ht : f.table with
      | none => rfl
      | some k' =>
        have : k' ≠ k := by
          rintro rfl
          exact hk f hmem ht
        simp [List.getD, List.getElem?_set_ne this]
    have hlen : (match f.table with
        | none => μ.tabs
        | some k => μ.tabs.set k r.1).length = μ.tabs.length := by cases f.table <;> simp
    dsimp only at h
    cases hr : r.2 with
    | some e' =>
      rw [hr] at h
      cases h
      exact ⟨rfl, rfl, hlen, key⟩
    | none =>
      rw [hr] at h
      obtain ⟨a1, a2, a3, a4⟩ := ih _ _ _ (fun w hw => h1 w (List.mem_cons_of_mem _ hw)) h
      exact ⟨a1, a2, a3.trans hlen, fun k hk => (a4 k hk).trans (key k hk)⟩

/-- **C130, training.** On a network that has its memory for itself, `UpdateNetwork` does what it does in the model in
which each network has tables of its own, on which the other properties are proved. -/
theorem C130_update_partial [Div α] [NatCast α] (t : Trainer α) {m : MNet α} {μ : Memory α}
    (h : μ.Own m.vars m.facs) :
    updateNetwork t (μ.net m) = (memUpdate t m μ).map (fun r => (r.1.net m, r.2)) := by
  have hp : ∀ v ∈ (μ.vars.getD m.vars []).zipIdx, ∀ p, v.1.factor = some p → p.1 = m.facs := by
    intro v hv
    exact h.pointers v.1 (List.fst_mem_of_mem_zipIdx hv)
  have key := memUpdateNodes_read t m.facs (μ.vars.getD m.vars []).zipIdx μ hp h.exist h.distinct
  have hz : (μ.net m).variables.zipIdx = (μ.vars.getD m.vars []).zipIdx.map (fun p => (p.1.read, p.2)) := by
    change ((μ.vars.getD m.vars []).map MVar.read).zipIdx = _
    rw [List.zipIdx_map]
    rfl
  unfold updateNetwork
  rw [hz]
  change (updateNodes t _ (μ.readFactors m.facs) >>= _) = _
  rw [key]
  unfold memUpdate
  cases hr : memUpdateNodes t (μ.vars.getD m.vars []).zipIdx μ with
  | error e => rfl
  | ok r =>
    obtain ⟨μ', e⟩ := r
    obtain ⟨a1, a2, _⟩ := memUpdateNodes_writes t m.facs _ _ _ _ hp hr
    change Except.ok (_, _) = Except.ok (_, _)
    simp only [Memory.net, Memory.readVars, a1]

/-- **C130, other networks.** Training a network does not change the others, if they have no memory in common. -/
theorem C130_others_partial [Div α] [NatCast α] {t : Trainer α} {m m' : MNet α} {μ μ' : Memory α} {e : Option String}
    (h : μ.Own m.vars m.facs) (hs : μ.Separate m m') (hr : memUpdate t m μ = .ok (μ', e)) :
    μ'.net m' = μ.net m' := by
  have hp : ∀ v ∈ (μ.vars.getD m.vars []).zipIdx, ∀ p, v.1.factor = some p → p.1 = m.facs := by
    intro v hv
    exact h.pointers v.1 (List.fst_mem_of_mem_zipIdx hv)
  obtain ⟨a1, a2, _, a4⟩ := memUpdateNodes_writes t m.facs _ _ _ _ hp hr
  have : μ'.readFactors m'.facs = μ.readFactors m'.facs := by
    unfold Memory.readFactors
    rw [a2]
    apply List.map_congr_left
    intro g hg
    unfold Memory.readFactor
    cases ht : g.table with
    | none => rfl
    | some k => rw [Option.map_some, Option.map_some, a4 k (fun f hf hk => hs.tabs f hf g hg k hk ht)]
  simp only [Memory.net, Memory.readVars, a1, this]

/-- Training keeps networks apart. -/
theorem memUpdate_kept [Div α] [NatCast α] {t : Trainer α} {m : MNet α} {μ μ' : Memory α} {e : Option String}
    (h : μ.Own m.vars m.facs) (hr : memUpdate t m μ = .ok (μ', e)) : (∀ a b, μ.Own a b → μ'.Own a b) ∧
      ∀ m1 m2, μ.Separate m1 m2 → μ'.Separate m1 m2 := by
  have hp : ∀ v ∈ (μ.vars.getD m.vars []).zipIdx, ∀ p, v.1.factor = some p → p.1 = m.facs := by
    intro v hv
    exact h.pointers v.1 (List.fst_mem_of_mem_zipIdx hv)
  obtain ⟨a1, a2, a3, _⟩ := memUpdateNodes_writes t m.facs _ _ _ _ hp hr
  refine ⟨fun a b o => ?_, fun m1 m2 o => ?_⟩
  · constructor
    · rw [a1]; exact o.vars
    · rw [a2]; exact o.facs
    · rw [a1]; exact o.pointers
    · rw [a2, a3]; exact o.exist
    · rw [a2]; exact o.distinct
  · constructor
    · exact o.vars
    · exact o.facs
    · rw [a2]; exact o.tabs

/-- Networks are trained in turn: `(k, t)` stands for `UpdateNetwork` on trainer `t` of network `k`. Errors are
returned and do not end the program. -/
def memUpdates [Div α] [NatCast α] (ms : List (MNet α)) : List (Nat × Trainer α) → Memory α → Except Fault (Memory α)
  | [], μ => .ok μ
  | (k, t) :: ops, μ => do
    let m ← goGet ms k
    let r ← memUpdate t m μ
    memUpdates ms ops r.1

/-- One network, trained several times. -/
def updates [Div α] [NatCast α] : List (Trainer α) → Net α → Except Fault (Net α)
  | [], n => .ok n
  | t :: ts, n => do
    let r ← updateNetwork t n
    updates ts r.1

/-- **C130, training in turn.** Any number of networks without common memory, trained in turn in any order: each ends up
as if it had been trained alone, with its own trainers in their order. -/
theorem C130_in_turn_partial [Div α] [NatCast α] {ms : List (MNet α)} : ∀ (ops : List (Nat × Trainer α))
    {μ μ' : Memory α}, (∀ m ∈ ms, μ.Own m.vars m.facs) →
    (∀ (i j : Nat) mi mj, i ≠ j → ms[i]? = some mi → ms[j]? = some mj → μ.Separate mi mj) →
    memUpdates ms ops μ = .ok μ' → ∀ (i : Nat) m, ms[i]? = some m →
    updates ((ops.filter (fun o => o.1 = i)).map Prod.snd) (μ.net m) = .ok (μ'.net m) := by
  intro ops
  induction ops with
  | nil =>
    intro μ μ' _ _ h i m _
    cases h
    rfl
  | cons o ops ih =>
    obtain ⟨k, t⟩ := o
    intro μ μ' h1 h2 h i m hm
    unfold memUpdates at h
    obtain ⟨mk, hk, h⟩ := bind_ok h
    obtain ⟨⟨μ1, e⟩, hr, h⟩ := bind_ok h
    have hk : ms[k]? = some mk := by
      unfold goGet at hk
      split at hk
      · rename_i x hx; cases hk; exact hx
      · cases hk
    have hown := h1 mk (List.mem_of_getElem? hk)
    obtain ⟨k1, k2⟩ := memUpdate_kept hown hr
    have := ih (fun m hm => k1 _ _ (h1 m hm)) (fun a b ma mb hab ha hb => k2 _ _ (h2 a b ma mb hab ha hb)) h i m hm
    by_cases hik : k = i
    · subst hik
      rw [hk] at hm
      cases hm
      rw [List.filter_cons_of_pos (by simp), List.map_cons]
      unfold updates
      rw [C130_update_partial t hown, hr]
      exact this
    · rw [List.filter_cons_of_neg (by simpa using hik)]
      rw [← C130_others_partial hown (h2 k i mk m hik hk hm) hr]
      exact this

theorem fillCounts_ok (all : List NVar) : ∀ gs : List String,
    parentCounts all gs = if (fillCounts all gs).2 then .ok (fillCounts all gs).1
      else .error (.error "parent variable not found") := by
  intro gs
  induction gs with
  | nil => rfl
  | cons g gs ih =>
    unfold parentCounts at ih ⊢
    rw [List.mapM_cons, ih]
    cases hg : outcomeCount all g with
    | none =>
      have : fillCounts all (g :: gs) = (List.replicate (gs.length + 1) 0, false) := by rw [fillCounts, hg]
      rw [this]
      rfl
    | some n =>
      have : fillCounts all (g :: gs) = (n :: (fillCounts all gs).1, (fillCounts all gs).2) := by rw [fillCounts, hg]
      rw [this]
      dsimp only
      rw [ok_bind]
      split <;> rfl

/-- What `prepareVariables` does in memory, seen through the variables and factors of the network. -/
theorem memLink_read (all : List NVar) (a b : Nat) : ∀ (rest pre : List MVar) (μ : Memory α), a < μ.vars.length →
    b < μ.facs.length → μ.vars.getD a [] = pre ++ rest → (∀ v ∈ pre ++ rest, ∀ p, v.factor = some p → p.1 = b) →
    (∀ c, c ≠ a → (memLink all a b pre.length rest.length μ).2.vars.getD c [] = μ.vars.getD c []) ∧
    (∀ c, c ≠ b → (memLink all a b pre.length rest.length μ).2.facs.getD c [] = μ.facs.getD c []) ∧
    (memLink all a b pre.length rest.length μ).2.tabs = μ.tabs ∧
    (memLink all a b pre.length rest.length μ).2.vars.length = μ.vars.length ∧
    (memLink all a b pre.length rest.length μ).2.facs.length = μ.facs.length ∧
    ((memLink all a b pre.length rest.length μ).2.facs.getD b []).map MFactor.table =
      (μ.facs.getD b []).map MFactor.table ∧
    match (memLink all a b pre.length rest.length μ).1 with
    | .error e => linkFactors all (rest.map MVar.read) (μ.readFactors b) = .error e
    | .ok _ => ∃ rest', (memLink all a b pre.length rest.length μ).2.vars.getD a [] = pre ++ rest' ∧
        (∀ v ∈ pre ++ rest', ∀ p, v.factor = some p → p.1 = b) ∧
        linkFactors all (rest.map MVar.read) (μ.readFactors b) =
          .ok (rest'.map MVar.read, (memLink all a b pre.length rest.length μ).2.readFactors b) := by
  intro rest
  induction rest with
  | nil =>
    intro pre μ _ _ h1 h2
    refine ⟨fun _ _ => rfl, fun _ _ => rfl, rfl, rfl, rfl, rfl, ?_⟩
    exact ⟨[], h1, h2, rfl⟩
  | cons v rest ih =>
    intro pre μ ha hb h1 h2
    have hv : (μ.vars.getD a [])[pre.length]? = some v := by rw [h1]; simp
    rw [List.length_cons, memLink, hv]
    dsimp only
    have hfind : (μ.readFactors b).findIdx? (fun f => decide (f.forVar = v.read.name)) =
        (μ.facs.getD b []).findIdx? (fun f => decide (f.forVar = v.name)) := by
      unfold Memory.readFactors
      rw [List.findIdx?_map]
      rfl
    rw [List.map_cons, linkFactors, hfind]
    cases hi : (μ.facs.getD b []).findIdx? (fun f => decide (f.forVar = v.name)) with
    | none =>
      dsimp only
      obtain ⟨k1, k2, k3, k4, k5, k6, k7⟩ := ih (pre ++ [v]) μ ha hb (by rw [h1]; simp) (by simpa using h2)
      rw [show (pre ++ [v]).length = pre.length + 1 by simp] at k1 k2 k3 k4 k5 k6 k7
      refine ⟨k1, k2, k3, k4, k5, k6, ?_⟩
      cases hr : (memLink all a b (pre.length + 1) rest.length μ).1 with
      | error e =>
        rw [hr] at k7
        dsimp only at k7 ⊢
        rw [k7]
        rfl
      | ok u =>
        rw [hr] at k7
        obtain ⟨rest', r1, r2, r3⟩ := k7
        exact ⟨v :: rest', by rw [r1]; simp, by simpa using r2, by rw [r3]; rfl⟩
    | some k =>
      dsimp only
      have hk : k < (μ.facs.getD b []).length := by
        rw [List.findIdx?_eq_some_iff_getElem] at hi
        exact hi.1
      have hf : (μ.facs.getD b [])[k]? = some (μ.facs.getD b [])[k] := List.getElem?_eq_getElem hk
      generalize (μ.facs.getD b [])[k] = f at hf
      rw [hf]
      have hg : goGet (μ.readFactors b) k = .ok (μ.readFactor f) := by
        unfold goGet Memory.readFactors
        rw [List.getElem?_map, hf]
        rfl
      rw [hg, ok_bind]
      change _ ∧ _ ∧ _ ∧ _ ∧ _ ∧ _ ∧ _
      have hcounts := fillCounts_ok all f.given
      rw [show (μ.readFactor f).given = f.given from rfl, hcounts]
      dsimp only
      generalize fillCounts all f.given = c
      -- the memory after this variable
      generalize hμ : ({ μ with
          vars := μ.vars.set a ((μ.vars.getD a []).set pre.length { v with factor := some (b, k) })
          facs := μ.facs.set b ((μ.facs.getD b []).set k { f with outcomes := c.1, columns := v.outcomes.length }) } :
          Memory α) = μ1
      have w1 : ∀ d, d ≠ a → μ1.vars.getD d [] = μ.vars.getD d [] := by
        intro d hd
        rw [← hμ]
        simp [List.getD, List.getElem?_set_ne (Ne.symm hd)]
      have w2 : ∀ d, d ≠ b → μ1.facs.getD d [] = μ.facs.getD d [] := by
        intro d hd
        rw [← hμ]
        simp [List.getD, List.getElem?_set_ne (Ne.symm hd)]
      have w3 : μ1.tabs = μ.tabs := by rw [← hμ]
      have w4 : μ1.vars.length = μ.vars.length := by rw [← hμ]; simp
      have w5 : μ1.facs.length = μ.facs.length := by rw [← hμ]; simp
      have w6 : μ1.facs.getD b [] = (μ.facs.getD b []).set k { f with outcomes := c.1, columns := v.outcomes.length } := by
        rw [← hμ]
        dsimp only
        rw [List.getD, List.getElem?_set_self hb]
        rfl
      have w7 : μ1.vars.getD a [] = (pre ++ [{ v with factor := some (b, k) }]) ++ rest := by
        rw [← hμ]
        dsimp only
        rw [List.getD, List.getElem?_set_self ha, h1]
        simp
      have w8 : (μ1.facs.getD b []).map MFactor.table = (μ.facs.getD b []).map MFactor.table := by
        rw [w6, List.map_set]
        apply List.ext_getElem?
        intro j
        by_cases hj : k = j
        · subst hj
          rw [List.getElem?_set_self (by simpa using hk), List.getElem?_map, hf]
          rfl
        · rw [List.getElem?_set_ne hj]
      have w9 : (μ.readFactors b).set k { μ.readFactor f with outcomes := c.1, columns := v.outcomes.length } =
          μ1.readFactors b := by
        unfold Memory.readFactors
        rw [w6, List.map_set]
        have : μ1.readFactor = μ.readFactor := by
          funext g
          unfold Memory.readFactor
          rw [w3]
        rw [this]
        rfl
      by_cases hc : c.2 = true
      · rw [if_pos hc, if_pos hc, ok_bind]
        obtain ⟨k1, k2, k3, k4, k5, k6, k7⟩ := ih (pre ++ [{ v with factor := some (b, k) }]) μ1 (by omega) (by omega) w7
          (by
            intro w hw p hp
            simp only [List.append_assoc, List.mem_append, List.mem_cons, List.not_mem_nil, false_or, or_false] at hw
            rcases hw with hw | rfl | hw
            · exact h2 w (by simp [hw]) p hp
            · cases hp; rfl
            · exact h2 w (by simp [hw]) p hp)
        rw [show (pre ++ [({ v with factor := some (b, k) } : MVar)]).length = pre.length + 1 by simp]
          at k1 k2 k3 k4 k5 k6 k7
        refine ⟨fun d hd => (k1 d hd).trans (w1 d hd), fun d hd => (k2 d hd).trans (w2 d hd), k3.trans w3, k4.trans w4,
          k5.trans w5, k6.trans w8, ?_⟩
        change match (memLink all a b (pre.length + 1) rest.length μ1).1 with
          | .error e => (linkFactors all (rest.map MVar.read) ((μ.readFactors b).set k { μ.readFactor f with
              outcomes := c.1, columns := v.outcomes.length }) >>= _) = _
          | .ok _ => ∃ rest', _ ∧ _ ∧ (linkFactors all (rest.map MVar.read) ((μ.readFactors b).set k { μ.readFactor f with
              outcomes := c.1, columns := v.outcomes.length }) >>= _) = _
        rw [w9]
        cases hr : (memLink all a b (pre.length + 1) rest.length μ1).1 with
        | error e =>
          rw [hr] at k7
          dsimp only at k7 ⊢
          rw [k7]
          rfl
        | ok u =>
          rw [hr] at k7
          obtain ⟨rest', r1, r2, r3⟩ := k7
          exact ⟨{ v with factor := some (b, k) } :: rest', by rw [r1]; simp, by simpa using r2, by rw [r3]; rfl⟩
      · rw [if_neg hc, if_neg hc]
        exact ⟨w1, w2, w3, w4, w5, w8, rfl⟩

/-- What `prepareUtilityNodes` does in memory. -/
theorem memUtilityNodes_read (μ : Memory α) (all : List NVar) (b : Nat) : ∀ (l : List MVar) (i : Nat) (total : Option Nat),
    (∀ v ∈ l, ∀ p, v.factor = some p → p.1 = b) →
    utilityNodes all (μ.readFactors b) i (l.map MVar.read) total = memUtilityNodes μ all i l total := by
  intro l
  induction l with
  | nil => intro i total _; rfl
  | cons v l ih =>
    intro i total h
    have ih := fun i total => ih i total (fun w hw => h w (List.mem_cons_of_mem _ hw))
    rw [List.map_cons, utilityNodes, memUtilityNodes]
    simp only [ih]
    have hd : derefFactor (μ.readFactors b) v.read = (μ.deref v).map μ.readFactor := by
      unfold derefFactor Memory.deref
      cases hv : v.factor with
      | none =>
        have : v.read.factor = none := by simp [MVar.read, hv]
        rw [this]
        rfl
      | some p =>
        have : v.read.factor = some p.2 := by simp [MVar.read, hv]
        rw [this]
        dsimp only
        rw [h v List.mem_cons_self p hv]
        unfold goGet Memory.readFactors
        rw [List.getElem?_map]
        cases (μ.facs.getD b [])[p.2]? <;> rfl
    rw [hd]
    change (if v.nodeType ≠ .utility then _ else _) = _
    split
    · rfl
    · cases μ.deref v with
      | error e => rfl
      | ok f => rfl

/-- **C130, `New`.** In memory `New` accepts and rejects the same as in the model in which each network has variables
and factors of its own, and the network it returns is, as long as nobody writes to the slices, the one there. The
variables must not point to the factors of another network (as they do after another call with the same variables and
other factors). -/
theorem C130_new_partial (name info : String) {a b : Nat} {μ : Memory α} (h : μ.Own a b) :
    match memNew name info a b μ with
    | (.error e, _) => newNet name info (μ.readVars a) (μ.readFactors b) = .error e
    | (.ok m, μ') => newNet name info (μ.readVars a) (μ.readFactors b) = .ok (μ'.net m) ∧ m.vars = a ∧ m.facs = b ∧
        μ'.Own a b := by
  unfold memNew newNet
  cases checkNames [] (μ.readVars a) with
  | error e => rfl
  | ok u =>
    rw [ok_bind]
    dsimp only
    obtain ⟨_, _, k3, k4, k5, k6, k7⟩ := memLink_read (μ.readVars a) a b (μ.vars.getD a []) [] μ h.vars h.facs rfl
      (by simpa using h.pointers)
    rw [List.length_nil] at k3 k4 k5 k6 k7
    have hl : (μ.readVars a).length = (μ.vars.getD a []).length := by simp [Memory.readVars]
    rw [hl]
    generalize memLink (μ.readVars a) a b 0 (μ.vars.getD a []).length μ = r at k3 k4 k5 k6 k7 ⊢
    obtain ⟨r, μ'⟩ := r
    dsimp only at k3 k4 k5 k6 k7
    cases r with
    | error e =>
      have k7 : linkFactors (μ.readVars a) (μ.readVars a) (μ.readFactors b) = .error e := k7
      dsimp only
      rw [k7]
      rfl
    | ok u =>
      obtain ⟨rest', r1, r2, r3⟩ := k7
      have r3 : linkFactors (μ.readVars a) (μ.readVars a) (μ.readFactors b) = _ := r3
      rw [List.nil_append] at r1 r2
      rw [r3, ok_bind]
      dsimp only
      have hu := memUtilityNodes_read μ' (μ'.readVars a) b rest' 0 none r2
      have hv : μ'.readVars a = rest'.map MVar.read := by unfold Memory.readVars; rw [r1]
      rw [hv] at hu ⊢
      rw [hu, r1]
      cases memUtilityNodes μ' (rest'.map MVar.read) 0 rest' none with
      | error e => rfl
      | ok total =>
        refine ⟨?_, rfl, rfl, ?_⟩
        · rw [ok_bind]
          change Except.ok _ = Except.ok _
          simp only [Memory.net, hv]
        · have tables : ∀ (j : Nat) f, (μ'.facs.getD b [])[j]? = some f → ∃ g, (μ.facs.getD b [])[j]? = some g ∧
              g.table = f.table := by
            intro j f hf
            have := congrArg (fun l => l[j]?) k6
            simp only [List.getElem?_map] at this
            rw [hf] at this
            cases hg : (μ.facs.getD b [])[j]? with
            | none => rw [hg] at this; cases this
            | some g =>
              rw [hg] at this
              exact ⟨g, rfl, (Option.some.inj this).symm⟩
          constructor
          · rw [k4]; exact h.vars
          · rw [k5]; exact h.facs
          · rw [r1]; exact r2
          · intro f hf k hk
            obtain ⟨j, hj, e⟩ := List.getElem_of_mem hf
            obtain ⟨g, g1, g2⟩ := tables j f (by rw [List.getElem?_eq_getElem hj, e])
            rw [k3]
            exact h.exist g (List.mem_of_getElem? g1) k (g2.trans hk)
          · intro i j f g k hf hg fk gk
            obtain ⟨f', f1, f2⟩ := tables i f hf
            obtain ⟨g', g1, g2⟩ := tables j g hg
            exact h.distinct i j f' g' k f1 g1 (f2.trans fk) (g2.trans gk)

/-- **C130, `New` and other networks.** `New` does not change networks that were made from other slices, also if it
fails. -/
theorem C130_new_others_partial (name info : String) {a b : Nat} {μ : Memory α} (h : μ.Own a b) {m : MNet α}
    (hv : m.vars ≠ a) (hf : m.facs ≠ b) : (memNew name info a b μ).2.net m = μ.net m := by
  unfold memNew
  cases checkNames [] (μ.readVars a) with
  | error e => rfl
  | ok u =>
    dsimp only
    obtain ⟨k1, k2, k3, _⟩ := memLink_read (μ.readVars a) a b (μ.vars.getD a []) [] μ h.vars h.facs rfl
      (by simpa using h.pointers)
    rw [List.length_nil] at k1 k2 k3
    have hl : (μ.readVars a).length = (μ.vars.getD a []).length := by simp [Memory.readVars]
    rw [hl]
    generalize memLink (μ.readVars a) a b 0 (μ.vars.getD a []).length μ = r at k1 k2 k3 ⊢
    obtain ⟨r, μ'⟩ := r
    dsimp only at k1 k2 k3
    have key : μ'.net m = μ.net m := by
      have : μ'.readFactor = μ.readFactor := by
        funext g
        unfold Memory.readFactor
        rw [k3]
      simp only [Memory.net, Memory.readVars, Memory.readFactors, k1 _ hv, k2 _ hf, this]
    cases r with
    | error e => exact key
    | ok u =>
      dsimp only
      split <;> exact key

namespace Ex

/-- A coin and a second coin, whose chances depend on the first: two arrays of variables, two of factors. The first of
each is for the network of two coins; the others are for one coin. `shared` is the table of the one coin: with 0 it is
the array that the first network has, too. -/
def coins (shared : Nat) : Memory ℚ where
  vars := [[⟨"A", .chance, ["heads", "tails"], (0, 0), "", none⟩, ⟨"B", .chance, ["heads", "tails"], (0, 0), "", none⟩],
    [⟨"A", .chance, ["heads", "tails"], (0, 0), "", none⟩]]
  facs := [[⟨"A", [], some 0, [], 0⟩, ⟨"B", ["A"], some 1, [], 0⟩], [⟨"A", [], some shared, [], 0⟩]]
  tabs := [[1/2, 1/2], [1/2, 1/2, 1/4, 3/4], [1/2, 1/2]]

theorem coins_own (shared : Nat) (h : shared < 3) : (coins shared).Own 0 0 ∧ (coins shared).Own 1 1 := by
  constructor
  · constructor
    · exact (by decide : 0 < 2)
    · exact (by decide : 0 < 2)
    · intro v hv p hp
      simp only [coins, List.getD, List.getElem?_cons_zero, Option.getD_some, List.mem_cons, List.not_mem_nil,
        or_false] at hv
      rcases hv with rfl | rfl <;> cases hp
    · intro f hf k hk
      simp only [coins, List.getD, List.getElem?_cons_zero, Option.getD_some, List.mem_cons, List.not_mem_nil,
        or_false] at hf
      rcases hf with rfl | rfl <;> cases hk
      · exact (by decide : 0 < 3)
      · exact (by decide : 1 < 3)
    · intro i j f g k hf hg fk gk
      match i, j with
      | 0, 0 => rfl
      | 0, 1 => cases hf; cases hg; cases fk; cases gk
      | 1, 0 => cases hf; cases hg; cases fk; cases gk
      | 1, 1 => rfl
      | i + 2, _ => cases hf
      | _, j + 2 => cases hg
  · constructor
    · exact (by decide : 1 < 2)
    · exact (by decide : 1 < 2)
    · intro v hv p hp
      simp only [coins, List.getD, List.getElem?_cons_succ, List.getElem?_cons_zero, Option.getD_some, List.mem_cons,
        List.not_mem_nil, or_false] at hv
      subst hv
      cases hp
    · intro f hf k hk
      simp only [coins, List.getD, List.getElem?_cons_succ, List.getElem?_cons_zero, Option.getD_some, List.mem_cons,
        List.not_mem_nil, or_false] at hf
      subst hf
      cases hk
      exact h
    · intro i j f g k hf hg fk gk
      match i, j with
      | 0, 0 => rfl
      | i + 1, _ => cases hf
      | _, j + 1 => cases hg

/-- Trains a network with samples. -/
def train (m : MNet ℚ) (samples : List (List Int)) (μ : Memory ℚ) : Except Fault (Memory ℚ × Option String) := do
  let t ← newTrainer (μ.net m)
  let t ← samples.foldlM (fun t s => addSample (μ.net m) t ⟨s, none⟩) t
  memUpdate t m μ

end Ex

theorem answer_of {r : Except Fault (List (String × List ℚ) × Factor ℚ) × Net ℚ} {l : List (String × List ℚ)}
    (h : r.1.toOption.map Prod.fst = some l) : ∃ f n, r = (.ok (l, f), n) := by
  obtain ⟨r, n⟩ := r
  cases r with
  | error e => cases h
  | ok r => exact ⟨r.2, n, Prod.ext (congrArg Except.ok (Prod.ext (Option.some.inj h) rfl)) rfl⟩

/-- **C130, refuted, tables.** A network of one coin and a network of two coins, each made by `New` from variables and
factors of its own, but with the same slice of numbers as the table of the first coin. The network of one coin is
trained (heads, heads, tails). The other one, which was not trained, answers 2/3 instead of 1/2 then. -/
theorem C130_table_refuted : ∃ (μ0 μ μ' : Memory ℚ) (one two : MNet ℚ),
    memNew "two" "" 0 0 (Ex.coins 0) = (.ok two, μ0) ∧ memNew "one" "" 1 1 μ0 = (.ok one, μ) ∧
    Ex.train one [[0], [0], [1]] μ = .ok (μ', none) ∧
    (∃ f n, (μ.net two).solveQuery (Ex.norder false) [] ["A"] false = (.ok ([("A", [1/2, 1/2])], f), n)) ∧
    ∃ f n, (μ'.net two).solveQuery (Ex.norder false) [] ["A"] false = (.ok ([("A", [2/3, 1/3])], f), n) := by
  let two : MNet ℚ := ⟨"two", "", 0, 0, [], none, [], none⟩
  let one : MNet ℚ := ⟨"one", "", 1, 1, [], none, [], none⟩
  let μ0 := (memNew "two" "" 0 0 (Ex.coins 0)).2
  let μ := (memNew "one" "" 1 1 μ0).2
  let μ' : Memory ℚ := { μ with tabs := [[2/3, 1/3], [1/2, 1/2, 1/4, 3/4], [1/2, 1/2]] }
  refine ⟨μ0, μ, μ', one, two, rfl, rfl, ?_, answer_of ?_, answer_of ?_⟩
  · have h1 : (Ex.train one [[0], [0], [1]] μ).toOption = some (μ', none) := by decide +kernel
    cases h : Ex.train one [[0], [0], [1]] μ with
    | error e => rw [h] at h1; cases h1
    | ok r => rw [h] at h1; exact congrArg Except.ok (Option.some.inj h1)
  · decide +kernel
  · decide +kernel

/-- With a table of its own (`coins 2`), the other network is as before, and trained in turn both end up as if they were
trained alone. -/
example {ops : List (Nat × Trainer ℚ)} {μ' : Memory ℚ} (one two : MNet ℚ) (h1 : one.vars = 1 ∧ one.facs = 1)
    (h2 : two.vars = 0 ∧ two.facs = 0) (h : memUpdates [two, one] ops (Ex.coins 2) = .ok μ') :
    updates ((ops.filter (fun o => o.1 = 0)).map Prod.snd) ((Ex.coins 2).net two) = .ok (μ'.net two) := by
  obtain ⟨a1, a2⟩ := h1
  obtain ⟨b1, b2⟩ := h2
  have hs : (Ex.coins 2).Separate two one := by
    constructor
    · rw [a1, b1]; decide
    · rw [a2, b2]; decide
    · rw [a2, b2]
      decide
  have hs' : (Ex.coins 2).Separate one two := by
    constructor
    · rw [a1, b1]; decide
    · rw [a2, b2]; decide
    · rw [a2, b2]
      decide
  refine C130_in_turn_partial ops ?_ ?_ h 0 two rfl
  · intro m hm
    simp only [List.mem_cons, List.not_mem_nil, or_false] at hm
    rcases hm with rfl | rfl
    · rw [b1, b2]; exact (Ex.coins_own 2 (by decide)).1
    · rw [a1, a2]; exact (Ex.coins_own 2 (by decide)).2
  · intro i j mi mj hij hi hj
    match i, j with
    | 0, 0 => exact absurd rfl hij
    | 0, 1 => cases hi; cases hj; exact hs
    | 1, 0 => cases hi; cases hj; exact hs'
    | 1, 1 => exact absurd rfl hij
    | i + 2, _ => cases hi
    | _, j + 2 => cases hj

/-- The call `New` for the two coins succeeds. -/
example : ∃ m μ', memNew "two" "" 0 0 (Ex.coins 2) = (.ok m, μ') ∧
    newNet "two" "" ((Ex.coins 2).readVars 0) ((Ex.coins 2).readFactors 0) = .ok (μ'.net m) :=
  ⟨_, _, rfl, (C130_new_partial "two" "" (Ex.coins_own 2 (by decide)).1).1⟩

namespace Ex

/-- One array of factors, and two arrays of variables: in the second one, B has three outcomes. -/
def threeSided : Memory ℚ where
  vars := [[⟨"A", .chance, ["heads", "tails"], (0, 0), "", none⟩, ⟨"B", .chance, ["heads", "tails"], (0, 0), "", none⟩],
    [⟨"A", .chance, ["heads", "tails"], (0, 0), "", none⟩,
      ⟨"B", .chance, ["heads", "tails", "side"], (0, 0), "", none⟩]]
  facs := [[⟨"A", [], some 0, [], 0⟩, ⟨"B", ["A"], some 1, [], 0⟩]]
  tabs := [[1/2, 1/2], [1/2, 1/2, 1/4, 3/4]]

/-- Two coins with the same array as their tables. -/
def twins : Memory ℚ where
  vars := [[⟨"A", .chance, ["heads", "tails"], (0, 0), "", none⟩, ⟨"B", .chance, ["heads", "tails"], (0, 0), "", none⟩]]
  facs := [[⟨"A", [], some 0, [], 0⟩, ⟨"B", [], some 0, [], 0⟩]]
  tabs := [[1/2, 1/2]]

end Ex

/-- **C130, refuted, factors.** Two networks made by `New` from the same factors and different variables: the second call
changes the first network, whose `Row` for `B` then has three numbers, although `B` has two outcomes in it. -/
theorem C130_factors_refuted : ∃ (μ1 μ2 : Memory ℚ) (m1 m2 : MNet ℚ) (f1 f2 : NFactor ℚ),
    memNew "first" "" 0 0 Ex.threeSided = (.ok m1, μ1) ∧ memNew "second" "" 1 0 μ1 = (.ok m2, μ2) ∧
    (μ1.net m1).factors[1]? = some f1 ∧ f1.row [0] = .ok (some [1/2, 1/2]) ∧
    (μ2.net m1).factors[1]? = some f2 ∧ f2.row [0] = .ok (some [1/2, 1/2, 1/4]) :=
  ⟨_, _, _, _, _, _, rfl, rfl, rfl, rfl, rfl, rfl⟩

/-- **C130, refuted, one network.** One network with the same slice as the table of two coins, trained with samples in
which the first coin shows heads and the second tails: both are certain to show tails then. -/
theorem C130_twins_refuted : ∃ (μ μ' : Memory ℚ) (m : MNet ℚ), memNew "twins" "" 0 0 Ex.twins = (.ok m, μ) ∧
    Ex.train m [[0, 1], [0, 1]] μ = .ok (μ', none) ∧
    ∃ f n, (μ'.net m).solveQuery (Ex.norder false) [] ["A"] false = (.ok ([("A", [0, 1])], f), n) := by
  let m : MNet ℚ := ⟨"twins", "", 0, 0, [], none, [], none⟩
  let μ := (memNew "twins" "" 0 0 Ex.twins).2
  let μ' : Memory ℚ := { μ with tabs := [[0, 1]] }
  refine ⟨μ, μ', m, rfl, ?_, answer_of ?_⟩
  · have h1 : (Ex.train m [[0, 1], [0, 1]] μ).toOption = some (μ', none) := by decide +kernel
    cases h : Ex.train m [[0, 1], [0, 1]] μ with
    | error e => rw [h] at h1; cases h1
    | ok r => rw [h] at h1; exact congrArg Except.ok (Option.some.inj h1)
  · decide +kernel

end Bbn
