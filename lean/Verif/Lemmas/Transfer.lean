import Verif.Model.Network

/-!
# Results carry over along embeddings of number types

If `φ : K → β` keeps 0, 1, sums, products and quotients by divisors other than 0, then all calls of the solver give over
`β` the images of what they give over `K`, as long as the code divides by no 0 (which it checks in `NormalizeFor`).
-/

set_option autoImplicit false

namespace Bbn

/-- Two results correspond: both are values that correspond, or both the same fault. -/
def ERel {A B : Type} (R : A → B → Prop) : Except Fault A → Except Fault B → Prop
  | .ok a, .ok b => R a b
  | .error e, .error e' => e = e'
  | _, _ => False

theorem ERel.bind {A B A' B' : Type} {R : A → B → Prop} {S : A' → B' → Prop} {x : Except Fault A} {y : Except Fault B}
    {f : A → Except Fault A'} {g : B → Except Fault B'} (h : ERel R x y)
    (k : ∀ a b, R a b → ERel S (f a) (g b)) : ERel S (x >>= f) (y >>= g) := by
  cases x with
  | error e =>
    cases y with
    | error e' => exact h
    | ok b => exact h.elim
  | ok a =>
    cases y with
    | error e' => exact h.elim
    | ok b => exact k a b h

/-- The same, where the first result is known. -/
theorem ERel.bind_ok {A B A' B' : Type} {R : A → B → Prop} {S : A' → B' → Prop} {x : Except Fault A}
    {y : Except Fault B} {f : A → Except Fault A'} {g : B → Except Fault B'} (h : ERel R x y)
    (k : ∀ a b, x = .ok a → R a b → ERel S (f a) (g b)) : ERel S (x >>= f) (y >>= g) := by
  cases x with
  | error e =>
    cases y with
    | error e' => exact h
    | ok b => exact h.elim
  | ok a =>
    cases y with
    | error e' => exact h.elim
    | ok b => exact k a b rfl h

theorem ok_inv {A B : Type} {x : Except Fault A} {f : A → Except Fault B} {c : B} (h : (x >>= f) = .ok c) :
    ∃ b, x = .ok b ∧ f b = .ok c := by
  cases x with
  | error e => cases h
  | ok b => exact ⟨b, rfl, h⟩

theorem ERel.pure {A B : Type} {R : A → B → Prop} {a : A} {b : B} (h : R a b) :
    ERel R (Pure.pure a : Except Fault A) (Pure.pure b) := h

theorem ERel.ok {A B : Type} {R : A → B → Prop} {a : A} {b : B} (h : R a b) :
    ERel R (.ok a : Except Fault A) (.ok b) := h

theorem ERel.err {A B : Type} {R : A → B → Prop} {e : Fault} :
    ERel R (.error e : Except Fault A) (.error e : Except Fault B) := rfl

theorem ERel.refl {A : Type} (x : Except Fault A) : ERel (fun a b => b = a) x x := by
  cases x with
  | error e => exact rfl
  | ok a => exact rfl

theorem ERel.mono {A B : Type} {R S : A → B → Prop} {x : Except Fault A} {y : Except Fault B} (h : ERel R x y)
    (k : ∀ a b, R a b → S a b) : ERel S x y := by
  cases x with
  | error e =>
    cases y with
    | error e' => exact h
    | ok b => exact h.elim
  | ok a =>
    cases y with
    | error e' => exact h.elim
    | ok b => exact k a b h

theorem ERel.ite {A B : Type} {R : A → B → Prop} {c c' : Prop} [Decidable c] [Decidable c'] (e : c' ↔ c)
    {x x' : Except Fault A} {y y' : Except Fault B} (h : ERel R x y) (h' : ERel R x' y') :
    ERel R (if c then x else x') (if c' then y else y') := by
  by_cases hc : c
  · rw [if_pos hc, if_pos (e.2 hc)]; exact h
  · rw [if_neg hc, if_neg (fun k => hc (e.1 k))]; exact h'

theorem ERel.eq_map {A B : Type} {g : A → B} {x : Except Fault A} {y : Except Fault B}
    (h : ERel (fun a b => b = g a) x y) : y = x.map g := by
  cases x with
  | error e =>
    cases y with
    | error e' => exact congrArg _ (Eq.symm h)
    | ok b => exact h.elim
  | ok a =>
    cases y with
    | error e' => exact h.elim
    | ok b => exact congrArg _ h

theorem ERel.mapM {A B C D : Type} {g : A → B} {r : C → D} {f : A → Except Fault C} {f' : B → Except Fault D}
    (h : ∀ a, ERel (fun c d => d = r c) (f a) (f' (g a))) : ∀ l : List A,
    ERel (fun c d => d = c.map r) (l.mapM f) ((l.map g).mapM f') := by
  intro l
  induction l with
  | nil => exact ERel.pure rfl
  | cons a l ih =>
    rw [List.map_cons, List.mapM_cons, List.mapM_cons]
    refine ERel.bind (h a) ?_
    rintro c _ rfl
    refine ERel.bind ih ?_
    rintro cs _ rfl
    exact ERel.pure rfl

theorem ERel.mapM_same {A C D : Type} {r : C → D} {f : A → Except Fault C} {f' : A → Except Fault D}
    (h : ∀ a, ERel (fun c d => d = r c) (f a) (f' a)) (l : List A) :
    ERel (fun c d => d = c.map r) (l.mapM f) (l.mapM f') := by
  have := ERel.mapM (g := id) h l
  rwa [List.map_id] at this

theorem ERel.foldlM {A B S T : Type} {g : A → B} {r : S → T} {f : S → A → Except Fault S} {f' : T → B → Except Fault T}
    (h : ∀ s a, ERel (fun c d => d = r c) (f s a) (f' (r s) (g a))) : ∀ (l : List A) (s : S),
    ERel (fun c d => d = r c) (l.foldlM f s) ((l.map g).foldlM f' (r s)) := by
  intro l
  induction l with
  | nil => intro s; exact ERel.pure rfl
  | cons a l ih =>
    intro s
    rw [List.map_cons, List.foldlM_cons, List.foldlM_cons]
    refine ERel.bind (h s a) ?_
    rintro c _ rfl
    exact ih c

theorem ERel.foldlM_mem {A B S T : Type} {g : A → B} {r : S → T} {f : S → A → Except Fault S}
    {f' : T → B → Except Fault T} : ∀ (l : List A), (∀ s, ∀ a ∈ l, ERel (fun c d => d = r c) (f s a) (f' (r s) (g a))) →
    ∀ s : S, ERel (fun c d => d = r c) (l.foldlM f s) ((l.map g).foldlM f' (r s)) := by
  intro l
  induction l with
  | nil => intro _ s; exact ERel.pure rfl
  | cons a l ih =>
    intro h s
    rw [List.map_cons, List.foldlM_cons, List.foldlM_cons]
    refine ERel.bind (h s a List.mem_cons_self) ?_
    rintro c _ rfl
    exact ih (fun s b hb => h s b (List.mem_cons_of_mem _ hb)) c

theorem ERel.foldlM_same {A S T : Type} {r : S → T} {f : S → A → Except Fault S} {f' : T → A → Except Fault T}
    (h : ∀ s a, ERel (fun c d => d = r c) (f s a) (f' (r s) a)) (l : List A) (s : S) :
    ERel (fun c d => d = r c) (l.foldlM f s) (l.foldlM f' (r s)) := by
  have := ERel.foldlM (g := id) h l s
  rwa [List.map_id] at this

theorem ERel.goGet {A B : Type} (g : A → B) (l : List A) (i : Nat) :
    ERel (fun a b => b = g a) (goGet l i) (goGet (l.map g) i) := by
  unfold Bbn.goGet
  rw [List.getElem?_map]
  cases l[i]? with
  | none => exact ERel.err
  | some x => exact ERel.ok rfl

theorem ERel.goSet {A B : Type} (g : A → B) (l : List A) (i : Nat) (x : A) :
    ERel (fun a b => b = a.map g) (goSet l i x) (goSet (l.map g) i (g x)) := by
  unfold Bbn.goSet
  rw [List.length_map]
  split_ifs with h
  · exact ERel.ok List.map_set.symm
  · exact ERel.err

variable {K β : Type}

/-- The factor with its entries mapped. -/
def Factor.mapNum (φ : K → β) (f : Factor K) : Factor β := ⟨f.id, f.data.map φ, f.vars⟩

/-- The table with its entries mapped. -/
def NFactor.mapNum (φ : K → β) (f : NFactor K) : NFactor β :=
  ⟨f.forVar, f.given, f.table.map (List.map φ), f.outcomes, f.columns⟩

/-- The solver with all numbers mapped. -/
def VE.mapNum (φ : K → β) (s : VE K) : VE β :=
  ⟨s.vs, s.eliminated, s.deps, s.factors.map (Factor.mapNum φ), s.weights.map (List.map φ), s.tick, s.log⟩

/-- The network with all numbers mapped. -/
def Net.mapNum (φ : K → β) (n : Net K) : Net β :=
  ⟨n.name, n.info, n.variables, n.factors.map (NFactor.mapNum φ), n.policies.map (fun p => (p.1, p.2.mapNum φ)), n.vs,
    n.names, n.totalUtility⟩

/-- `φ` keeps the arithmetic of the solver; divisors are sums of numbers with the property `P`, and not 0. -/
structure Embeds [Zero K] [One K] [Add K] [Mul K] [Div K] [Zero β] [One β] [Add β] [Mul β] [Div β] (φ : K → β)
    (P : K → Prop) : Prop where
  zero : φ 0 = 0
  one : φ 1 = 1
  add : ∀ a b, φ (a + b) = φ a + φ b
  mul : ∀ a b, φ (a * b) = φ a * φ b
  div : ∀ a b, P b → b ≠ 0 → φ (a / b) = φ a / φ b
  eq_zero : ∀ x, P x → (φ x = 0 ↔ x = 0)
  pzero : P 0
  padd : ∀ a b, P a → P b → P (a + b)

/-- A factor pair, with the counter. -/
abbrev facPair (φ : K → β) (p : Factor K × Vs) : Factor β × Vs := (p.1.mapNum φ, p.2)

section

variable [Zero K] [One K] [Add K] [Mul K] [Div K] [Zero β] [One β] [Add β] [Mul β] [Div β] {φ : K → β} {P : K → Prop}

theorem createFactor_map (h : Embeds φ P) (s : Vs) (vars : List Var) (d : Option (List K)) :
    ERel (fun a b => b = facPair φ a) (s.createFactor vars d) (s.createFactor vars (d.map (List.map φ))) := by
  unfold Vs.createFactor
  cases d with
  | none =>
    refine ERel.ok ?_
    simp [facPair, Factor.mapNum, h.zero]
  | some d =>
    dsimp only [Option.map_some]
    rw [List.length_map]
    split_ifs
    · exact ERel.err
    · exact ERel.ok rfl

theorem createFactor_some (h : Embeds φ P) (s : Vs) (vars : List Var) (d : List K) :
    ERel (fun a b => b = facPair φ a) (s.createFactor vars (some d)) (s.createFactor vars (some (d.map φ))) :=
  createFactor_map h s vars (some d)

theorem createFactor_none (h : Embeds φ P) (s : Vs) (vars : List Var) :
    ERel (fun a b => b = facPair φ a) (s.createFactor vars (none : Option (List K)))
      (s.createFactor vars (none : Option (List β))) := createFactor_map h s vars none

omit [Zero K] [One K] [Add K] [Mul K] [Div K] [Zero β] [One β] [Add β] [Mul β] [Div β] in
theorem restrictLoop_map (φ : K → β) (vars newVars : List Var) (idx obs : Nat) : ∀ (xs : List K) (old : List Nat)
    (new : List K), ERel (fun a b => b = a.map φ) (restrictLoop vars newVars idx obs xs old new)
      (restrictLoop vars newVars idx obs (xs.map φ) old (new.map φ)) := by
  intro xs
  induction xs with
  | nil => intro old new; exact ERel.ok rfl
  | cons x xs ih =>
    intro old new
    rw [List.map_cons, restrictLoop, restrictLoop]
    refine ERel.bind (ERel.refl _) ?_
    rintro o _ rfl
    dsimp only
    split_ifs
    · refine ERel.bind (ERel.refl _) ?_
      rintro j _ rfl
      refine ERel.bind (ERel.goSet φ new _ x) ?_
      rintro new' _ rfl
      exact ih _ _
    · exact ih _ _

theorem restrict_map (h : Embeds φ P) (s : Vs) (f : Factor K) (v : Var) (obs : Int) :
    ERel (fun a b => b = facPair φ a) (s.restrict f v obs) (s.restrict (f.mapNum φ) v obs) := by
  unfold Vs.restrict
  split_ifs
  · exact ERel.err
  · dsimp only [Factor.mapNum]
    cases lastIdx v.id f.vars with
    | none => exact ERel.err
    | some idx =>
      dsimp only
      refine ERel.bind (createFactor_none h s _) ?_
      rintro a _ rfl
      refine ERel.bind (restrictLoop_map φ _ _ _ _ _ _ _) ?_
      rintro d _ rfl
      exact ERel.pure rfl

omit [Zero K] [One K] [Mul K] [Div K] [Zero β] [One β] [Mul β] [Div β] in
theorem sumOutLoop_map (hadd : ∀ a b, φ (a + b) = φ a + φ b) (vars newVars : List Var) (idx : Nat) : ∀ (xs : List K)
    (old : List Nat) (new : List K), ERel (fun a b => b = a.map φ) (sumOutLoop vars newVars idx xs old new)
      (sumOutLoop vars newVars idx (xs.map φ) old (new.map φ)) := by
  intro xs
  induction xs with
  | nil => intro old new; exact ERel.ok rfl
  | cons x xs ih =>
    intro old new
    rw [List.map_cons, sumOutLoop, sumOutLoop]
    refine ERel.bind (ERel.refl _) ?_
    rintro j _ rfl
    refine ERel.bind (ERel.goGet φ new _) ?_
    rintro cur _ rfl
    rw [← hadd]
    refine ERel.bind (ERel.goSet φ new _ _) ?_
    rintro new' _ rfl
    exact ih _ _

theorem sumOut_map (h : Embeds φ P) (s : Vs) (f : Factor K) (v : Var) :
    ERel (fun a b => b = facPair φ a) (s.sumOut f v) (s.sumOut (f.mapNum φ) v) := by
  unfold Vs.sumOut
  dsimp only [Factor.mapNum]
  cases lastIdx v.id f.vars with
  | none => exact ERel.err
  | some idx =>
    dsimp only
    refine ERel.bind (createFactor_none h s _) ?_
    rintro a _ rfl
    refine ERel.bind (sumOutLoop_map h.add _ _ _ _ _ _) ?_
    rintro d _ rfl
    exact ERel.pure rfl

omit [Zero K] [One K] [Add K] [Mul K] [Div K] [Zero β] [One β] [Add β] [Mul β] [Div β] in
theorem getN_map (φ : K → β) (f : Factor K) (is : List Nat) :
    ERel (fun a b => b = φ a) (f.getN is) ((f.mapNum φ).getN is) := by
  unfold Factor.getN
  refine ERel.bind (ERel.refl _) ?_
  rintro idx _ rfl
  exact ERel.goGet φ _ _

omit [Zero K] [One K] [Add K] [Mul K] [Div K] [Zero β] [One β] [Add β] [Mul β] [Div β] in
theorem odoBuild_map (φ : K → β) (vars : List Var) {g : List Nat → Except Fault K} {g' : List Nat → Except Fault β}
    (h : ∀ i, ERel (fun a b => b = φ a) (g i) (g' i)) : ∀ (k : Nat) (idx : List Nat),
    ERel (fun a b => b = a.map φ) (odoBuild vars g k idx) (odoBuild vars g' k idx) := by
  intro k
  induction k with
  | zero => intro idx; exact ERel.ok rfl
  | succ k ih =>
    intro idx
    rw [odoBuild, odoBuild]
    refine ERel.bind (h idx) ?_
    rintro x _ rfl
    refine ERel.bind (ih _) ?_
    rintro xs _ rfl
    exact ERel.pure rfl

theorem rearrange_map (h : Embeds φ P) (s : Vs) (f : Factor K) (vars : List Var) :
    ERel (fun a b => b = facPair φ a) (s.rearrange f vars) (s.rearrange (f.mapNum φ) vars) := by
  unfold Vs.rearrange
  refine ERel.ite Iff.rfl ERel.err ?_
  refine ERel.bind (ERel.refl _) ?_
  rintro indices _ rfl
  refine ERel.ite Iff.rfl (createFactor_some h _ _ _) ?_
  refine ERel.bind (createFactor_none h s _) ?_
  rintro a _ rfl
  dsimp only [facPair]
  rw [show (Factor.mapNum φ a.1).data.length = a.1.data.length from List.length_map ..]
  refine ERel.bind (odoBuild_map φ _ (fun i => getN_map φ f _) _ _) ?_
  rintro d _ rfl
  exact ERel.pure rfl

omit [Zero K] [One K] [Add K] [Div K] [Zero β] [One β] [Add β] [Div β] in
theorem productCell_map (hmul : ∀ a b, φ (a * b) = φ a * φ b) (new : List Nat) : ∀ (l : List (Factor K × List Nat))
    (acc : K), ERel (fun a b => b = φ a) (productCell new l acc)
      (productCell new (l.map (fun p => (p.1.mapNum φ, p.2))) (φ acc)) := by
  intro l
  induction l with
  | nil => intro acc; exact ERel.ok rfl
  | cons p l ih =>
    intro acc
    rw [List.map_cons, productCell, productCell]
    refine ERel.bind (ERel.refl _) ?_
    rintro oldIdx _ rfl
    refine ERel.bind (getN_map φ _ _) ?_
    rintro x _ rfl
    rw [← hmul]
    exact ih _

omit [Zero K] [One K] [Mul K] [Div K] [Zero β] [One β] [Mul β] [Div β] in
theorem sumCell_map (hadd : ∀ a b, φ (a + b) = φ a + φ b) (new : List Nat) : ∀ (l : List (Factor K × List Nat))
    (acc : K), ERel (fun a b => b = φ a) (sumCell new l acc)
      (sumCell new (l.map (fun p => (p.1.mapNum φ, p.2))) (φ acc)) := by
  intro l
  induction l with
  | nil => intro acc; exact ERel.ok rfl
  | cons p l ih =>
    intro acc
    rw [List.map_cons, sumCell, sumCell]
    refine ERel.bind (ERel.refl _) ?_
    rintro oldIdx _ rfl
    refine ERel.bind (getN_map φ _ _) ?_
    rintro x _ rfl
    rw [← hadd]
    exact ih _

omit [Zero K] [One K] [Add K] [Mul K] [Div K] [Zero β] [One β] [Add β] [Mul β] [Div β] in
theorem map_vars (φ : K → β) (fs : List (Factor K)) :
    (fs.map (Factor.mapNum φ)).map Factor.vars = fs.map Factor.vars := by
  rw [List.map_map]; rfl

omit [Zero K] [One K] [Add K] [Mul K] [Div K] [Zero β] [One β] [Add β] [Mul β] [Div β] in
theorem map_zip (φ : K → β) {M : Type} (fs : List (Factor K)) (ms : List M) :
    (fs.map (Factor.mapNum φ)).zip ms = (fs.zip ms).map (fun p => (p.1.mapNum φ, p.2)) := by
  rw [List.zip_map_left]; rfl

theorem product_map (h : Embeds φ P) (s : Vs) (fs : List (Factor K)) :
    ERel (fun a b => b = facPair φ a) (s.product fs) (s.product (fs.map (Factor.mapNum φ))) := by
  have main : ∀ fs : List (Factor K), ERel (fun a b => b = facPair φ a)
      (do let (fNew, s) ← s.createFactor (mergeAll [] (fs.map Factor.vars)).1 (none : Option (List K))
          let d ← odoBuild (mergeAll [] (fs.map Factor.vars)).1
            (fun new => productCell new (fs.zip (mergeAll [] (fs.map Factor.vars)).2) 1)
            fNew.data.length (List.replicate (mergeAll [] (fs.map Factor.vars)).1.length 0)
          return (({ fNew with data := d } : Factor K), s))
      (do let (fNew, s) ← s.createFactor (mergeAll [] ((fs.map (Factor.mapNum φ)).map Factor.vars)).1
            (none : Option (List β))
          let d ← odoBuild (mergeAll [] ((fs.map (Factor.mapNum φ)).map Factor.vars)).1
            (fun new => productCell new ((fs.map (Factor.mapNum φ)).zip
              (mergeAll [] ((fs.map (Factor.mapNum φ)).map Factor.vars)).2) 1)
            fNew.data.length (List.replicate (mergeAll [] ((fs.map (Factor.mapNum φ)).map Factor.vars)).1.length 0)
          return (({ fNew with data := d } : Factor β), s)) := by
    intro fs
    rw [map_vars, map_zip]
    refine ERel.bind (createFactor_none h s _) ?_
    rintro a _ rfl
    dsimp only [facPair, Factor.mapNum]
    rw [List.length_map]
    refine ERel.bind (odoBuild_map φ _ (fun i => ?_) _ _) ?_
    · have := productCell_map h.mul i (fs.zip (mergeAll [] (fs.map Factor.vars)).2) 1
      rw [h.one] at this
      exact this
    · rintro d _ rfl
      exact ERel.pure rfl
  unfold Vs.product
  match fs with
  | [] => exact main []
  | [f] => exact createFactor_some h _ _ _
  | f :: g :: fs => exact main (f :: g :: fs)

theorem sum_map (h : Embeds φ P) (s : Vs) (fs : List (Factor K)) :
    ERel (fun a b => b = facPair φ a) (s.sum fs) (s.sum (fs.map (Factor.mapNum φ))) := by
  have main : ∀ fs : List (Factor K), ERel (fun a b => b = facPair φ a)
      (do let (fNew, s) ← s.createFactor (mergeAll [] (fs.map Factor.vars)).1 (none : Option (List K))
          let d ← odoBuild (mergeAll [] (fs.map Factor.vars)).1
            (fun new => sumCell new (fs.zip (mergeAll [] (fs.map Factor.vars)).2) 0)
            fNew.data.length (List.replicate (mergeAll [] (fs.map Factor.vars)).1.length 0)
          return (({ fNew with data := d } : Factor K), s))
      (do let (fNew, s) ← s.createFactor (mergeAll [] ((fs.map (Factor.mapNum φ)).map Factor.vars)).1
            (none : Option (List β))
          let d ← odoBuild (mergeAll [] ((fs.map (Factor.mapNum φ)).map Factor.vars)).1
            (fun new => sumCell new ((fs.map (Factor.mapNum φ)).zip
              (mergeAll [] ((fs.map (Factor.mapNum φ)).map Factor.vars)).2) 0)
            fNew.data.length (List.replicate (mergeAll [] ((fs.map (Factor.mapNum φ)).map Factor.vars)).1.length 0)
          return (({ fNew with data := d } : Factor β), s)) := by
    intro fs
    rw [map_vars, map_zip]
    refine ERel.bind (createFactor_none h s _) ?_
    rintro a _ rfl
    dsimp only [facPair, Factor.mapNum]
    rw [List.length_map]
    refine ERel.bind (odoBuild_map φ _ (fun i => ?_) _ _) ?_
    · have := sumCell_map h.add i (fs.zip (mergeAll [] (fs.map Factor.vars)).2) 0
      rw [h.zero] at this
      exact this
    · rintro d _ rfl
      exact ERel.pure rfl
  unfold Vs.sum
  match fs with
  | [] => exact main []
  | [f] => exact createFactor_some h _ _ _
  | f :: g :: fs => exact main (f :: g :: fs)

omit [Zero K] [One K] [Mul K] [Div K] [Zero β] [One β] [Mul β] [Div β] in
theorem marginalLoop_map (hadd : ∀ a b, φ (a + b) = φ a + φ b) (vars : List Var) (idx : Nat) : ∀ (xs : List K)
    (old : List Nat) (new : List K), ERel (fun a b => b = a.map φ) (marginalLoop vars idx xs old new)
      (marginalLoop vars idx (xs.map φ) old (new.map φ)) := by
  intro xs
  induction xs with
  | nil => intro old new; exact ERel.ok rfl
  | cons x xs ih =>
    intro old new
    rw [List.map_cons, marginalLoop, marginalLoop]
    refine ERel.bind (ERel.refl _) ?_
    rintro j _ rfl
    refine ERel.bind (ERel.goGet φ new _) ?_
    rintro cur _ rfl
    rw [← hadd]
    refine ERel.bind (ERel.goSet φ new _ _) ?_
    rintro new' _ rfl
    exact ih _ _

theorem marginal_map (h : Embeds φ P) (s : Vs) (f : Factor K) (v : Var) :
    ERel (fun a b => b = facPair φ a) (s.marginal f v) (s.marginal (f.mapNum φ) v) := by
  unfold Vs.marginal
  dsimp only [Factor.mapNum]
  cases firstIdx v.id f.vars with
  | none => exact ERel.err
  | some idx =>
    dsimp only
    refine ERel.bind (createFactor_none h s _) ?_
    rintro a _ rfl
    refine ERel.bind (marginalLoop_map h.add _ _ _ _ _) ?_
    rintro d _ rfl
    exact ERel.pure rfl

theorem goSum_map (h : Embeds φ P) (l : List K) : goSum (l.map φ) = φ (goSum l) := by
  have : ∀ (l : List K) (a : K), (l.map φ).foldl (· + ·) (φ a) = φ (l.foldl (· + ·) a) := by
    intro l
    induction l with
    | nil => intro a; rfl
    | cons x l ih => intro a; rw [List.map_cons, List.foldl_cons, List.foldl_cons, ← h.add]; exact ih _
  unfold goSum
  rw [← h.zero]
  exact this l 0

theorem Embeds.goSum (h : Embeds φ P) (l : List K) (hl : ∀ x ∈ l, P x) : P (goSum l) := by
  have : ∀ (l : List K) (a : K), P a → (∀ x ∈ l, P x) → P (l.foldl (· + ·) a) := by
    intro l
    induction l with
    | nil => intro a ha _; exact ha
    | cons x l ih =>
      intro a ha hx
      rw [List.foldl_cons]
      exact ih _ (h.padd _ _ ha (hx x List.mem_cons_self)) (fun y hy => hx y (List.mem_cons_of_mem _ hy))
  exact this l 0 h.pzero hl

theorem normBin_map [DecidableEq K] [DecidableEq β] (h : Embeds φ P) (l : List K) (hl : ∀ x ∈ l, P x) :
    normBin (l.map φ) = (normBin l).map φ := by
  unfold normBin
  dsimp only
  rw [goSum_map h]
  have hP := h.goSum l hl
  by_cases h0 : goSum l = 0
  · rw [if_pos ((h.eq_zero _ hP).2 h0), if_pos h0]
  · rw [if_neg (fun e => h0 ((h.eq_zero _ hP).1 e)), if_neg h0, List.map_map, List.map_map]
    refine List.map_congr_left (fun x _ => (h.div x _ hP h0).symm)

theorem normBins_map [DecidableEq K] [DecidableEq β] (h : Embeds φ P) (k : Nat) : ∀ (m : Nat) (l : List K),
    (∀ x ∈ l, P x) → normBins k m (l.map φ) = (normBins k m l).map φ := by
  intro m
  induction m with
  | zero => intro l _; rfl
  | succ m ih =>
    intro l hl
    rw [normBins, normBins, ← List.map_take, ← List.map_drop, normBin_map h _ (fun x hx => hl x (List.mem_of_mem_take hx)),
      ih _ (fun x hx => hl x (List.mem_of_mem_drop hx)), List.map_append]

omit [Zero K] [One K] [Add K] [Mul K] [Div K] in
/-- Only entries of the factor are read. -/
theorem odoBuild_mem (vars : List Var) {g : List Nat → Except Fault K} {Q : K → Prop}
    (h : ∀ i x, g i = .ok x → Q x) : ∀ (k : Nat) (idx : List Nat) (d : List K), odoBuild vars g k idx = .ok d →
    ∀ x ∈ d, Q x := by
  intro k
  induction k with
  | zero =>
    intro idx d hd
    cases hd
    simp
  | succ k ih =>
    intro idx d hd
    rw [odoBuild] at hd
    obtain ⟨x, hx, hd⟩ := ok_inv hd
    obtain ⟨xs, hxs, hd⟩ := ok_inv hd
    cases hd
    intro y hy
    rcases List.mem_cons.1 hy with rfl | hy
    · exact h _ _ hx
    · exact ih _ _ hxs y hy

omit [Zero K] [One K] [Add K] [Mul K] [Div K] in
theorem goGet_mem {l : List K} {i : Nat} {x : K} (h : goGet l i = .ok x) : x ∈ l := by
  unfold Bbn.goGet at h
  cases e : l[i]? with
  | none => rw [e] at h; cases h
  | some y => rw [e] at h; cases h; exact List.mem_of_getElem? e

omit [Zero K] [One K] [Add K] [Mul K] [Div K] in
theorem getN_mem {f : Factor K} {is : List Nat} {x : K} (h : f.getN is = .ok x) : x ∈ f.data := by
  unfold Factor.getN at h
  obtain ⟨i, _, h⟩ := ok_inv h
  exact goGet_mem h

omit [One K] [Add K] [Mul K] [Div K] in
theorem rearrange_mem {s : Vs} {f : Factor K} {vars : List Var} {a : Factor K × Vs} (h : s.rearrange f vars = .ok a) :
    ∀ x ∈ a.1.data, x ∈ f.data := by
  unfold Vs.rearrange at h
  by_cases h1 : f.vars.length ≠ vars.length
  · rw [if_pos h1] at h; cases h
  rw [if_neg h1] at h
  obtain ⟨ind, _, h⟩ := ok_inv h
  by_cases h2 : vars.map Var.id = f.vars.map Var.id
  · rw [if_pos h2] at h
    unfold Vs.createFactor at h
    dsimp only at h
    split_ifs at h
    cases h
    exact fun x hx => hx
  · rw [if_neg h2] at h
    obtain ⟨b, _, h⟩ := ok_inv h
    obtain ⟨d, hd, h⟩ := ok_inv h
    cases h
    exact odoBuild_mem _ (Q := fun x => x ∈ f.data) (fun _ _ hx => getN_mem hx) _ _ _ hd

theorem normalizeFor_map [DecidableEq K] [DecidableEq β] (h : Embeds φ P) (s : Vs) (f : Factor K) (v : Var)
    (hf : ∀ x ∈ f.data, P x) :
    ERel (fun a b => b = facPair φ a) (s.normalizeFor f v) (s.normalizeFor (f.mapNum φ) v) := by
  unfold Vs.normalizeFor
  rw [show (f.mapNum φ).vars = f.vars from rfl]
  cases firstIdx v.id f.vars with
  | none => exact ERel.err
  | some idx =>
    dsimp only
    refine ERel.bind (ERel.refl _) ?_
    rintro w _ rfl
    refine ERel.bind_ok (rearrange_map h s f _) ?_
    rintro a _ ha rfl
    have hP : ∀ x ∈ a.1.data, P x := fun x hx => hf x (rearrange_mem ha x hx)
    split_ifs
    · exact ERel.err
    · refine ERel.pure ?_
      simp only [facPair, Factor.mapNum, List.length_map, normBins_map h _ _ _ hP]

end

end Bbn
