import Verif.Props.Commands
import Verif.Props.TrainQuery

/-!
# C133: training, storing and asking
-/

set_option autoImplicit false

namespace Bbn

open Finset

variable {α B : Type}

/-- A network with the content of a valid one, a table per variable and pointers to them is valid. -/
theorem SameNet.valid {n n' : Net α} (h : SameNet n n') (hv : n.Valid) (hnd : (n'.factors.map NFactor.forVar).Nodup)
    (hlink : ∀ v ∈ n'.variables, ∃ j f, v.factor = some j ∧ n'.factors[j]? = some f ∧ f.forVar = v.name) : n'.Valid := by
  have hmem : ∀ v ∈ n'.variables, ∃ u ∈ n.variables, u.name = v.name ∧ u.nodeType = v.nodeType ∧ u.outcomes = v.outcomes := by
    intro v hvm
    have : reloadedVar v ∈ n.variables.map reloadedVar := by rw [← h.strip]; exact List.mem_map_of_mem hvm
    obtain ⟨u, hu, e⟩ := List.mem_map.1 this
    simp only [reloadedVar, NVar.mk.injEq] at e
    exact ⟨u, hu, e.1, e.2.1, e.2.2.1⟩
  have hmem' : ∀ u ∈ n.variables, ∃ v ∈ n'.variables, u.name = v.name ∧ u.nodeType = v.nodeType ∧ u.outcomes = v.outcomes := by
    intro u hu
    have : reloadedVar u ∈ n'.variables.map reloadedVar := by rw [h.strip]; exact List.mem_map_of_mem hu
    obtain ⟨v, hvm, e⟩ := List.mem_map.1 this
    simp only [reloadedVar, NVar.mk.injEq] at e
    exact ⟨v, hvm, e.1.symm, e.2.1.symm, e.2.2.1.symm⟩
  have htab : ∀ f' ∈ n'.factors, ∃ f ∈ n.factors, f'.forVar = f.forVar ∧ f'.given = f.given ∧ f'.tab = f.tab := by
    intro f' hf'
    obtain ⟨v, hvm, e⟩ := h.noOther f' hf'
    obtain ⟨u, hu, e1, _⟩ := hmem v hvm
    obtain ⟨f, g, a1, a2, a3, a4⟩ := h.tables u hu
    obtain ⟨b1, b2⟩ := tableFor_forVar a1
    obtain ⟨c1, c2⟩ := tableFor_forVar a2
    have : g = f' := List.inj_on_of_nodup_map hnd c1 hf' (by rw [c2, e1, e])
    subst this
    exact ⟨f, b1, c2.trans b2.symm, a3, a4⟩
  have hnames : n'.variables.map NVar.name = n.variables.map NVar.name := by
    have := congrArg (List.map (fun v : String × NodeType × List String × (Int × Int) => v.1)) h.vars
    rwa [List.map_map, List.map_map] at this
  refine ⟨by rw [hnames]; exact hv.names, ?_, ?_, ?_, hnd, ?_, h.noOther, ?_, ?_, ?_, ?_, ?_⟩
  · intro v hvm; obtain ⟨u, hu, e, _⟩ := hmem v hvm; rw [← e]; exact hv.named u hu
  · rw [← List.length_map (f := NVar.name), hnames, List.length_map]; exact hv.few
  · intro v hvm; obtain ⟨u, hu, _, _, e⟩ := hmem v hvm; rw [← e]; exact hv.outcomes u hu
  · intro v hvm _
    obtain ⟨j, f, _, h2, h3⟩ := hlink v hvm
    exact ⟨f, List.mem_of_getElem? h2, h3⟩
  · intro f' hf'
    obtain ⟨f, hf, e1, e2, _⟩ := htab f' hf'
    unfold NFactor.dims
    rw [e1, e2]
    exact hv.dims f hf
  · intro f' hf' ht g hg
    obtain ⟨f, hf, e1, e2, _⟩ := htab f' hf'
    rw [e2] at hg
    obtain ⟨u, hu, e, hut⟩ := hv.parents f hf (by rw [← e1, ← h.totalName]; exact ht) g hg
    obtain ⟨v, hvm, a1, a2, _⟩ := hmem' u hu
    exact ⟨v, hvm, a1.symm.trans e, by rw [← a2]; exact hut⟩
  · intro f' hf' ht hk
    obtain ⟨f, hf, e1, e2, e3⟩ := htab f' hf'
    obtain ⟨t, ht1, ht2⟩ := hv.size f hf (by rw [← e1, ← h.totalName]; exact ht) (by rw [← e1, ← h.isKind]; exact hk)
    have e4 : f.tab = t := by unfold NFactor.tab; rw [ht1]; rfl
    have hl : f'.tab.length = (f'.dims.map n'.count).prod := by
      rw [e3, e4, ht2]
      unfold NFactor.dims
      rw [e1, e2, funext h.count]
    have hpos : (f'.dims.map n'.count).prod ≠ 0 := by
      rw [Ne, List.prod_eq_zero_iff]
      intro hm
      obtain ⟨g, hg, h0⟩ := List.mem_map.1 hm
      rw [h.count] at h0
      have : ∃ u ∈ n.variables, u.name = g := by
        unfold NFactor.dims at hg
        rcases List.mem_append.1 hg with hg | hg
        · rw [e2] at hg
          obtain ⟨u, hu, e, _⟩ := hv.parents f hf (by rw [← e1, ← h.totalName]; exact ht) g hg
          exact ⟨u, hu, e⟩
        · rw [List.mem_singleton] at hg
          obtain ⟨u, hu, e⟩ := hv.known f hf
          exact ⟨u, hu, by rw [hg, e1, e]⟩
      obtain ⟨u, hu, rfl⟩ := this
      rw [count_eq hv hu] at h0
      exact absurd h0 (Nat.pos_iff_ne_zero.1 (hv.outcomes u hu).1)
    cases hq : f'.table with
    | none =>
      unfold NFactor.tab at hl
      rw [hq] at hl
      exact absurd hl.symm hpos
    | some t' =>
      unfold NFactor.tab at hl
      rw [hq] at hl
      exact ⟨t', rfl, hl⟩
  · intro v hvm hu ht
    obtain ⟨u, hum, a1, a2, a3⟩ := hmem v hvm
    rw [← a3]
    exact hv.single u hum (a2.trans hu) (by rw [a1, ← h.totalName]; exact ht)
  · intro i hi
    rw [h.total] at hi
    obtain ⟨u, j, f, w1, w2, w3, w4, w5, w6, w7⟩ := hv.weights i hi
    have hs : (n'.variables.map reloadedVar)[i]? = some (reloadedVar u) := by rw [h.strip, List.getElem?_map, w1]; rfl
    rw [List.getElem?_map] at hs
    obtain ⟨v, hvi, e⟩ := Option.map_eq_some_iff.1 hs
    simp only [reloadedVar, NVar.mk.injEq] at e
    have hvm := List.mem_of_getElem? hvi
    obtain ⟨j', f', l1, l2, l3⟩ := hlink v hvm
    obtain ⟨g, hg, e1, e2, e3⟩ := htab f' (List.mem_of_getElem? l2)
    have : g = f := List.inj_on_of_nodup_map hv.tables hg (List.mem_of_getElem? w4) (by rw [← e1, l3, e.1, w5])
    subst this
    refine ⟨v, j', f', hvi, e.2.1.trans w2, l1, l2, l3, by rw [e2, e3]; exact w6, ?_⟩
    intro x hx hxu hxn
    obtain ⟨y, hy, a1, a2, _⟩ := hmem x hx
    rw [e2, ← a1]
    exact w7 y hy (a2.trans hxu) (by rw [a1, ← e.1]; exact hxn)

/-- Saving and loading a valid network: the loaded one is valid and ready. -/
theorem Net.Saveable.reload_valid [Zero α] [One α] {n : Net α} (h : n.Saveable) (hv : n.Valid) :
    ∃ y n', toYaml n = .ok y ∧ (∀ lower hp, fromYaml lower y hp = (.ok n', hp)) ∧ SameNet n n' ∧ n'.Valid ∧
      n'.policies = [] ∧ (∀ v ∈ n'.variables, v.color = "") ∧
      ∀ v ∈ n'.variables, ∃ j f, v.factor = some j ∧ n'.factors[j]? = some f ∧ f.forVar = v.name := by
  obtain ⟨y, n', h1, h2, h3, h4⟩ := h.reload
  have hb := C35_new_result n.name "" _ _ (by
    intro v hv'; obtain ⟨u, _, rfl⟩ := List.mem_map.1 hv'; rfl) h4
  have hf : n'.factors.map NFactor.forVar = n.variables.map NVar.name := by
    have e : ∀ l : List (NFactor α), l.map NFactor.forVar = (l.map NFactor.core).map NFactor.forVar := by
      intro l; rw [List.map_map]; rfl
    rw [e, hb.tables, ← e, List.map_map, List.map_map]
    rfl
  have hnd : (n'.factors.map NFactor.forVar).Nodup := by rw [hf]; exact hv.names
  have hlink : ∀ v ∈ n'.variables, ∃ j f, v.factor = some j ∧ n'.factors[j]? = some f ∧ f.forVar = v.name := by
    intro v hvm
    rw [hb.links] at hvm
    obtain ⟨u, hu, rfl⟩ := List.mem_map.1 hvm
    obtain ⟨x, hx, rfl⟩ := List.mem_map.1 hu
    have hidx : ∃ j, ((n.variables.map (fun v => { v with factor := none })).map (reloadedTable n.factors)).findIdx?
        (fun f => f.forVar = (reloadedVar x).name) = some j := by
      rw [← Option.isSome_iff_exists, List.findIdx?_isSome, List.any_eq_true]
      exact ⟨_, List.mem_map_of_mem hx, by simp [reloadedTable, reloadedVar]⟩
    obtain ⟨j, hj⟩ := hidx
    obtain ⟨hjl, hj1, _⟩ := List.findIdx?_eq_some_iff_getElem.1 hj
    have hlen : n'.factors.length = ((n.variables.map (fun v => { v with factor := none })).map (reloadedTable n.factors)).length := by
      have := congrArg List.length hb.tables
      simpa using this
    refine ⟨j, n'.factors[j]'(by rw [hlen]; exact hjl), ?_, List.getElem?_eq_getElem _, ?_⟩
    · unfold linked; rw [hj]
    · have := congrArg (fun l => l[j]?) hb.tables
      simp only [List.getElem?_map] at this
      rw [List.getElem?_eq_getElem (by rw [hlen]; exact hjl), List.getElem?_eq_getElem (by simpa using hjl)] at this
      simp only [Option.map_some, Option.some.injEq] at this
      have e := (core_parts this).1
      rw [linked_name]
      rw [List.getElem_map, List.getElem_map] at hj1
      simp only [decide_eq_true_eq] at hj1
      exact e.trans hj1
  refine ⟨y, n', h1, h2, h3, h3.valid hv hnd hlink, hb.policies, ?_, hlink⟩
  intro v hvm
  rw [hb.links] at hvm
  obtain ⟨u, hu, rfl⟩ := List.mem_map.1 hvm
  obtain ⟨x, _, rfl⟩ := List.mem_map.1 hu
  unfold linked; split <;> rfl

/-- The share of the outcome `o` of the variable `s` among the records that have the outcomes in `ev`. -/
def shareOf [Field α] (header : List String) (records : List (List String)) (ev : List (String × String)) (s o : String) : α :=
  (records.countP (fun r => (∀ e ∈ ev, csvCell header r e.1 = e.2) ∧ csvCell header r s = o) : α) /
    (records.countP (fun r => ∀ e ∈ ev, csvCell header r e.1 = e.2) : α)

/-- **C133.** A network of chance variables without cycles is trained with `bbn train` from a file without missing values,
and the output is stored in a file. If `bbn inference` is asked with evidence that has all the parents of a variable, but
neither the variable itself nor a descendant, and that some record agrees with, then the text it prints has, for this
variable, the shares of its outcomes among the records with these outcomes of the parents, in percent with three digits. -/
theorem C133_train_then_ask [Field α] [LinearOrder α] [IsStrictOrderedRing α] [FloorRing α] (lib : Lib α B)
    (hyaml : ∀ y, lib.yaml (lib.encode y) = some y) (disk : Disk B) (netFile dataFile noData delim : String) (h : LHeap α)
    {n0 : Net α} (hn0 : (fromFile lib disk netFile h).1 = .ok n0) (hv : n0.Valid) (ht : n0.Trainable) (ha : n0.Acyclic)
    (hch : ∀ v ∈ n0.variables, v.nodeType = .chance) (hnd : ∀ v ∈ n0.variables, v.outcomes.Nodup)
    {c : Char} (hdl : delim.toList = [c]) {header : List String} {records : List (List String)}
    (hcsv : CsvAt lib disk dataFile c header records)
    (complete : ∀ r ∈ records, ∀ v ∈ n0.variables, csvCell header r v.name ≠ noData) {b : B}
    (hb : trainCommand lib disk netFile dataFile noData delim h = .ok b)
    {disk' : Disk B} {path : String} (hd : disk' path = some b) {ext : String} (he : Extension path ext)
    (hx : lib.lower ext = ".yml")
    {fix : Option α → String} (hfix : ∀ x, fix (some x) = fixedText 0 x) (sch0 : NSched α) (sch : Nat → NSched α)
    (evidence : List String) (h' : LHeap α) {ev : List (String × String)} (hp : parseEvidence evidence = .ok ev)
    (hev : n0.EvidenceOK ev) {v : NVar} (hvm : v ∈ n0.variables) {f : NFactor α} (hf : f ∈ n0.factors)
    (hfv : f.forVar = v.name) (hpar : ∀ g ∈ f.given, g ∈ ev.map Prod.fst) (hself : v.name ∉ ev.map Prod.fst)
    (hdesc : ∀ e ∈ ev, ¬ n0.Below v.name e.1) (hseen : ∃ r ∈ records, ∀ e ∈ ev, csvCell header r e.1 = e.2) :
    ∃ lines : NVar → List String,
      inferenceCommand lib disk' fix sch0 sch path evidence h' = .ok (textOf (n0.variables.map lines).flatten) ∧
      lines v = [rightAligned 30 "" ++ String.join (v.outcomes.map (fun o => " " ++ rightAligned 10 o)),
        rightAligned 30 v.name ++ String.join (v.outcomes.map (fun o => " " ++
          fixedText 9 ((shareOf header records (ev.filter (fun e => e.1 ∈ f.given)) v.name o : α) * 100) ++ "%"))] := by
  -- the trained network
  obtain ⟨c', m, header', records', n1, y, h1, h2, h3, h4, h5, rfl⟩ := trainCommand_inv hb
  rw [hn0] at h2
  obtain rfl := Except.ok.inj h2
  rw [hdl] at h1
  obtain rfl : c = c' := by simpa using h1
  rw [csvAt_iff.2 hcsv] at h3
  obtain ⟨rfl, rfl⟩ : header = header' ∧ records = records' := by
    have := Except.ok.inj h3; exact ⟨congrArg Prod.fst this, congrArg Prod.snd this⟩
  have hsame := trainNetwork_same h4
  have hv1 : n1.variables = n0.variables := hsame.vars
  have hn1 := hsame.valid hv
  have hpol0 : n0.policies = [] := by
    obtain ⟨name, info, vars, fs, k1, k2⟩ := fromFile_new hn0
    exact (C35_new_result name info vars fs k1 k2).policies
  have hpol1 : n1.policies = [] := by rw [hsame.policies]; exact hpol0
  have good : ∀ P : Prop, (P → Errors (trainNetwork lib.cell n0 header records noData)) → ¬ P := by
    intro P hP hp
    obtain ⟨m, hm⟩ := hP hp
    rw [h4] at hm
    cases hm
  have herr := (C65_errors lib.cell ht header records noData).2
  have hcol : ∀ v ∈ n0.variables, v.name ∈ header := by
    intro v hv
    by_contra hno
    exact good (∃ v ∈ n0.variables, v.name ∉ header) (fun h => herr (.inl h)) ⟨v, hv, hno⟩
  have hno : ∀ v ∈ n0.variables, noData ∉ v.outcomes := by
    intro v hv hm
    exact good (∃ v ∈ n0.variables, noData ∈ v.outcomes) (fun h => herr (.inr (.inl h))) ⟨v, hv, hm⟩
  have hok : ∀ r ∈ records, CsvOK lib.cell n0 header noData r := by
    intro r hr
    by_contra hx
    exact good (∃ r ∈ records, ¬ CsvOK lib.cell n0 header noData r) (fun h => herr (.inr (.inr h))) ⟨r, hr, hx⟩
  have hstate : ∀ v ∈ n0.variables, v.nodeType ≠ .utility := fun v hv => by rw [hch v hv]; decide
  have htr := C65_partial lib.cell n0 header records noData hcol hno hnd hok
    (fun r _ v hv hk _ => absurd hk (hstate v hv))
  rw [h4] at htr
  obtain ⟨r, e1, e2⟩ := bind_inv htr.symm
  obtain ⟨t, e3, e4⟩ := trainOn_run e1
  have hr : r = (n1, none) := by
    obtain ⟨m, o⟩ := r
    unfold trainResult at e2
    cases o with
    | some e => cases e2
    | none => cases e2; rfl
  subst hr
  set calls := (records.map (csvSample lib.cell n0 header noData)).map TrainCall.add with hcalls
  have hsamp : samplesOf calls = records.map (csvSample lib.cell n0 header noData) := samplesOf_adds _
  have hsok : ∀ s ∈ samplesOf calls, s.OK n0 := by
    rw [hsamp]
    intro s hs
    obtain ⟨r, hr, rfl⟩ := List.mem_map.1 hs
    exact csvSample_ok ht.outcomes (hok r hr)
  have hknown : ∀ r ∈ records, ∀ u ∈ n0.variables, (csvSample lib.cell n0 header noData r).known n0 u.name =
      some (u.outcomes.idxOf (csvCell header r u.name)) := by
    intro r hr u hu
    rw [csvSample_known ht.names hu (hstate u hu), if_neg (complete r hr u hu)]
  have hscomp : ∀ s ∈ samplesOf calls, s.Complete n0 := by
    rw [hsamp]
    intro s hs
    obtain ⟨r, hr, rfl⟩ := List.mem_map.1 hs
    intro u hu
    rw [hknown r hr u (mem_stateVars.1 hu).1]
    exact Option.some_ne_none _
  have hsseen : ∃ s ∈ samplesOf calls, n0.Agrees ev (s.world n0) := by
    obtain ⟨r, hr, hre⟩ := hseen
    refine ⟨_, by rw [hsamp]; exact List.mem_map_of_mem hr, ?_⟩
    intro e he u hu hue
    unfold Sample.world
    rw [← hue, hknown r hr u hu, Option.getD_some, hue, hre e he]
  have hkind : n0.isKind .chance f.forVar = true := by rw [hfv, isKind_iff hv hvm]; exact hch v hvm
  have hfc : f ∈ n0.chanceTables := mem_chanceTables.2 ⟨hf, hkind⟩
  -- what it answers
  have hposs : n1.mass [] (n1.Agrees ev) ≠ 0 := trained_possible hv ht hsok hscomp e3 e4 hev hsseen
  have hev1 : n1.EvidenceOK ev := ⟨hev.keys, by rw [hv1]; exact hev.known⟩
  have hact : ∀ m : Net α, m.policies = [] → m.active ev false = [] := fun m hm => hm
  obtain ⟨d, fac, m, r1, r2, r3⟩ := C113_frequencies sch0 hv hpol0 ht ha hsok hscomp e3 e4 hev hfc hpar
    (by rw [hfv]; exact hself) (by rw [hfv]; exact hdesc) false hsseen
  have hfree : ∀ e ∈ ev, e.1 ≠ v.name := fun e he h => hself (h ▸ List.mem_map_of_mem he)
  obtain ⟨r', fac', m', q1, _, _, q4⟩ := C31_solveQuery_posterior sch0 hn1 (by constructor <;> simp [hpol1]) hev1
    (query := [f.forVar]) false
    ⟨fun q hq => ⟨v, mem_stateVars.2 ⟨by rw [hv1]; exact hvm, hstate v hvm⟩, by rw [List.mem_singleton.1 hq, hfv]⟩,
      fun q hq e he h => hfree e he (by rw [h, List.mem_singleton.1 hq, hfv]),
      fun q hq => by
        rw [List.mem_singleton.1 hq, hfv]
        exact chance_occurs hn1 _ (by rw [hv1]; exact hvm) (hch v hvm)⟩ (by rw [hact n1 hpol1]; exact hposs)
  rw [r1] at q1
  obtain ⟨d', q5, q6, q7⟩ := q4 f.forVar (List.mem_singleton_self _)
  have er : r' = [(f.forVar, d)] := by
    have := congrArg Prod.fst q1
    exact (congrArg Prod.fst (Except.ok.inj this)).symm
  rw [er, List.mem_singleton] at q5
  obtain rfl : d' = d := congrArg Prod.snd q5
  rw [hact n1 hpol1] at q7
  have hcnt : n0.count v.name = v.outcomes.length := count_eq hv hvm
  have hmass : ∀ k (hk : k < v.outcomes.length), n1.mass [] (fun w => n1.Agrees ev w ∧ w v.name = k) / n1.mass [] (n1.Agrees ev) =
      shareOf header records (ev.filter (fun e => e.1 ∈ f.given)) v.name (v.outcomes[k]) := by
    intro k hk
    have a1 := q7 k (by rw [hsame.count, hfv, hcnt]; exact hk)
    set w : World := (n0.observe ev (fun _ => 0)).set v.name k with hw
    have hobs : ∀ e ∈ ev, ∀ u ∈ n0.variables, u.name = e.1 → w u.name = u.outcomes.idxOf e.2 := by
      intro e he u hu hue
      rw [hw, World.set_ne _ (by rw [hue]; exact hfree e he)]
      exact observe_some hv hev.keys he hu hue _
    have hag : n0.Agrees ev w := by
      intro e he u hu hue
      rw [← hue]
      exact hobs e he u hu hue
    have hwv : w v.name = k := by simp [hw, World.set]
    have hal : n0.Allowed w := by
      intro u hu
      have hum := (mem_stateVars.1 hu).1
      by_cases huv : u = v
      · subst huv; rw [hwv]; exact hk
      · have hne : u.name ≠ v.name := fun h => huv (name_unique hv hum hvm h)
        by_cases h : ∀ e ∈ ev, e.1 ≠ u.name
        · rw [hw, World.set_ne _ hne, observe_none h]
          exact (hv.outcomes u hum).1
        · simp only [not_forall, not_not, ne_eq] at h
          obtain ⟨e, he, h⟩ := h
          obtain ⟨x, hx, hxe, _, ho⟩ := hev.known e he
          have := name_unique hv hx hum (hxe.trans h)
          subst this
          rw [hobs e he x hum hxe]
          exact List.idxOf_lt_length_iff.2 ho
    have a2 := r3 w hal hag
    rw [hfv, hwv] at a2
    rw [hfv] at a1
    rw [a1] at a2
    rw [Option.some.inj a2, hsamp]
    unfold shareOf
    have hpg : ∀ g ∈ f.given, ∃ u ∈ n0.variables, u.name = g ∧ u.nodeType ≠ .utility := by
      intro g hg
      obtain ⟨u, hu, e⟩ := ht.parents v hvm f hf hfv g hg
      exact ⟨u, hu, e, hstate u hu⟩
    have hgiven : ∀ r ∈ records, ((csvSample lib.cell n0 header noData r).InRow n0 f.given w ↔
        ∀ e ∈ ev.filter (fun e => e.1 ∈ f.given), csvCell header r e.1 = e.2) := by
      intro r hr
      rw [csvSample_inRow ht.names hnd hno (hok r hr) hpg w]
      unfold RecordIn
      constructor
      · intro H e he
        obtain ⟨he1, he2⟩ := List.mem_filter.1 he
        simp only [decide_eq_true_eq] at he2
        obtain ⟨u, hu, hue, _, ho⟩ := hev.known e he1
        have := H e.1 he2 u hu hue
        rw [← hue, hobs e he1 u hu hue, hue, List.getElem?_idxOf ho] at this
        exact (Option.some.inj this).symm
      · intro H g hg u hu hug
        obtain ⟨e, he, rfl⟩ := List.mem_map.1 (hpar g hg)
        obtain ⟨x, hx, hxe, _, ho⟩ := hev.known e he
        have := name_unique hv hx hu (hxe.trans hug.symm)
        subst this
        rw [H e (List.mem_filter.2 ⟨he, by simpa using hg⟩), ← hxe, hobs e he x hx hxe, List.getElem?_idxOf ho]
    have hdims : ∀ r ∈ records, ((csvSample lib.cell n0 header noData r).InRow n0 f.dims w ↔
        (∀ e ∈ ev.filter (fun e => e.1 ∈ f.given), csvCell header r e.1 = e.2) ∧ csvCell header r v.name = v.outcomes[k]) := by
      intro r hr
      rw [← hgiven r hr]
      have hm := ((hok r hr).outcome v hvm (hstate v hvm)).resolve_left (complete r hr v hvm)
      have : (csvSample lib.cell n0 header noData r).known n0 v.name = some (w v.name) ↔
          csvCell header r v.name = v.outcomes[k] := by
        rw [hknown r hr v hvm, hwv, Option.some.injEq]
        constructor
        · intro e
          have := List.getElem?_idxOf hm
          rw [e, List.getElem?_eq_getElem hk] at this
          exact (Option.some.inj this).symm
        · intro e
          rw [e]
          exact List.Nodup.idxOf_getElem (hnd v hvm) k hk
      unfold Sample.InRow NFactor.dims
      rw [hfv]
      constructor
      · intro H
        exact ⟨fun g hg => H g (List.mem_append_left _ hg), this.1 (H v.name (by simp))⟩
      · rintro ⟨H1, H2⟩ g hg
        rcases List.mem_append.1 hg with hg | hg
        · exact H1 g hg
        · rw [List.mem_singleton.1 hg]
          exact this.2 H2
    rw [List.countP_map, List.countP_map]
    congr 2
    · apply List.countP_congr
      intro r hr
      simpa using hdims r hr
    · apply List.countP_congr
      intro r hr
      simpa using hgiven r hr
  -- the stored network
  have hall : ∀ u ∈ n0.variables, 0 < u.outcomes.length ∧
      ∃ g, tableFor n0.factors u = some g ∧ u.outcomes.length ∣ g.tab.length := by
    intro u hu
    obtain ⟨p, g, _, g2, g3, _⟩ := ht.linked u hu
    have hg := List.mem_of_getElem? g2
    refine ⟨ht.outcomes u hu, g, ?_, ?_⟩
    · unfold tableFor
      cases hq : n0.factors.find? (fun f => f.forVar = u.name) with
      | none => exact absurd (List.find?_eq_none.1 hq g hg) (by simpa using g3)
      | some x =>
        have x2 := List.find?_some hq
        simp only [decide_eq_true_eq] at x2
        rw [List.inj_on_of_nodup_map ht.tables (List.mem_of_find?_eq_some hq) hg (x2.trans g3.symm)]
    · rw [ht.size u hu (by rw [hch u hu]; decide) g hg g3]
      unfold NFactor.dims
      rw [List.map_append, List.prod_append, g3, List.map_singleton, List.prod_singleton, count_eq hv hu]
      exact Dvd.intro_left _ rfl
  obtain ⟨y', n', s1, s2, s3, s4, s5, s6, s7⟩ := (hsame.saveable (fromFile_saveable hn0 hall)).reload_valid hn1
  rw [h5] at s1
  obtain rfl := Except.ok.inj s1
  have hload : (fromFile lib disk' path h').1 = .ok n' := by
    unfold fromFile
    rw [hd]
    dsimp only
    rw [extension_iff.2 he, hx, if_pos rfl, hyaml]
    dsimp only
    rw [s2]
  have hstrip : n'.variables.map reloadedVar = n0.variables.map reloadedVar := by rw [s3.strip, hv1]
  have hmem' : ∀ x ∈ n'.variables, ∃ u ∈ n0.variables, reloadedVar u = reloadedVar x := by
    intro x hx
    have : reloadedVar x ∈ n0.variables.map reloadedVar := by rw [← hstrip]; exact List.mem_map_of_mem hx
    exact List.mem_map.1 this
  have hch' : ∀ x ∈ n'.variables, x.nodeType = .chance := by
    intro x hx
    obtain ⟨u, hu, e⟩ := hmem' x hx
    simp only [reloadedVar, NVar.mk.injEq] at e
    rw [← e.2.1]; exact hch u hu
  have htotal : n'.totalUtility = none := by
    cases ht' : n'.totalUtility with
    | none => rfl
    | some i =>
      obtain ⟨x, _, _, w1, w2, _⟩ := s4.weights i ht'
      rw [hch' x (List.mem_of_getElem? w1)] at w2
      cases w2
  have hnodec : ∀ s, n'.isKind .decision s ≠ true := by
    intro s hs
    unfold Net.isKind at hs
    rw [List.any_eq_true] at hs
    obtain ⟨x, hx, e⟩ := hs
    simp only [decide_eq_true_eq] at e
    rw [hch' x hx] at e
    cases e.2
  have hready : AppReady n' := by
    refine ⟨s4, fun ⟨s, hs⟩ => absurd hs (hnodec s), ?_, fun x hx _ => s7 x hx⟩
    intro i hi
    rw [htotal] at hi
    cases hi
  obtain ⟨tables, N, k1, _, _, _, k4, _, k6, vs, names, ps, k7⟩ := hready.solve sch0
  have hps : ps = [] := by
    cases ps with
    | nil => rfl
    | cons p ps =>
      obtain ⟨i, x, a1, _, a3, _⟩ := k6.toPoliciesOK.decision p (by rw [k7]; exact List.mem_cons_self)
      rw [k7] at a1
      rw [hch' x (List.mem_of_getElem? a1)] at a3
      cases a3
  subst hps
  have hN : N = (n'.solvePolicies sch0 true).2 := by rw [k1]
  have htot : ∀ F : World → α, N.total [] F = n1.total [] F := by
    intro F
    rw [k7]
    exact (s3.meaning hn1 s4).2.2 [] F
  have hagr : ∀ w, N.Agrees ev w ↔ n1.Agrees ev w := by
    intro w
    have : N.variables = n'.variables := by rw [k7]
    unfold Net.Agrees
    rw [this]
    constructor
    · intro H e he u hu hue
      obtain ⟨x, hx, ex⟩ : ∃ x ∈ n'.variables, reloadedVar x = reloadedVar u := by
        have : reloadedVar u ∈ n'.variables.map reloadedVar := by rw [s3.strip]; exact List.mem_map_of_mem hu
        exact List.mem_map.1 this
      simp only [reloadedVar, NVar.mk.injEq] at ex
      rw [H e he x hx (ex.1.trans hue), ex.2.2.1]
    · intro H e he u hu hue
      obtain ⟨x, hx, ex⟩ := hmem' u hu
      simp only [reloadedVar, NVar.mk.injEq] at ex
      rw [H e he x (by rw [hv1]; exact hx) (ex.1.trans hue), ex.2.2.1]
  have hmN : ∀ (P Q : World → Prop) [DecidablePred P] [DecidablePred Q], (∀ w, P w ↔ Q w) → N.mass [] P = n1.mass [] Q := by
    intro P Q _ _ hPQ
    unfold Net.mass
    rw [htot]
    congr 1
    funext w
    simp only [hPQ w]
  have hNpol : N.policies = [] := by rw [k7]
  have hevN : n'.EvidenceOK ev := by
    refine ⟨hev.keys, fun e he => ?_⟩
    obtain ⟨u, hu, a1, a2, a3⟩ := hev.known e he
    have : reloadedVar u ∈ n'.variables.map reloadedVar := by rw [hstrip]; exact List.mem_map_of_mem hu
    obtain ⟨x, hx, ex⟩ := List.mem_map.1 this
    simp only [reloadedVar, NVar.mk.injEq] at ex
    exact ⟨x, hx, ex.1.trans a1, by rw [ex.2.1]; exact a2, by rw [ex.2.2.1]; exact a3⟩
  have hprint := C95_printed lib disk' hfix sch0 sch path evidence h' hload hready (fun x hx => .inl (s6 x hx)) hp hevN hN
    (by rw [hact N hNpol, hmN _ _ hagr]; exact hposs)
  have hline : ∀ x : NVar, x.nodeType = .chance → N.printedLines ev (reloadedVar x) = N.printedLines ev x := by
    intro x hx
    have hn : N.numbers ev (reloadedVar x) = N.numbers ev x := by
      unfold Net.numbers
      rw [if_pos (by show x.nodeType ≠ _; rw [hx]; decide), if_pos (by rw [hx]; decide)]
      rfl
    unfold Net.printedLines
    rw [hn]
    rfl
  refine ⟨fun x => N.printedLines ev (reloadedVar x), ?_, ?_⟩
  · rw [hprint]
    have e : ∀ l : List NVar, l.map (fun x => N.printedLines ev (reloadedVar x)) = (l.map reloadedVar).map (N.printedLines ev) := by
      intro l; rw [List.map_map]; rfl
    rw [e, ← hstrip, ← e]
    congr 3
    exact List.map_congr_left (fun x hx => (hline x (hch' x hx)).symm)
  · dsimp only
    rw [hline v (hch v hvm)]
    unfold Net.printedLines
    rw [if_neg hself]
    have hnum : N.numbers ev v = v.outcomes.map (fun o => shareOf header records (ev.filter (fun e => e.1 ∈ f.given)) v.name o) := by
      unfold Net.numbers
      rw [if_pos (hstate v hvm)]
      unfold Net.posterior
      rw [hact N hNpol]
      have hcN : N.count v.name = v.outcomes.length := by
        rw [← hcnt, ← hsame.count, ← s3.count, k7]
        rfl
      apply List.ext_getElem
      · simp [hcN]
      · intro k hk hk'
        simp only [List.length_map] at hk'
        simp only [List.getElem_map, List.getElem_range]
        rw [← hmass k hk', hmN _ _ hagr, hmN _ _ (fun w => and_congr_left' (hagr w))]
    rw [hnum, List.map_map]
    have : ∀ x : α, (if v.nodeType = .utility then " " ++ fixedText 10 x else " " ++ fixedText 9 (x * 100) ++ "%") =
        " " ++ fixedText 9 (x * 100) ++ "%" := fun x => if_neg (hstate v hvm)
    simp only [this]
    rw [String.append_empty]
    rfl

/-! ## Example -/

namespace Ex

def grassYaml : NetYaml ℚ where
  name := "grass"
  info := ""
  «variables» := [⟨"Rain", [], "", ["yes", "no"], (0, 0), "", "", [[1, 1]]⟩,
    ⟨"Wet", ["Rain"], "", ["very", "bit", "dry"], (40, 0), "", "", [[1, 1, 1], [1, 1, 1]]⟩]

def grassData : List (List String) :=
  [["very", "yes"], ["very", "yes"], ["bit", "yes"], ["dry", "no"], ["bit", "no"]]

def grassFiles : Disk (NetYaml ℚ ⊕ (List String × List (List String))) := fun p =>
  if p = "grass.yml" then some (.inl grassYaml)
  else if p = "grass.csv" then some (.inr (["Wet", "Rain"], grassData))
  else none

def grass : Net ℚ where
  name := "grass"
  info := ""
  «variables» := [⟨"Rain", .chance, ["yes", "no"], (0, 0), "", some 0⟩, ⟨"Wet", .chance, ["very", "bit", "dry"], (40, 0), "", some 1⟩]
  factors := [⟨"Rain", [], some [1, 1], [], 2⟩, ⟨"Wet", ["Rain"], some [1, 1, 1, 1, 1, 1], [2], 3⟩]
  policies := []
  vs := none
  names := []
  totalUtility := none

def grassVars : List NVar :=
  [⟨"Rain", .chance, ["yes", "no"], (0, 0), "", none⟩, ⟨"Wet", .chance, ["very", "bit", "dry"], (40, 0), "", none⟩]

def grassTables : List (NFactor ℚ) := [⟨"Rain", [], some [1, 1], [], 0⟩, ⟨"Wet", ["Rain"], some [1, 1, 1, 1, 1, 1], [], 0⟩]

theorem grass_new : newNet "grass" "" grassVars grassTables = .ok grass := rfl

theorem grass_trainable : grass.Trainable :=
  (C76_partial (name := "grass") (info := "") (vars := grassVars) (factors := grassTables) (by decide) grass_new (by decide)
    (by decide) (by decide) (by decide +kernel)).1

theorem grass_valid : grass.Valid where
  names := by decide
  named := by decide
  few := by decide
  outcomes := by decide
  tables := by decide
  hasTable := by decide
  known := by decide
  dims := by decide
  parents := by decide
  size := by
    intro f hf _ _
    have : ∀ f ∈ grass.factors, f.tab.length = (f.dims.map grass.count).prod ∧ f.table = some f.tab := by decide +kernel
    exact ⟨f.tab, (this f hf).2, (this f hf).1⟩
  single := by decide
  weights := by intro i h; cases h

end Ex

/-- `bbn train` with five records, and `bbn inference` with the evidence `Rain=yes` on its output: two of the three
records with rain have `very`, one `bit`, none `dry`. -/
example (sch0 : NSched ℚ) (sch : Nat → NSched ℚ) : ∃ b, trainCommand Ex.lib Ex.grassFiles "grass.yml" "grass.csv" "" "," initHeap = .ok b ∧
    ∃ rain, inferenceCommand Ex.lib (fun _ => some b) (fun x => fixedText 0 (x.getD 0)) sch0 sch "trained.yml" ["Rain=yes"] initHeap =
      .ok (textOf (rain ++ ["                                     very        bit        dry",
                            "                           Wet    66.667%    33.333%     0.000%"])) := by
  obtain ⟨b, hb⟩ : ∃ b, trainCommand Ex.lib Ex.grassFiles "grass.yml" "grass.csv" "" "," initHeap = .ok b := by
    have : (trainCommand Ex.lib Ex.grassFiles "grass.yml" "grass.csv" "" "," initHeap).isOk = true := by decide +kernel
    cases h : trainCommand Ex.lib Ex.grassFiles "grass.yml" "grass.csv" "" "," initHeap with
    | ok b => exact ⟨b, rfl⟩
    | error e => rw [h] at this; cases this
  refine ⟨b, hb, ?_⟩
  obtain ⟨lines, h1, h2⟩ := C133_train_then_ask Ex.lib (fun _ => rfl) Ex.grassFiles "grass.yml" "grass.csv" "" "," initHeap
    (n0 := Ex.grass) rfl Ex.grass_valid Ex.grass_trainable ⟨fun s => if s = "Wet" then 1 else 0, by decide +kernel⟩ (by decide) (by decide)
    (c := ',') rfl (header := ["Wet", "Rain"]) (records := Ex.grassData) (csvAt_iff.1 rfl) (by decide) hb (disk' := fun _ => some b)
    (path := "trained.yml") rfl (ext := ".yml") (extension_iff.1 (by decide)) (by decide) (fix := fun x => fixedText 0 (x.getD 0)) (fun _ => rfl) sch0 sch ["Rain=yes"] initHeap
    (ev := [("Rain", "yes")]) (by decide) ⟨by decide, by decide⟩
    (v := ⟨"Wet", .chance, ["very", "bit", "dry"], (40, 0), "", some 1⟩) (by decide)
    (f := Ex.grass.factors[1]) (by decide +kernel) rfl (by decide) (by decide)
    (by
      intro e he hb
      rw [List.mem_singleton] at he
      subst he
      have key : ∀ x y, Ex.grass.Below x y → y = "Rain" → False := by
        have : ∀ f ∈ Ex.grass.chanceTables, f.forVar = "Rain" → f.given = [] := by decide +kernel
        intro x y h
        cases h with
        | child hf hx => intro e; rw [this _ hf e] at hx; cases hx
        | step _ hf hy => intro e; rw [this _ hf e] at hy; cases hy
      exact key _ _ hb rfl)
    ⟨["very", "yes"], by decide, by decide⟩
  refine ⟨lines ⟨"Rain", .chance, ["yes", "no"], (0, 0), "", some 0⟩, ?_⟩
  rw [h1]
  have : (Ex.grass.variables.map lines).flatten = lines ⟨"Rain", .chance, ["yes", "no"], (0, 0), "", some 0⟩ ++
      (lines ⟨"Wet", .chance, ["very", "bit", "dry"], (40, 0), "", some 1⟩ ++ []) := rfl
  rw [this, h2, List.append_nil]
  refine congrArg (fun l => Except.ok (textOf (_ ++ l))) ?_
  decide +kernel

end Bbn
