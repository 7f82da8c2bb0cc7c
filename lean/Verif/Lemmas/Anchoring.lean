import Verif.Lemmas.ParseParams2
/-
The anchoring rows of update_info and the anchoring parameters.
-/
namespace Skill
open Spec
variable {α : Type}
variable {β γ : Type}

theorem setRow_filter_other {rows : List URow} {p : Nat} {v f : String}
    (h : ∀ r ∈ rows, r.key = (p, v) → r.purpose = .measurement) :
    (setRow rows p v f .measurement).filter (fun r => decide (r.purpose = .anchoring)) =
      rows.filter (fun r => decide (r.purpose = .anchoring)) := by
  induction rows with
  | nil => simp [setRow]
  | cons r rs ih =>
    unfold setRow
    split
    · next hk =>
      have h1 := h r (by simp) (by unfold URow.key; rw [hk.1, hk.2])
      rw [List.filter_cons_of_neg (by simp), List.filter_cons_of_neg (by simp [h1])]
    · rw [List.filter_cons, List.filter_cons, ih (fun r' hr' => h r' (by simp [hr']))]

theorem setRow_new {rows : List URow} {p : Nat} {v f : String} {pu : Purpose}
    (h : ∀ r ∈ rows, r.key ≠ (p, v)) : setRow rows p v f pu = rows ++ [⟨p, v, [f], pu⟩] := by
  induction rows with
  | nil => rfl
  | cons r rs ih =>
    unfold setRow
    rw [if_neg (by rintro ⟨e1, e2⟩; exact h r (by simp) (by unfold URow.key; rw [e1, e2])),
      ih (fun r' hr' => h r' (by simp [hr']))]
    rfl

/-- The anchoring rows appear in the order of the assignments, each with one factor. -/
theorem buildRows_anchoring (as : List UAssign)
    (h : as.Pairwise (fun a b => a.key = b.key → a.purpose = .measurement ∧ b.purpose = .measurement)) :
    (buildRows as).filter (fun r => decide (r.purpose = .anchoring)) =
      (as.filter (fun s => decide (s.purpose = .anchoring))).map (fun s => ⟨s.period, s.var, [s.factor], .anchoring⟩) := by
  induction as using List.reverseRecOn with
  | nil => rfl
  | append_singleton as s ih =>
    rw [List.pairwise_append] at h
    obtain ⟨h1, _, h3⟩ := h
    have hs : ∀ a ∈ as, a.key = s.key → a.purpose = .measurement ∧ s.purpose = .measurement :=
      fun a ha => h3 a ha s (by simp)
    rw [buildRows_snoc, List.filter_append, List.map_append, ← ih h1]
    cases hp : s.purpose with
    | measurement =>
      rw [setRow_filter_other, List.filter_cons_of_neg (by simp [hp])]
      · simp
      · intro r hr hk
        obtain ⟨pre, s', post, e, hk', hp', _⟩ := buildRows_purpose as hr
        rw [← hp']
        exact (hs s' (by rw [e]; simp) (by rw [hk', hk]; rfl)).1
    | anchoring =>
      rw [setRow_new, List.filter_append, List.filter_cons_of_pos (by simp), List.filter_nil,
        List.filter_cons_of_pos (by simp [hp]), List.filter_nil]
      · rfl
      · intro r hr hk
        have := (mem_buildRows_keys as r.key).mp (List.mem_map.mpr ⟨r, hr, rfl⟩)
        obtain ⟨a, ha, e⟩ := List.mem_map.mp this
        have := (hs a ha (by rw [e, hk]; rfl)).2
        rw [hp] at this; cases this

/-- The outcomes dictionary of the user. -/
def outcomesOf (m : ModelDict α) : Dict String := (m.anchoring.bind AnchoringSpec.outcomes).getD []

theorem processAnchoring_outcomes (m : ModelDict α) : (processAnchoring m).outcomes = outcomesOf m := by
  unfold processAnchoring outcomesOf
  cases m.anchoring with
  | none => rfl
  | some a => rfl

theorem mem_outcomesOf {m : ModelDict α} {f o : String} : (f, o) ∈ outcomesOf m ↔ AnchoredIn m f o := by
  unfold outcomesOf AnchoredIn
  cases m.anchoring with
  | none => simp
  | some a =>
    cases h : a.outcomes with
    | none => simp [h]
    | some os => simp [h]

theorem outcomesOf_nodup {m : ModelDict α} (hk : DictKeys m) : ((outcomesOf m).map Prod.fst).Nodup := by
  unfold outcomesOf
  cases h : m.anchoring with
  | none => simp
  | some a =>
    cases h2 : a.outcomes with
    | none => simp [h2]
    | some os => simpa [h2] using hk.outcomes a os h h2

variable [OfScientific α] [Neg α] [Zero α] [One α] [OfNat α 2] [DecidableEq α]

theorem updateInfo_eq {m : ModelDict α} {pm : Processed α} (h : processModel m = .ok pm) :
    pm.updateInfo = buildRows (updateAssignments (List.range pm.dimensions.nPeriods)
      (m.factors.map (fun fs => (fs.1, fs.2.measurements))) (outcomesOf m)) := by
  have h2 := processModel_ok_iff.mp h
  have hu := h2.2.2.2.2.2.2.1
  rw [getUpdateInfo_ok (isNPeriods_of_ok h), h2.2.2.2.2.1, processAnchoring_outcomes,
    (labels_of_ok h).2.2.2.1] at hu
  exact (Except.ok.inj hu).symm

omit [OfScientific α] [Neg α] [Zero α] [One α] [OfNat α 2] [DecidableEq α] in
theorem assignments_pairwise {m : ModelDict α} (hk : DictKeys m) (hc : CleanAnchoring m) (n : Nat) :
    (updateAssignments (List.range n) (m.factors.map (fun fs => (fs.1, fs.2.measurements))) (outcomesOf m)).Pairwise
      (fun a b => a.key = b.key → a.purpose = .measurement ∧ b.purpose = .measurement) := by
  unfold updateAssignments
  rw [List.pairwise_flatMap]
  have hper : ∀ p x, x ∈ ((m.factors.map (fun fs => (fs.1, fs.2.measurements))).flatMap (fun fm =>
      (fm.2.getD p []).map (fun meas => (⟨p, meas, fm.1, .measurement⟩ : UAssign))) ++ (outcomesOf m).map (fun fo =>
      ⟨p, anchoringName fo.2 fo.1, fo.1, .anchoring⟩)) → x.period = p := by
    intro p x hx
    rw [List.mem_append] at hx
    rcases hx with hx | hx
    · simp only [List.mem_flatMap, List.mem_map] at hx
      obtain ⟨_, _, _, _, rfl⟩ := hx; rfl
    · simp only [List.mem_map] at hx
      obtain ⟨_, _, rfl⟩ := hx; rfl
  refine ⟨?_, ?_⟩
  · intro p _
    rw [List.pairwise_append]
    refine ⟨?_, ?_, ?_⟩
    · rw [List.pairwise_iff_forall_sublist]
      intro a b hab _
      have ha := hab.subset (List.mem_cons_self (a := a))
      have hb := hab.subset (List.mem_cons_of_mem a (List.mem_cons_self (a := b)))
      simp only [List.mem_flatMap, List.mem_map] at ha hb
      obtain ⟨_, _, _, _, rfl⟩ := ha
      obtain ⟨_, _, _, _, rfl⟩ := hb
      exact ⟨rfl, rfl⟩
    · rw [List.pairwise_map]
      have := outcomesOf_nodup hk
      unfold List.Nodup at this
      rw [List.pairwise_map] at this
      refine this.imp_of_mem ?_
      intro a b ha hb hne e
      exact absurd (hc.distinct (anchoringName a.2 a.1) a.1 b.1 ⟨a.2, mem_outcomesOf.mp ha, rfl⟩
        ⟨b.2, mem_outcomesOf.mp hb, (Prod.mk.inj e).2⟩) hne
    · intro a ha b hb e
      simp only [List.mem_flatMap, List.mem_map] at ha hb
      obtain ⟨_, ⟨⟨f, spec⟩, hf, rfl⟩, v, hv, rfl⟩ := ha
      obtain ⟨⟨g, o⟩, hg, rfl⟩ := hb
      have e2 : v = anchoringName o g := (Prod.mk.inj e).2
      refine absurd ?_ (hc.notMeasured v g p f ⟨o, mem_outcomesOf.mp hg, e2⟩)
      rw [List.getD_eq_getElem?_getD] at hv
      cases hm : spec.measurements[p]? with
      | none => simp [hm] at hv
      | some ms => simp only [hm, Option.getD_some] at hv; exact ⟨spec, hf, ms, hm, hv⟩
  · refine List.pairwise_lt_range.imp ?_
    intro p q hpq x hx y hy e
    have h1 := hper p x hx
    have h2 := hper q y hy
    have : x.period = y.period := (Prod.mk.inj e).1
    omega

theorem anchoringRows {m : ModelDict α} {pm : Processed α} (h : processModel m = .ok pm) (hk : DictKeys m)
    (hc : CleanAnchoring m) :
    pm.updateInfo.filter (fun r => decide (r.purpose = .anchoring)) =
      (List.range pm.dimensions.nPeriods).flatMap (fun p => (outcomesOf m).map
        (fun fo => ⟨p, fo.2 ++ "_" ++ fo.1, [fo.1], .anchoring⟩)) := by
  rw [updateInfo_eq h, buildRows_anchoring _ (assignments_pairwise hk hc _)]
  unfold updateAssignments
  rw [List.filter_flatMap, List.map_flatMap]
  congr 1
  funext p
  rw [List.filter_append]
  rw [List.filter_eq_nil_iff.mpr (by
    intro a ha
    simp only [List.mem_flatMap, List.mem_map] at ha
    obtain ⟨_, _, _, _, rfl⟩ := ha
    simp)]
  rw [List.filter_eq_self.mpr (by
    intro a ha
    simp only [List.mem_map] at ha
    obtain ⟨_, _, rfl⟩ := ha
    simp), List.nil_append, List.map_map]
  rfl

/-! ### masks -/

theorem boolIndex_map (xs : List γ) (p : γ → Bool) (g : γ → β) :
    boolIndex (xs.map p) (xs.map g) = (xs.filter p).map g := by
  unfold boolIndex
  induction xs with
  | nil => rfl
  | cons x xs ih =>
    simp only [List.map_cons, List.zip_cons_cons]
    cases hp : p x
    · rw [List.filter_cons_of_neg (by simp), List.filter_cons_of_neg (by simp [hp]), ih]
    · rw [List.filter_cons_of_pos (by simp), List.filter_cons_of_pos (by simp [hp]), List.map_cons, List.map_cons, ih]

theorem setMasked_map (xs : List γ) (p : γ → Bool) (g : γ → β) (c : β) :
    setMasked (xs.map p) (List.replicate xs.length c) ((xs.filter p).map g) =
      xs.map (fun x => if p x then g x else c) := by
  induction xs with
  | nil => simp [setMasked]
  | cons x xs ih =>
    simp only [List.map_cons, List.length_cons, List.replicate_succ]
    cases hp : p x
    · rw [List.filter_cons_of_neg (by simp [hp])]
      simp [setMasked, ih]
    · rw [List.filter_cons_of_pos (by simp [hp]), List.map_cons]
      simp [setMasked, ih]

theorem filter_singleton {xs : List String} (hn : xs.Nodup) {f : String} (hf : f ∈ xs) :
    xs.filter (fun x => decide (x ∈ [f])) = [f] := by
  have h1 : xs.filter (fun x => decide (x ∈ [f])) = List.replicate (xs.count f) f := by
    rw [← List.filter_beq]; congr 1; funext x; simp; rfl
  rw [h1, List.count_eq_one_of_mem hn hf]; rfl

theorem mapM_zip_ok {ι : Type _} {xs : List ι} {f : ι → List β} {c : List β} {n : Nat} {mask : List Bool}
    (hlen : ∀ x ∈ xs, (f x).length = n) (hm : (mask.filter id).length = n) :
    setMaskedCols mask (List.replicate xs.length c) (xs.map f) = .ok (xs.map (fun x => setMasked mask c (f x))) := by
  unfold setMaskedCols
  rw [if_neg (by simp)]
  induction xs with
  | nil => rfl
  | cons x xs ih =>
    simp only [List.length_cons, List.replicate_succ, List.map_cons, List.zip_cons_cons, List.mapM_cons]
    have ih2 := ih (fun y hy => hlen y (by simp [hy]))
    rw [hm] at ih2 ⊢
    rw [broadcast_of_length (hlen x (by simp))]
    have e : List.mapM (fun x : List β × List β => do
              let v ← broadcast n x.2
              pure (setMasked mask x.1 v)) ((List.replicate xs.length c).zip (List.map f xs)) =
        (.ok (List.map (fun x => setMasked mask c (f x)) xs) : Py _) := ih2
    rw [e]
    rfl

/-! ### explicit form of the anchoring parameters -/

theorem isAnchored_explicit {m : ModelDict α} {pm : Processed α} (h : processModel m = .ok pm) (hk : DictKeys m)
    (hc : CleanAnchoring m) :
    pm.labels.latentFactors.map (fun f => (pm.updateInfo.filter (fun r => decide (r.purpose = .anchoring))).any
      (fun r => decide (f ∈ r.trueCols))) =
    (m.factors.map Prod.fst).map (fun f => decide (f ∈ (outcomesOf m).map Prod.fst)) := by
  rw [(labels_of_ok h).1, anchoringRows h hk hc]
  apply List.map_congr_left
  intro f _
  rw [Bool.eq_iff_iff]
  simp only [List.any_eq_true, decide_eq_true_eq, List.mem_flatMap, List.mem_range, List.mem_map]
  constructor
  · rintro ⟨r, ⟨p, _, fo, hfo, rfl⟩, hf⟩
    simp only [List.mem_singleton] at hf
    exact ⟨fo, hfo, hf.symm⟩
  · rintro ⟨fo, hfo, rfl⟩
    exact ⟨_, ⟨0, nPeriods_pos h, fo, hfo, rfl⟩, by simp⟩

omit [OfScientific α] [Neg α] [Zero α] [One α] [OfNat α 2] [DecidableEq α] in
theorem count_anchored {m : ModelDict α} (hk : DictKeys m) (hc : CleanAnchoring m) :
    (((m.factors.map Prod.fst).map (fun f => decide (f ∈ (outcomesOf m).map Prod.fst))).filter id).length =
      (outcomesOf m).length := by
  rw [List.filter_map, List.length_map]
  have hperm : ((m.factors.map Prod.fst).filter (fun f => decide (f ∈ (outcomesOf m).map Prod.fst))).Perm
      ((outcomesOf m).map Prod.fst) := by
    rw [List.perm_ext_iff_of_nodup (hk.factors.filter _) (outcomesOf_nodup hk)]
    intro f
    simp only [List.mem_filter, decide_eq_true_eq]
    constructor
    · exact fun h => h.2
    · intro hf
      refine ⟨?_, hf⟩
      obtain ⟨⟨f', o⟩, hfo, rfl⟩ := List.mem_map.mp hf
      obtain ⟨spec, hs⟩ := hc.latent f' o (mem_outcomesOf.mp hfo)
      exact List.mem_map.mpr ⟨_, hs, rfl⟩
  have := hperm.length_eq
  rw [List.length_map] at this
  rw [← this]
  rfl

theorem scaling_explicit [One β] [Zero β] {m : ModelDict α} {pm : Processed α} (h : processModel m = .ok pm) (hk : DictKeys m)
    (hc : CleanAnchoring m) (val : Loc → β) {info : ParsingInfo}
    (hi : info.isAnchoringLoading = ((updateMask pm.updateInfo pm.labels.latentFactors).zip
      (pm.updateInfo.map (fun r => decide (r.purpose = .anchoring)))).map (fun (row, b) => row.map (fun x => x && b)))
    (hf : info.isAnchoredFactor = pm.labels.latentFactors.map (fun f =>
      (pm.updateInfo.filter (fun r => decide (r.purpose = .anchoring))).any (fun r => decide (f ∈ r.trueCols)))) :
    getAnchoringScalingFactors (pm.updateInfo.map (fun r => (m.factors.map Prod.fst).map
        (fun f => if f ∈ r.trueCols then val ⟨.loadings, r.period, r.var, f⟩ else 0))) info pm.dimensions =
      .ok ((List.range pm.dimensions.nPeriods).map (fun t =>
        setMasked ((m.factors.map Prod.fst).map (fun f => decide (f ∈ (outcomesOf m).map Prod.fst)))
          (List.replicate (m.factors.map Prod.fst).length 1)
          ((outcomesOf m).map (fun fo => val ⟨.loadings, t, fo.2 ++ "_" ++ fo.1, fo.1⟩))
        ++ List.replicate (m.observedFactors.getD []).length 1)) := by
  unfold getAnchoringScalingFactors
  rw [hi, hf, isAnchored_explicit h hk hc, (labels_of_ok h).1]
  let cells : List (URow × String) := pm.updateInfo.flatMap (fun r => (m.factors.map Prod.fst).map (fun f => (r, f)))
  have e1 : (((updateMask pm.updateInfo (m.factors.map Prod.fst)).zip
      (pm.updateInfo.map (fun r => decide (r.purpose = .anchoring)))).map (fun (row, b) => row.map (fun x => x && b))).flatten =
      cells.map (fun x => decide (x.2 ∈ x.1.trueCols) && decide (x.1.purpose = .anchoring)) := by
    simp only [updateMask, cells, List.map_flatMap, List.map_map]
    rw [List.flatMap_def, List.zip_map', List.map_map]
    congr 1
    apply List.map_congr_left
    intro r _
    simp [Function.comp_def]
  have e2 : (pm.updateInfo.map (fun r => (m.factors.map Prod.fst).map
        (fun f => if f ∈ r.trueCols then val ⟨.loadings, r.period, r.var, f⟩ else 0))).flatten =
      cells.map (fun x => if x.2 ∈ x.1.trueCols then val ⟨.loadings, x.1.period, x.1.var, x.2⟩ else 0) := by
    simp only [cells, List.map_flatMap, List.map_map, ← List.flatMap_def]
    rfl
  rw [e1, e2, boolIndex_map]
  have e3 : (cells.filter (fun x => decide (x.2 ∈ x.1.trueCols) && decide (x.1.purpose = .anchoring))).map
      (fun x => if x.2 ∈ x.1.trueCols then val ⟨.loadings, x.1.period, x.1.var, x.2⟩ else 0) =
      (List.range pm.dimensions.nPeriods).flatMap (fun t => (outcomesOf m).map
        (fun fo => val ⟨.loadings, t, fo.2 ++ "_" ++ fo.1, fo.1⟩)) := by
    have s1 : (cells.filter (fun x => decide (x.2 ∈ x.1.trueCols) && decide (x.1.purpose = .anchoring))).map
        (fun x => if x.2 ∈ x.1.trueCols then val ⟨.loadings, x.1.period, x.1.var, x.2⟩ else 0) =
        (pm.updateInfo.filter (fun r => decide (r.purpose = .anchoring))).flatMap (fun r =>
          ((m.factors.map Prod.fst).filter (fun f => decide (f ∈ r.trueCols))).map
            (fun f => val ⟨.loadings, r.period, r.var, f⟩)) := by
      simp only [cells]
      induction pm.updateInfo with
      | nil => rfl
      | cons r rs ih =>
        rw [List.flatMap_cons, List.filter_append, List.map_append, ih]
        by_cases hp : r.purpose = .anchoring
        · rw [List.filter_cons_of_pos (by simpa using hp), List.flatMap_cons]
          congr 1
          rw [List.filter_map, List.map_map]
          have : ((fun x : URow × String => decide (x.2 ∈ x.1.trueCols) && decide (x.1.purpose = .anchoring)) ∘ fun f => (r, f)) =
              fun f => decide (f ∈ r.trueCols) := by
            funext f; simp [hp]
          rw [this]
          apply List.map_congr_left
          intro f hf'
          simp only [List.mem_filter, decide_eq_true_eq] at hf'
          simp [hf'.2]
        · rw [List.filter_cons_of_neg (by simpa using hp)]
          rw [List.filter_map]
          have : ((fun x : URow × String => decide (x.2 ∈ x.1.trueCols) && decide (x.1.purpose = .anchoring)) ∘ fun f => (r, f)) =
              fun f => false := by
            funext f; simp [hp]
          rw [this]
          simp
    rw [s1, anchoringRows h hk hc, List.flatMap_assoc]
    congr 1
    funext t
    rw [List.flatMap_map]
    conv_rhs => rw [List.map_eq_flatMap]
    rw [List.flatMap_def, List.flatMap_def]
    congr 1
    apply List.map_congr_left
    rintro ⟨f, o⟩ hfo
    obtain ⟨spec, hs⟩ := hc.latent f o (mem_outcomesOf.mp hfo)
    dsimp only
    rw [filter_singleton hk.factors (List.mem_map.mpr ⟨_, hs, rfl⟩)]
    rfl
  rw [e3]
  have r1 := reshapeRows_flatMap (xs := List.range pm.dimensions.nPeriods) (k := (outcomesOf m).length)
    (f := fun t => (outcomesOf m).map (fun fo => val ⟨.loadings, t, fo.2 ++ "_" ++ fo.1, fo.1⟩)) (by simp)
    (by have := nPeriods_pos h; simp; omega)
  rw [List.length_range] at r1
  rw [r1]
  simp only [bind, Except.bind]
  have r2 := mapM_zip_ok (xs := List.range pm.dimensions.nPeriods) (n := (outcomesOf m).length)
    (f := fun t => (outcomesOf m).map (fun fo => val ⟨.loadings, t, fo.2 ++ "_" ++ fo.1, fo.1⟩))
    (c := List.replicate (m.factors.map Prod.fst).length 1) (by simp) (count_anchored hk hc)
  rw [List.length_range] at r2
  rw [(dims_of_ok h).1, (dims_of_ok h).2.1, r2]
  show Except.ok _ = Except.ok _
  rw [List.map_map]
  rfl

theorem constants_explicit [Zero β] {m : ModelDict α} {pm : Processed α} (h : processModel m = .ok pm) (hk : DictKeys m)
    (hc : CleanAnchoring m) (val : Loc → β) {info : ParsingInfo}
    (hi : info.isAnchoringUpdate = pm.updateInfo.map (fun r => decide (r.purpose = .anchoring)))
    (hf : info.isAnchoredFactor = pm.labels.latentFactors.map (fun f =>
      (pm.updateInfo.filter (fun r => decide (r.purpose = .anchoring))).any (fun r => decide (f ∈ r.trueCols)))) :
    getAnchoringConstants (pm.updateInfo.map (fun r => ("constant" :: m.controls.getD []).map
        (fun c => val ⟨.controls, r.period, r.var, c⟩))) info pm.dimensions =
      .ok ((List.range pm.dimensions.nPeriods).map (fun t =>
        (if info.ignoreConstant then List.replicate (m.factors.map Prod.fst).length 0 else
          setMasked ((m.factors.map Prod.fst).map (fun f => decide (f ∈ (outcomesOf m).map Prod.fst)))
            (List.replicate (m.factors.map Prod.fst).length 0)
            ((outcomesOf m).map (fun fo => val ⟨.controls, t, fo.2 ++ "_" ++ fo.1, "constant"⟩)))
        ++ List.replicate (m.observedFactors.getD []).length 0)) := by
  unfold getAnchoringConstants
  rw [(dims_of_ok h).1, (dims_of_ok h).2.1]
  dsimp only
  cases hig : info.ignoreConstant
  · simp only [Bool.not_false, if_true, Bool.false_eq_true, if_false]
    rw [mapM_pure_ok _ (fun row => (row.head?).getD 0) _ (by
      intro row hrow
      simp only [List.mem_map] at hrow
      obtain ⟨r, _, rfl⟩ := hrow
      rfl)]
    rw [hi, hf, isAnchored_explicit h hk hc, List.map_map]
    simp only [bind, Except.bind]
    rw [boolIndex_map, anchoringRows h hk hc, List.map_flatMap]
    simp only [List.map_map]
    have r1 := reshapeRows_flatMap (xs := List.range pm.dimensions.nPeriods) (k := (outcomesOf m).length)
      (f := fun t => (outcomesOf m).map (fun fo => val ⟨.controls, t, fo.2 ++ "_" ++ fo.1, "constant"⟩)) (by simp)
      (by have := nPeriods_pos h; simp; omega)
    rw [List.length_range] at r1
    have r2 := mapM_zip_ok (xs := List.range pm.dimensions.nPeriods) (n := (outcomesOf m).length)
      (f := fun t => (outcomesOf m).map (fun fo => val ⟨.controls, t, fo.2 ++ "_" ++ fo.1, "constant"⟩))
      (c := List.replicate (m.factors.map Prod.fst).length 0) (by simp) (count_anchored hk hc)
    rw [List.length_range] at r2
    simp only [List.map_map] at r2
    first
    | (erw [r1]
       dsimp only
       erw [r2]
       show Except.ok _ = Except.ok _
       rw [List.map_map]
       rfl)
  · simp only [Bool.not_true, Bool.false_eq_true, if_false, if_true]
    show Except.ok _ = Except.ok _
    congr 1
    apply List.ext_getElem?
    intro i
    rw [List.getElem?_map, List.getElem?_map, List.getElem?_replicate]
    rcases Nat.lt_or_ge i pm.dimensions.nPeriods with hi' | hi'
    · rw [if_pos hi', List.getElem?_range hi']; rfl
    · rw [if_neg (by omega), List.getElem?_eq_none (by simpa using hi')]; rfl

end Skill
