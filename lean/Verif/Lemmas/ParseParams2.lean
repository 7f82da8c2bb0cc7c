import Verif.Lemmas.ParseParams
/-
Explicit form of the parsed parameters of an accepted model.
-/
namespace Skill
open Spec
variable {α : Type} [OfScientific α] [Neg α] [Zero α] [One α] [OfNat α 2] [DecidableEq α]
variable {β : Type}

theorem dims_of_ok {m : ModelDict α} {pm : Processed α} (h : processModel m = .ok pm) :
    pm.dimensions.nLatentFactors = (m.factors.map Prod.fst).length ∧
    pm.dimensions.nObservedFactors = (m.observedFactors.getD []).length ∧
    pm.dimensions.nControls = ("constant" :: m.controls.getD []).length := by
  obtain ⟨o, n, _, _, e⟩ := getDimensions_ok (processModel_ok_iff.mp h).1
  rw [e]
  simp

omit [OfScientific α] [Neg α] [Zero α] [One α] [OfNat α 2] [DecidableEq α] in
theorem gather_category (pm : Processed α) (val : Loc → β) (c : Cat) :
    gather (pm.paramsIndex.map val) (selectCategory pm.paramsIndex c) =
      .ok ((block pm.labels pm.dimensions pm.transitionInfo pm.updateInfo c).map val) := by
  unfold selectCategory
  rw [gather_positionsOf]
  congr 2
  exact filter_cat _ _ _ _ c

theorem states_explicit {m : ModelDict α} {pm : Processed α} (h : processModel m = .ok pm) (val : Loc → β)
    {info : ParsingInfo} (hi : info.initialStates = selectCategory pm.paramsIndex .initialStates) (nObs : Nat) :
    getInitialStates (pm.paramsIndex.map val) info pm.dimensions nObs =
      .ok (List.replicate nObs ((List.range pm.dimensions.nMixtures).map (fun e =>
        (m.factors.map Prod.fst).map (fun f => val ⟨.initialStates, 0, "mixture_" ++ toString e, f⟩)))) := by
  unfold getInitialStates
  rw [hi, gather_category]
  simp only [bind, Except.bind]
  have : (block pm.labels pm.dimensions pm.transitionInfo pm.updateInfo .initialStates).map val =
      (List.range pm.dimensions.nMixtures).flatMap (fun e => (m.factors.map Prod.fst).map
        (fun f => val ⟨.initialStates, 0, mixtureName e, f⟩)) := by
    simp only [block, initialMeanIndexTuples, (labels_of_ok h).1, List.map_flatMap, List.map_map]
    rfl
  rw [this, (dims_of_ok h).1]
  have := reshape2_flatMap (xs := List.range pm.dimensions.nMixtures) (k := (m.factors.map Prod.fst).length)
    (f := fun e => (m.factors.map Prod.fst).map (fun f => val ⟨.initialStates, 0, mixtureName e, f⟩)) (by simp)
  rw [List.length_range] at this
  rw [this]
  rfl

omit [OfScientific α] [Neg α] [Zero α] [One α] [OfNat α 2] [DecidableEq α] in
theorem weights_explicit {pm : Processed α} (val : Loc → β) (log : β → β)
    {info : ParsingInfo} (hi : info.mixtureWeights = selectCategory pm.paramsIndex .mixtureWeights) (nObs : Nat) :
    getInitialLogMixtureWeights log (pm.paramsIndex.map val) info nObs =
      .ok (List.replicate nObs ((List.range pm.dimensions.nMixtures).map (fun e =>
        log (val ⟨.mixtureWeights, 0, "mixture_" ++ toString e, "-"⟩)))) := by
  unfold getInitialLogMixtureWeights
  rw [hi, gather_category]
  simp only [bind, Except.bind, block, mixtureWeightsIndexTuples, List.map_map]
  rfl

theorem controls_explicit {m : ModelDict α} {pm : Processed α} (h : processModel m = .ok pm) (val : Loc → β)
    {info : ParsingInfo} (hi : info.controls = selectCategory pm.paramsIndex .controls) :
    getControlParams (pm.paramsIndex.map val) info pm.dimensions =
      .ok (pm.updateInfo.map (fun r => ("constant" :: m.controls.getD []).map
        (fun c => val ⟨.controls, r.period, r.var, c⟩))) := by
  unfold getControlParams
  rw [hi, gather_category]
  simp only [bind, Except.bind]
  have : (block pm.labels pm.dimensions pm.transitionInfo pm.updateInfo .controls).map val =
      pm.updateInfo.flatMap (fun r => ("constant" :: m.controls.getD []).map
        (fun c => val ⟨.controls, r.period, r.var, c⟩)) := by
    simp only [block, controlParamsIndexTuples, (labels_of_ok h).2.2.1, List.map_flatMap, List.map_map]
    rfl
  rw [this, (dims_of_ok h).2.2]
  exact reshapeCols_flatMap (by simp) (by simp)

omit [OfScientific α] [Neg α] [Zero α] [One α] [OfNat α 2] [DecidableEq α] in
theorem measSds_explicit {pm : Processed α} (val : Loc → β)
    {info : ParsingInfo} (hi : info.measSds = selectCategory pm.paramsIndex .measSds) :
    getMeasSds (pm.paramsIndex.map val) info =
      .ok (pm.updateInfo.map (fun r => val ⟨.measSds, r.period, r.var, "-"⟩)) := by
  unfold getMeasSds
  rw [hi, gather_category]
  simp only [block, measSdsIndexTuples, List.map_map]
  rfl

theorem shockSds_explicit {m : ModelDict α} {pm : Processed α} (h : processModel m = .ok pm) (val : Loc → β)
    {info : ParsingInfo} (hi : info.shockSds = selectCategory pm.paramsIndex .shockSds) :
    getShockSds (pm.paramsIndex.map val) info pm.dimensions =
      .ok ((List.range (pm.dimensions.nPeriods - 1)).map (fun t => (m.factors.map Prod.fst).map
        (fun f => val ⟨.shockSds, t, f, "-"⟩))) := by
  unfold getShockSds
  rw [hi, gather_category]
  simp only [bind, Except.bind]
  have : (block pm.labels pm.dimensions pm.transitionInfo pm.updateInfo .shockSds).map val =
      (List.range (pm.dimensions.nPeriods - 1)).flatMap (fun t => (m.factors.map Prod.fst).map
        (fun f => val ⟨.shockSds, t, f, "-"⟩)) := by
    simp only [block, shockSdsIndexTuples, (labels_of_ok h).1, (labels_of_ok h).2.2.2.1, range_dropLast,
      List.map_flatMap, List.map_map]
    rfl
  rw [this, (dims_of_ok h).1]
  exact reshapeCols_flatMap (by simp) (by simpa using factors_ne_nil h)

theorem loadings_explicit [Zero β] {m : ModelDict α} {pm : Processed α} (h : processModel m = .ok pm) (val : Loc → β)
    {info : ParsingInfo} (hi : info.loadingsSlice = selectCategory pm.paramsIndex .loadings)
    (hf : info.loadingsFlatIndices = positionsOf id (updateMask pm.updateInfo pm.labels.latentFactors).flatten)
    (hs : info.loadingsShape = (pm.updateInfo.length, pm.labels.latentFactors.length)) :
    getLoadings (pm.paramsIndex.map val) info =
      .ok (pm.updateInfo.map (fun r => (m.factors.map Prod.fst).map
        (fun f => if f ∈ r.trueCols then val ⟨.loadings, r.period, r.var, f⟩ else 0))) := by
  unfold getLoadings
  rw [hi, gather_category]
  simp only [bind, Except.bind]
  rw [hf, hs, (labels_of_ok h).1]
  let cells : List (URow × String) := pm.updateInfo.flatMap (fun r => (m.factors.map Prod.fst).map (fun f => (r, f)))
  let mask : URow × String → Bool := fun x => decide (x.2 ∈ x.1.trueCols)
  let v : URow × String → β := fun x => val ⟨.loadings, x.1.period, x.1.var, x.2⟩
  have e1 : (block pm.labels pm.dimensions pm.transitionInfo pm.updateInfo .loadings).map val =
      (cells.filter mask).map v := by
    simp only [block, loadingsIndexTuples, (labels_of_ok h).1, List.map_flatMap, List.map_map, cells,
      List.filter_flatMap, List.filter_map]
    rfl
  have e2 : (updateMask pm.updateInfo (m.factors.map Prod.fst)).flatten = cells.map mask := by
    simp only [updateMask, cells, List.map_flatMap, List.map_map, ← List.flatMap_def]
    rfl
  have e3 : pm.updateInfo.length * (m.factors.map Prod.fst).length = cells.length := by
    rw [flatMap_length_const (k := (m.factors.map Prod.fst).length) (by simp)]
  rw [e1, e2, positionsOf_map]
  have e4 : positionsOf (fun x => id (mask x)) cells = positionsOf mask cells := rfl
  rw [e4]
  dsimp only
  rw [e3, scatter_mask]
  dsimp only
  have e5 : cells.map (fun c => if mask c then v c else 0) = pm.updateInfo.flatMap (fun r => (m.factors.map Prod.fst).map
        (fun f => if f ∈ r.trueCols then val ⟨.loadings, r.period, r.var, f⟩ else 0)) := by
    simp only [cells, List.map_flatMap, List.map_map, mask, v]
    congr 1; funext r; congr 1; funext f
    simp
  rw [e5]
  exact reshape2_flatMap (by simp)

theorem zipIdx_filter_le (xs : List String) (i : Nat) (hi : i < xs.length) :
    xs.zipIdx.filter (fun x => decide (x.2 ≤ i)) = (List.range (i + 1)).map (fun j => (xs.getD j "", j)) := by
  have h1 : xs.zipIdx = (List.range xs.length).map (fun j => (xs.getD j "", j)) := by
    apply List.ext_getElem?
    intro k
    rw [List.getElem?_zipIdx, List.getElem?_map]
    rcases Nat.lt_or_ge k xs.length with hk | hk
    · simp [hk, List.getD_eq_getElem?_getD]
    · rw [List.getElem?_eq_none hk, List.getElem?_eq_none (by simpa using hk)]; rfl
  rw [h1, List.filter_map]
  congr 1
  have h2 : ((fun x : String × Nat => decide (x.2 ≤ i)) ∘ fun j => (xs.getD j "", j)) = fun j => decide (j ≤ i) := rfl
  rw [h2]
  obtain ⟨k, hk⟩ : ∃ k, xs.length = (i + 1) + k := ⟨xs.length - (i + 1), by omega⟩
  rw [hk, List.range_add, List.filter_append]
  rw [List.filter_eq_self.mpr (by intro a ha; simp only [List.mem_range] at ha; simp; omega)]
  rw [List.filter_eq_nil_iff.mpr (by intro a ha; simp only [List.mem_map] at ha; obtain ⟨b, _, rfl⟩ := ha; simp; omega)]
  simp

theorem cholcovs_block (k : Nat) (xs : List String) (val : Loc → β) :
    (initialCholcovsIndexTuples k xs).map val = (List.range k).flatMap (fun e =>
      (trilIndices xs.length).map (fun ij => val ⟨.initialCholcovs, 0, "mixture_" ++ toString e,
        xs.getD ij.1 "" ++ "-" ++ xs.getD ij.2 ""⟩)) := by
  unfold initialCholcovsIndexTuples trilIndices
  simp only [List.map_flatMap, List.map_map]
  congr 1
  funext e
  have h1 : xs.zipIdx = (List.range xs.length).map (fun j => (xs.getD j "", j)) := by
    apply List.ext_getElem?
    intro k
    rw [List.getElem?_zipIdx, List.getElem?_map]
    rcases Nat.lt_or_ge k xs.length with hk | hk
    · simp [hk, List.getD_eq_getElem?_getD]
    · rw [List.getElem?_eq_none hk, List.getElem?_eq_none (by simpa using hk)]; rfl
  conv_lhs => arg 2; rw [h1]
  rw [List.flatMap_map, List.flatMap_def, List.flatMap_def]
  congr 1
  apply List.map_congr_left
  intro i hi
  simp only [List.mem_range] at hi
  have := zipIdx_filter_le xs i hi
  dsimp only
  have h2 : (xs.zipIdx.filter (fun x => match x with | (_, col) => decide (col ≤ i))) =
      xs.zipIdx.filter (fun x => decide (x.2 ≤ i)) := rfl
  rw [h2, this, List.map_map]
  rfl

theorem chols_explicit [Zero β] {m : ModelDict α} {pm : Processed α} (h : processModel m = .ok pm) (val : Loc → β)
    {info : ParsingInfo} (hi : info.initialCholcovs = selectCategory pm.paramsIndex .initialCholcovs) (nObs : Nat)
    (hmix : pm.dimensions.nMixtures ≠ 0) :
    getInitialUpperChols (pm.paramsIndex.map val) info pm.dimensions nObs =
      .ok (List.replicate nObs ((List.range pm.dimensions.nMixtures).map (fun e =>
        (List.range m.factors.length).map (fun i => (List.range m.factors.length).map (fun j =>
          if i ≤ j then val ⟨.initialCholcovs, 0, "mixture_" ++ toString e,
            (m.factors.map Prod.fst).getD j "" ++ "-" ++ (m.factors.map Prod.fst).getD i ""⟩ else 0))))) := by
  unfold getInitialUpperChols
  rw [hi, gather_category]
  simp only [bind, Except.bind]
  simp only [block, (labels_of_ok h).1]
  rw [cholcovs_block]
  have := reshapeRows_flatMap (xs := List.range pm.dimensions.nMixtures)
    (f := fun e => (trilIndices (m.factors.map Prod.fst).length).map (fun ij => val ⟨.initialCholcovs, 0, "mixture_" ++ toString e,
        (m.factors.map Prod.fst).getD ij.1 "" ++ "-" ++ (m.factors.map Prod.fst).getD ij.2 ""⟩))
    (k := (trilIndices (m.factors.map Prod.fst).length).length) (by simp) (by simpa using hmix)
  rw [List.length_range] at this
  rw [this]
  dsimp only
  rw [(dims_of_ok h).1]
  rw [mapM_pure_ok _ (fun e => (List.range m.factors.length).map (fun i => (List.range m.factors.length).map (fun j =>
          if i ≤ j then val ⟨.initialCholcovs, 0, "mixture_" ++ toString e,
            (m.factors.map Prod.fst).getD j "" ++ "-" ++ (m.factors.map Prod.fst).getD i ""⟩ else 0)))]
  · rfl
  · intro e he
    simp only [List.mem_range] at he
    unfold pyIndex
    rw [List.getElem?_map, List.getElem?_range he]
    dsimp only [Option.map_some]
    rw [fillTril_map]
    dsimp only
    rw [transposeSq_range (m.factors.map Prod.fst).length (fun i j => if j ≤ i then val ⟨.initialCholcovs, 0, "mixture_" ++ toString e,
        (m.factors.map Prod.fst).getD i "" ++ "-" ++ (m.factors.map Prod.fst).getD j ""⟩ else 0)]
    simp only [List.length_map]
    rfl

/-- The labels of the transition parameters of a factor. -/
theorem transition_labels {m : ModelDict α} {pm : Processed α} (h : processModel m = .ok pm) (hk : DictKeys m)
    {f : String} {names : List String} (hf : (f, names) ∈ pm.transitionInfo.paramNames) :
    pm.paramsIndex.filter (fun l => decide (l.cat = .transition ∧ l.name1 = f)) =
      (List.range (pm.dimensions.nPeriods - 1)).flatMap (fun t => names.map (fun nm => ⟨.transition, t, f, nm⟩)) := by
  have h1 : pm.paramsIndex.filter (fun l => decide (l.cat = .transition ∧ l.name1 = f)) =
      (block pm.labels pm.dimensions pm.transitionInfo pm.updateInfo .transition).filter (fun x => decide (x.name1 = f)) := by
    rw [← filter_cat, List.filter_filter]
    congr 1; funext x; simp [and_comm]
  rw [h1]
  obtain ⟨_, _, _, hper, _, hti, _⟩ := labels_of_ok h
  have hnd : (pm.transitionInfo.paramNames.map Prod.fst).Nodup := by
    rw [(getTransitionInfo_spec hti).1]; exact hk.factors
  simp only [block, transitionIndexTuples, hper, range_dropLast, List.filter_flatMap]
  generalize pm.transitionInfo.paramNames = d at hf hnd
  induction d with
  | nil => cases hf
  | cons a d ih =>
    simp only [List.map_cons, List.nodup_cons] at hnd
    rw [List.flatMap_cons]
    rcases List.mem_cons.mp hf with e | hmem
    · have hrest : d.flatMap (fun x => List.flatMap (fun p => List.filter (fun x => decide (x.name1 = f))
          (x.2.map (fun n => (⟨.transition, p, x.1, n⟩ : Loc)))) (List.range (pm.dimensions.nPeriods - 1))) = [] := by
        rw [List.flatMap_eq_nil_iff]
        intro x hx
        rw [List.flatMap_eq_nil_iff]
        intro p _
        rw [List.filter_eq_nil_iff]
        intro l hl
        simp only [List.mem_map] at hl
        obtain ⟨_, _, rfl⟩ := hl
        simp only [decide_eq_true_eq]
        intro e2
        apply hnd.1
        rw [← e]
        exact List.mem_map.mpr ⟨x, hx, e2⟩
      rw [hrest, List.append_nil, ← e]
      dsimp only
      congr 1
      funext p
      rw [List.filter_eq_self]
      intro l hl
      simp only [List.mem_map] at hl
      obtain ⟨_, _, rfl⟩ := hl
      simp
    · have hfirst : List.flatMap (fun p => List.filter (fun x => decide (x.name1 = f))
          (a.2.map (fun n => (⟨.transition, p, a.1, n⟩ : Loc)))) (List.range (pm.dimensions.nPeriods - 1)) = [] := by
        rw [List.flatMap_eq_nil_iff]
        intro p _
        rw [List.filter_eq_nil_iff]
        intro l hl
        simp only [List.mem_map] at hl
        obtain ⟨_, _, rfl⟩ := hl
        simp only [decide_eq_true_eq]
        rintro rfl
        exact hnd.1 (List.mem_map.mpr ⟨_, hmem, rfl⟩)
      rw [hfirst, List.nil_append]
      exact ih hmem hnd.2

theorem transition_explicit {m : ModelDict α} {pm : Processed α} (h : processModel m = .ok pm) (hk : DictKeys m)
    (hn : pm.paramsIndex.Nodup) (val : Loc → β) {info : ParsingInfo}
    (hi : pm.labels.latentFactors.mapM (fun f => do
      let pos ← selectTransition pm.paramsIndex f
      pure (f, pos)) = .ok info.transition) (hp : 2 ≤ pm.dimensions.nPeriods) :
    getTransitionParams (pm.paramsIndex.map val) info pm.labels =
      .ok (pm.transitionInfo.paramNames.map (fun fn => (fn.1,
        (List.range (pm.dimensions.nPeriods - 1)).map (fun t => fn.2.map
          (fun nm => val ⟨.transition, t, fn.1, nm⟩))))) := by
  obtain ⟨hlat, _, _, hper, _, hti, _⟩ := labels_of_ok h
  have hkeys := (getTransitionInfo_spec hti).1
  unfold getTransitionParams
  rw [mapM_ok_iff]
  have hl : pm.labels.latentFactors = pm.transitionInfo.paramNames.map Prod.fst := by rw [hlat, hkeys]
  rw [mapM_ok_iff] at hi
  have hi2 : ∀ f ∈ pm.labels.latentFactors, ∃ pos, selectTransition pm.paramsIndex f = .ok pos ∧ (f, pos) ∈ info.transition := by
    intro f hf
    obtain ⟨y, hy, e⟩ := forall₂_mem hi hf
    rw [py_bind_ok] at e
    obtain ⟨pos, e1, e2⟩ := e
    rw [py_pure_ok] at e2
    exact ⟨pos, e1, e2 ▸ hy⟩
  have hkeysi : (info.transition.map Prod.fst).Nodup := by
    have : info.transition.map Prod.fst = pm.labels.latentFactors := by
      generalize pm.labels.latentFactors = ls at hi
      generalize info.transition = ts at hi
      clear hi2
      induction hi with
      | nil => rfl
      | cons e _ ih =>
        rw [py_bind_ok] at e
        obtain ⟨pos, e1, e2⟩ := e
        rw [py_pure_ok] at e2
        rw [List.map_cons, ih, ← e2]
    rw [this, hlat]; exact hk.factors
  rw [hl, List.forall₂_map_left_iff, List.forall₂_map_right_iff, List.forall₂_same]
  rintro ⟨f, names⟩ hmem
  obtain ⟨pos, e1, e2⟩ := hi2 f (by rw [hl]; exact List.mem_map.mpr ⟨_, hmem, rfl⟩)
  rw [Dict.getItem_of_mem hkeysi e2]
  simp only [bind, Except.bind]
  unfold selectTransition at e1
  split at e1
  · cases e1
    rw [transition_labels h hk hmem]
    rw [gather_labels hn (by
      intro l hl2
      rw [← transition_labels h hk hmem] at hl2
      exact List.mem_of_mem_filter hl2)]
    dsimp only
    have hlen : pm.labels.periods.length - 1 = (List.range (pm.dimensions.nPeriods - 1)).length := by
      rw [hper]; simp
    rw [hlen, List.map_flatMap]
    simp only [List.map_map]
    rw [reshapeRows_flatMap (k := names.length) (by simp) (by simp; omega)]
    rfl
  · cases e1

end Skill
