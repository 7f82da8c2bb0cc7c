import Verif.Props.ConstrainedEstimation
import Verif.Model.SimulateDataset
import Verif.Model.TransitionPlots
import Verif.Model.CorrelationHeatmap
import Verif.Model.Gradient
import Verif.Spec.Restrictions

/-! C130: stagemap, normalizations, flags for free anchoring parameters and bounds only restrict the parameters. -/

namespace Skill
open Spec
variable {m m' : ModelDict ℝ} {pm pm' : Processed ℝ}

theorem sameUpTo_symm (h : SameUpToRestrictions m m') : SameUpToRestrictions m' m := h.symm

theorem sameUpTo_factors (h : SameUpToRestrictions m m') : m.factors.map (fun fs => (fs.1, ({ fs.2 with normalizations := none } : FactorSpec ℝ))) = m'.factors.map (fun fs => (fs.1, ({ fs.2 with normalizations := none } : FactorSpec ℝ))) :=
  congrArg ModelDict.factors h

theorem sameUpTo_map {β : Type} (h : SameUpToRestrictions m m') (g : String → List (List String) → TransSpec → β) :
    m.factors.map (fun fs => g fs.1 fs.2.measurements fs.2.transition) = m'.factors.map (fun fs => g fs.1 fs.2.measurements fs.2.transition) := by
  have := congrArg (List.map (fun fs : String × FactorSpec ℝ => g fs.1 fs.2.measurements fs.2.transition)) (sameUpTo_factors h)
  simpa [List.map_map, Function.comp_def] using this

theorem sameUpTo_mapM {β : Type} (h : SameUpToRestrictions m m') (g : String → List (List String) → TransSpec → Py β) :
    m.factors.mapM (fun fs => g fs.1 fs.2.measurements fs.2.transition) = m'.factors.mapM (fun fs => g fs.1 fs.2.measurements fs.2.transition) := by
  have e : ∀ m : ModelDict ℝ, m.factors.mapM (fun fs => g fs.1 fs.2.measurements fs.2.transition) = (m.factors.map (fun fs => g fs.1 fs.2.measurements fs.2.transition)).mapM id := by
    intro m
    rw [List.mapM_map]
    rfl
  rw [e, e, sameUpTo_map h]

theorem sameUpTo_factor (h : SameUpToRestrictions m m') {f : String} {spec : FactorSpec ℝ} (hf : (f, spec) ∈ m.factors) :
    ∃ spec', (f, spec') ∈ m'.factors ∧ spec'.measurements = spec.measurements ∧ spec'.transition = spec.transition := by
  have h1 : (f, spec.measurements, spec.transition) ∈ m'.factors.map (fun fs => (fs.1, fs.2.measurements, fs.2.transition)) := by
    rw [← sameUpTo_map h (fun f ms t => (f, ms, t))]
    exact List.mem_map.mpr ⟨_, hf, rfl⟩
  obtain ⟨⟨g, spec'⟩, h2, h3⟩ := List.mem_map.mp h1
  simp only [Prod.mk.injEq] at h3
  obtain ⟨rfl, h4, h5⟩ := h3
  exact ⟨spec', h2, h4, h5⟩

theorem sameUpTo_observed (h : SameUpToRestrictions m m') : m.observedFactors = m'.observedFactors := by simpa only [withoutRestrictions] using congrArg ModelDict.observedFactors h

theorem sameUpTo_controls (h : SameUpToRestrictions m m') : m.controls = m'.controls := by simpa only [withoutRestrictions] using congrArg ModelDict.controls h

theorem sameUpTo_anchoring (h : SameUpToRestrictions m m') : (m.anchoring = none ∧ m'.anchoring = none) ∨
    ∃ a a', m.anchoring = some a ∧ m'.anchoring = some a' ∧ a.outcomes = a'.outcomes ∧ a.ignoreConstant = a'.ignoreConstant := by
  have := congrArg ModelDict.anchoring h
  simp only [withoutRestrictions] at this
  cases h1 : m.anchoring with
  | none =>
    rw [h1] at this
    exact Or.inl ⟨rfl, Option.map_eq_none_iff.mp this.symm⟩
  | some a =>
    rw [h1] at this
    cases h2 : m'.anchoring with
    | none => rw [h2] at this; cases this
    | some a' =>
      rw [h2] at this
      simp only [Option.map_some, Option.some.injEq, AnchoringSpec.mk.injEq, true_and] at this
      exact Or.inr ⟨a, a', rfl, rfl, this.1, this.2⟩

theorem sameUpTo_options (h : SameUpToRestrictions m m') : (m.estimationOptions = none ∧ m'.estimationOptions = none) ∨
    ∃ o o' : EstSpec ℝ, m.estimationOptions = some o ∧ m'.estimationOptions = some o' ∧ o' = { o with robustBounds := o'.robustBounds, boundsDistance := o'.boundsDistance } := by
  have := congrArg ModelDict.estimationOptions h
  simp only [withoutRestrictions] at this
  cases h1 : m.estimationOptions with
  | none =>
    rw [h1] at this
    exact Or.inl ⟨rfl, Option.map_eq_none_iff.mp this.symm⟩
  | some o =>
    rw [h1] at this
    cases h2 : m'.estimationOptions with
    | none => rw [h2] at this; cases this
    | some o' =>
      rw [h2] at this
      obtain ⟨a1, a2, a3, a4, a5, a6, a7, a8⟩ := o
      obtain ⟨b1, b2, b3, b4, b5, b6, b7, b8⟩ := o'
      simp only [Option.map_some, Option.some.injEq, EstSpec.mk.injEq, true_and] at this
      obtain ⟨rfl, rfl, rfl, rfl, rfl, rfl⟩ := this
      exact Or.inr ⟨_, _, rfl, rfl, rfl⟩

theorem sameUpTo_dimensions (h : SameUpToRestrictions m m') : getDimensions m = getDimensions m' := by
  unfold getDimensions
  have h1 := sameUpTo_map h (fun _ ms _ => ms.length)
  have h2 : m.factors.length = m'.factors.length := by simpa using congrArg List.length h1
  rw [h1, h2, sameUpTo_observed h, sameUpTo_controls h]
  rcases sameUpTo_options h with ⟨h3, h4⟩ | ⟨o, o', h3, h4, h5⟩
  · rw [h3, h4]
  · rw [h5] at h4
    rw [h3, h4]
    rfl

theorem sameUpTo_fns (h : SameUpToRestrictions m m') (custom : String → CustomFn) : transitionFns custom m = transitionFns custom m' :=
  sameUpTo_map h (fun f _ t => (f, transFnOf (custom f) t))

/-- The processed models differ only in the entries that constraints and bounds are made of. -/
theorem sameUpTo_processed (h : SameUpToRestrictions m m') (hpm : processModel m = .ok pm) (hpm' : processModel m' = .ok pm') :
    pm' = { pm with
      labels := { pm.labels with stagemap := pm'.labels.stagemap, stages := pm'.labels.stages }
      anchoring := { pm.anchoring with freeControls := pm'.anchoring.freeControls, freeConstant := pm'.anchoring.freeConstant, freeLoadings := pm'.anchoring.freeLoadings }
      estimationOptions := { pm.estimationOptions with robustBounds := pm'.estimationOptions.robustBounds, boundsDistance := pm'.estimationOptions.boundsDistance }
      normalizations := pm'.normalizations } := by
  obtain ⟨d1, _, t1, l1, a1, e1, u1, _⟩ := processModel_ok_iff.mp hpm
  obtain ⟨d2, _, t2, l2, a2, e2, u2, _⟩ := processModel_ok_iff.mp hpm'
  have hd : pm'.dimensions = pm.dimensions := Except.ok.inj (d2.symm.trans ((sameUpTo_dimensions h).symm.trans d1))
  have hkeys : Dict.keys m.factors = Dict.keys m'.factors := sameUpTo_map h (fun f _ _ => f)
  have hobs := sameUpTo_observed h
  have hcon := sameUpTo_controls h
  have ht : pm'.transitionInfo = pm.transitionInfo := by
    have e : getTransitionInfo m (getLabels m pm.dimensions) = getTransitionInfo m' (getLabels m' pm'.dimensions) := by
      unfold getTransitionInfo
      have e1 : (getLabels m pm.dimensions).allFactors = (getLabels m' pm'.dimensions).allFactors := by
        simp only [getLabels, hkeys, hobs]
      rw [e1]
      exact congrArg (· >>= _) (sameUpTo_mapM h (fun f _ t => do
        let r ← transitionNamesOf (getLabels m' pm'.dimensions).allFactors t
        pure (f, r)))
    exact Except.ok.inj (t2.symm.trans (e.symm.trans t1))
  have hl : pm'.labels = { pm.labels with stagemap := pm'.labels.stagemap, stages := pm'.labels.stages } := by
    rw [l1, l2, hd, ht]
    simp only [getLabels, hkeys, hobs, hcon]
  have ha : pm'.anchoring = { pm.anchoring with freeControls := pm'.anchoring.freeControls, freeConstant := pm'.anchoring.freeConstant, freeLoadings := pm'.anchoring.freeLoadings } := by
    rw [a1, a2]
    rcases sameUpTo_anchoring h with ⟨h3, h4⟩ | ⟨a, a', h3, h4, h5, h6⟩
    · simp only [processAnchoring, h3, h4]
    · simp only [processAnchoring, h3, h4, h5, h6]
  have heo : pm'.estimationOptions = { pm.estimationOptions with robustBounds := pm'.estimationOptions.robustBounds, boundsDistance := pm'.estimationOptions.boundsDistance } := by
    rw [e1, e2]
    rcases sameUpTo_options h with ⟨h3, h4⟩ | ⟨o, o', h3, h4, h5⟩
    · simp only [processEstimationOptions, h3, h4]
    · rw [h5] at h4
      simp only [processEstimationOptions, h3, h4, Option.getD_some]
  have hu : pm'.updateInfo = pm.updateInfo := by
    have e : getUpdateInfo m pm.dimensions pm.labels pm.anchoring = getUpdateInfo m' pm'.dimensions pm'.labels pm'.anchoring := by
      unfold getUpdateInfo
      have e1 : pm.labels.periods = pm'.labels.periods := by rw [hl]
      have e2 : pm.anchoring.outcomes = pm'.anchoring.outcomes := by rw [ha]
      rw [e1, e2, hd]
      exact congrArg (· >>= _) (sameUpTo_mapM h (fun f ms _ => do
        let filled ← fillList ms [] pm.dimensions.nPeriods
        pure (f, filled)))
    exact Except.ok.inj (u2.symm.trans (e.symm.trans u1))
  rw [← hl, ← ha, ← heo, ← hd, ← ht, ← hu]

theorem getMaximizationInputs_ok {df : LongData ℝ} {inputs : MaximizationInputs} : getMaximizationInputs m df = .ok inputs ↔ ∃ pm info data cs, processModel m = .ok pm ∧
    createParsingInfo pm.paramsIndex pm.updateInfo pm.labels pm.anchoring = .ok info ∧ processData df pm.labels pm.updateInfo pm.anchoring .estimation = .ok data ∧ pm.constraints = .ok cs ∧
    inputs = { model := pm, index := pm.paramsIndex, info := info, data := data, constraints := cs, template := pm.paramsTemplate } := by
  unfold getMaximizationInputs
  constructor
  · intro hin
    obtain ⟨pm, hpm, hin⟩ := py_bind_ok.mp hin
    obtain ⟨info, h1, hin⟩ := py_bind_ok.mp hin
    obtain ⟨data, h2, hin⟩ := py_bind_ok.mp hin
    obtain ⟨cs, h3, hin⟩ := py_bind_ok.mp hin
    exact ⟨pm, info, data, cs, hpm, h1, h2, h3, (py_pure_ok.mp hin).symm⟩
  · rintro ⟨pm, info, data, cs, hpm, h1, h2, h3, rfl⟩
    rw [hpm]
    refine py_bind_ok.mpr ⟨_, rfl, py_bind_ok.mpr ⟨_, h1, py_bind_ok.mpr ⟨_, h2, py_bind_ok.mpr ⟨_, h3, rfl⟩⟩⟩⟩

/-- Everything that the functions of get_maximization_inputs use besides the constraints and bounds. -/
theorem sameUpTo_inputs (h : SameUpToRestrictions m m') {df : LongData ℝ} {inputs inputs' : MaximizationInputs} (hin : getMaximizationInputs m df = .ok inputs) (hin' : getMaximizationInputs m' df = .ok inputs') :
    inputs'.index = inputs.index ∧ inputs'.model.updateInfo = inputs.model.updateInfo ∧ inputs'.model.labels.latentFactors = inputs.model.labels.latentFactors ∧
    ∀ (γ : Type) (post : (nObs nMix n : ℕ) → LoglikeResult nObs nMix n → Py γ) (qr : QR) (custom : String → CustomFn) (nan : ℝ) (vec : List ℝ),
      inputs'.evaluateVec post qr custom nan m' vec = inputs.evaluateVec post qr custom nan m vec := by
  obtain ⟨pm, info, data, cs, hpm, h1, h2, h3, rfl⟩ := getMaximizationInputs_ok.mp hin
  obtain ⟨pm', info', data', cs', hpm', h1', h2', h3', rfl⟩ := getMaximizationInputs_ok.mp hin'
  have e := sameUpTo_processed h hpm hpm'
  have hl : pm'.labels = { pm.labels with stagemap := pm'.labels.stagemap, stages := pm'.labels.stages } := by conv_lhs => rw [e]
  have hu : pm'.updateInfo = pm.updateInfo := by rw [e]
  have hi : pm'.paramsIndex = pm.paramsIndex := by
    rw [e]
    rfl
  have hinfo : info' = info := by
    refine Except.ok.inj (h1'.symm.trans (Eq.trans ?_ h1))
    rw [e]
    rfl
  have hdata : data' = data := by
    refine Except.ok.inj (h2'.symm.trans (Eq.trans ?_ h2))
    rw [e]
    rfl
  subst hinfo hdata
  refine ⟨hi, hu, by rw [hl], fun γ post qr custom nan vec => ?_⟩
  unfold MaximizationInputs.evaluateVec
  simp only [sameUpTo_fns h custom]
  rw [e]
  rfl

/-- **C130, data.** A dataset that get_maximization_inputs accepts for one of the models is accepted for the other, too. -/
theorem C130_same_data (h : SameUpToRestrictions m m') (hpm' : processModel m' = .ok pm') (he' : Estimable m') {df : LongData ℝ} {inputs : MaximizationInputs} (hin : getMaximizationInputs m df = .ok inputs) :
    ∃ inputs', getMaximizationInputs m' df = .ok inputs' := by
  obtain ⟨pm, info, data, cs, hpm, h1, h2, h3, rfl⟩ := getMaximizationInputs_ok.mp hin
  have e := sameUpTo_processed h hpm hpm'
  obtain ⟨cs', hcs', _⟩ := C120_admissible_iff hpm' he'
  refine ⟨_, getMaximizationInputs_ok.mpr ⟨pm', info, data, cs', hpm', ?_, ?_, hcs', rfl⟩⟩
  · rw [← h1, e]
    rfl
  · rw [← h2, e]
    rfl

/-- **C130.** The functions that get_maximization_inputs returns do not depend on the restrictions: two models that differ only in the stagemap, in normalizations, in the flags for free parameters of anchoring equations or in bounds
have the same parameters, and the same outputs of loglike, debug_loglike, gradient, jacobian and loglike_and_gradient (also the same exceptions) for all params. -/
theorem C130_same_likelihood (h : SameUpToRestrictions m m') {df : LongData ℝ} {inputs inputs' : MaximizationInputs} (hin : getMaximizationInputs m df = .ok inputs) (hin' : getMaximizationInputs m' df = .ok inputs')
    (d : JaxDerivatives) (jac : AD) (qr : QR) (custom : String → CustomFn) (nan : ℝ) (params : List (Loc × ℝ)) :
    inputs'.index = inputs.index ∧ inputs'.loglike qr custom nan m' params = inputs.loglike qr custom nan m params ∧ inputs'.debugLoglike qr custom nan m' params = inputs.debugLoglike qr custom nan m params ∧
    inputs'.gradient d qr custom nan m' params = inputs.gradient d qr custom nan m params ∧ inputs'.jacobian jac qr custom nan m' params = inputs.jacobian jac qr custom nan m params ∧
    inputs'.loglikeAndGradient d qr custom nan m' params = inputs.loglikeAndGradient d qr custom nan m params := by
  obtain ⟨hi, hu, hl, he⟩ := sameUpTo_inputs h hin hin'
  have hv : inputs'.valueAt qr custom nan m' = inputs.valueAt qr custom nan m := by
    funext vec
    unfold MaximizationInputs.valueAt
    rw [he]
  have hd : ∀ ad vec, inputs'.differentiate ad qr custom nan m' vec = inputs.differentiate ad qr custom nan m vec := by
    intro ad vec
    unfold MaximizationInputs.differentiate
    rw [he, hv]
  refine ⟨hi, ?_, ?_, ?_, ?_, ?_⟩
  · simp only [MaximizationInputs.loglike, MaximizationInputs.evaluate, he, hi]
  · simp only [MaximizationInputs.debugLoglike, MaximizationInputs.evaluate, he, hi, hu, hl]
  · simp only [MaximizationInputs.gradient, hd, hi]
  · simp only [MaximizationInputs.jacobian, hd, hi]
  · simp only [MaximizationInputs.loglikeAndGradient, hd, hi]

theorem sameUpTo_anchorStates (h : SameUpToRestrictions m m') (hpm : processModel m = .ok pm) (hpm' : processModel m' = .ok pm') (df : StatesFrame ℝ) (params : List (Loc × ℝ)) :
    anchorStatesDf Real.log df m' params = anchorStatesDf Real.log df m params := by
  have e := sameUpTo_processed h hpm hpm'
  unfold anchorStatesDf
  rw [hpm, hpm', e]
  rfl

/-- **C130, filtered states.** Filtered states, anchored and unanchored, do not depend on the restrictions. -/
theorem C130_same_filtered_states (h : SameUpToRestrictions m m') {df : LongData ℝ} {inputs inputs' : MaximizationInputs} (hin : getMaximizationInputs m df = .ok inputs) (hin' : getMaximizationInputs m' df = .ok inputs') (qr : QR)
    (custom : String → CustomFn) (nan : ℝ) (params : List (Loc × ℝ)) : getFilteredStates qr custom nan m' df params = getFilteredStates qr custom nan m df params := by
  have hs := fun params => (C130_same_likelihood h hin hin' ⟨fun _ _ _ _ => 0, fun _ _ _ _ => 0, fun _ _ _ _ => 0⟩ (fun _ _ _ _ => 0) qr custom nan params).2.2.1
  unfold getFilteredStates
  rw [hin, hin']
  obtain ⟨pm, info, data, cs, hpm, h1, h2, h3, rfl⟩ := getMaximizationInputs_ok.mp hin
  obtain ⟨pm', info', data', cs', hpm', h1', h2', h3', rfl⟩ := getMaximizationInputs_ok.mp hin'
  have e := sameUpTo_processed h hpm hpm'
  have ht : pm'.paramsTemplate.map Prod.fst = pm.paramsTemplate.map Prod.fst := by
    have : ∀ pm : Processed ℝ, pm.paramsTemplate.map Prod.fst = pm.paramsIndex := by
      intro pm
      simp [Processed.paramsTemplate, addBounds, List.map_map, Function.comp_def]
    rw [this, this, e]
    rfl
  have hl : pm'.labels.latentFactors = pm.labels.latentFactors := by rw [e]
  simp only [hpm, hpm', sameUpTo_anchorStates h hpm hpm']
  show (locParams params (pm'.paramsTemplate.map Prod.fst) >>= _) = (locParams params (pm.paramsTemplate.map Prod.fst) >>= _)
  rw [ht]
  refine congrArg (_ >>= ·) (funext fun params => ?_)
  show (MaximizationInputs.debugLoglike _ _ _ _ _ _ >>= _) = (MaximizationInputs.debugLoglike _ _ _ _ _ _ >>= _)
  rw [hs]
  refine congrArg (_ >>= ·) (funext fun debug => ?_)
  show (anchorStatesDf _ _ _ _ >>= _) = (anchorStatesDf _ _ _ _ >>= _)
  rw [hl]

/-- **C130, other functions.** Simulated datasets, transition plots and correlations do not depend on the restrictions. -/
theorem C130_same_outputs (h : SameUpToRestrictions m m') (hpm : processModel m = .ok pm) (hpm' : processModel m' = .ok pm') (custom : String → CustomFn) (nan : ℝ) (params : List (Loc × ℝ)) :
    (∀ root nObs data policies draws, simulateDataset root custom nan m' params nObs data policies draws = simulateDataset root custom nan m params nObs data policies draws) ∧
    (∀ sample data states period stateRanges quantiles nPoints nDraws, getTransitionPlots nan sample custom m' params data states period stateRanges quantiles nPoints nDraws =
      getTransitionPlots nan sample custom m params data states period stateRanges quantiles nPoints nDraws) ∧
    ∀ df factors periods, getMeasurementsCorr df m' factors periods = getMeasurementsCorr df m factors periods ∧ getQuasiScoresCorr df m' factors periods = getQuasiScoresCorr df m factors periods ∧
      getScoresCorr df params m' factors periods = getScoresCorr df params m factors periods := by
  have e := sameUpTo_processed h hpm hpm'
  have hf := sameUpTo_fns h custom
  have ha := sameUpTo_anchorStates h hpm hpm'
  refine ⟨?_, ?_, ?_⟩
  · intro root nObs data policies draws
    unfold simulateDataset simulateProcessed
    simp only [hpm, hpm', ha, hf]
    rw [e]
    rfl
  · intro sample data states period stateRanges quantiles nPoints nDraws
    unfold getTransitionPlots
    simp only [hpm, hpm', hf]
    rw [e]
    rfl
  · intro df factors periods
    refine ⟨?_, ?_, ?_⟩
    · unfold getMeasurementsCorr
      rw [hpm, hpm', e]
      rfl
    · unfold getQuasiScoresCorr
      rw [hpm, hpm', e]
      rfl
    · unfold getScoresCorr
      rw [hpm, hpm', e]
      rfl

/-! ### nested restrictions -/

theorem sameUpTo_latent (h : SameUpToRestrictions m m') {f : String} (hf : IsLatent m f) : IsLatent m' f := by
  obtain ⟨spec, hf⟩ := hf
  obtain ⟨spec', hf', _⟩ := sameUpTo_factor h hf
  exact ⟨spec', hf'⟩

theorem sameUpTo_period (h : SameUpToRestrictions m m') {t : Nat} (ht : IsPeriod m t) : IsPeriod m' t := by
  obtain ⟨n, ⟨⟨f, spec, hf, hlen⟩, hle⟩, ht⟩ := ht
  obtain ⟨spec', hf', hm, _⟩ := sameUpTo_factor h hf
  refine ⟨n, ⟨⟨f, spec', hf', by rw [hm, hlen]⟩, fun g spec'' hg => ?_⟩, ht⟩
  obtain ⟨spec3, hg3, hm3, _⟩ := sameUpTo_factor (sameUpTo_symm h) hg
  rw [← hm3]
  exact hle _ _ hg3

theorem sameUpTo_anchors (h : SameUpToRestrictions m m') {v f : String} (ha : Anchors m v f) : Anchors m' v f := by
  obtain ⟨o, ⟨a, h1, os, h2, h3⟩, rfl⟩ := ha
  rcases sameUpTo_anchoring h with ⟨h4, _⟩ | ⟨b, b', h4, h5, h6, _⟩
  · rw [h4] at h1; cases h1
  · rw [h4] at h1
    cases h1
    exact ⟨o, ⟨b', h5, os, by rw [← h6, h2], h3⟩, rfl⟩

theorem sameUpTo_update (h : SameUpToRestrictions m m') {t : Nat} {v : String} (hu : IsUpdate m t v) : IsUpdate m' t v := by
  rcases hu with ⟨f, spec, hf, ms, h1, h2⟩ | ⟨h1, f, h2⟩
  · obtain ⟨spec', hf', hm, _⟩ := sameUpTo_factor h hf
    exact Or.inl ⟨f, spec', hf', ms, by rw [hm, h1], h2⟩
  · exact Or.inr ⟨sameUpTo_period h h1, f, sameUpTo_anchors h h2⟩

theorem sameUpTo_mixtures (h : SameUpToRestrictions m m') {k : Nat} (hk : HasNMixtures m k) : HasNMixtures m' k := by
  obtain ⟨o, h1, h2⟩ := hk
  rcases sameUpTo_options h with ⟨h4, _⟩ | ⟨b, b', h4, h5, h6⟩
  · rw [h4] at h1; cases h1
  · rw [h4] at h1
    cases h1
    exact ⟨b', h5, by rw [h6]; exact h2⟩

theorem sameUpTo_distance (h : SameUpToRestrictions m m') {d : ℝ} (hd : BoundsDistance m d) : ∃ d', BoundsDistance m' d' := by
  obtain ⟨o, h1, _⟩ := hd
  rcases sameUpTo_options h with ⟨h4, _⟩ | ⟨b, b', h4, h5, h6⟩
  · rw [h4] at h1; cases h1
  · by_cases hr : b'.robustBounds = some false
    · exact ⟨0, b', h5, Or.inl ⟨hr, rfl⟩⟩
    · exact ⟨_, b', h5, Or.inr ⟨hr, rfl⟩⟩

theorem sameUpTo_allFactors (h : SameUpToRestrictions m m') : allFactors m = allFactors m' := by
  unfold allFactors
  rw [sameUpTo_map h (fun f _ _ => f), sameUpTo_observed h]

/-- More restrictions allow fewer values. -/
theorem admissible_of_restrictions (h : HasRestrictionsOf m m') {val : Loc → ℝ} (hv : Admissible m' val) : Admissible m val := by
  have hs := h.same
  have hstage : ∀ {p q s}, StageOf m p s → StageOf m q s → ∃ s', StageOf m' p s' ∧ StageOf m' q s' := fun h1 h2 => h.stages _ _ _ h1 h2
  refine ⟨?_, ?_, ?_, ?_, ?_, ?_, ?_, ?_, ?_⟩
  · intro l x hl
    apply hv.fixes
    cases hl with
    | loading h1 h2 =>
      obtain ⟨spec', h3, h4⟩ := h.loadings _ _ _ _ _ h1 h2
      exact .loading h3 h4
    | intercept h1 h2 =>
      obtain ⟨spec', h3, h4⟩ := h.intercepts _ _ _ _ _ h1 h2
      exact .intercept h3 h4
    | weight h1 => exact .weight (sameUpTo_mixtures hs h1)
    | shock h1 h2 h3 =>
      obtain ⟨spec', h4, _, h5⟩ := sameUpTo_factor hs h1
      exact .shock h4 (by rw [h5]; exact h2) (sameUpTo_period hs h3)
    | anchorConstant h1 h2 h3 => exact .anchorConstant (fun h4 => h1 (h.freeConstant h4)) (sameUpTo_anchors hs h2) (sameUpTo_period hs h3)
    | anchorControl h1 h2 h3 h4 h5 => exact .anchorControl (fun h4 => h1 (h.freeControls h4)) (sameUpTo_anchors hs h2) (sameUpTo_period hs h3) (by rw [← sameUpTo_controls hs]; exact h4) h5
    | anchorLoading h1 h2 h3 h4 => exact .anchorLoading (fun h4 => h1 (h.freeLoadings h4)) (sameUpTo_anchors hs h2) (sameUpTo_latent hs h3) (sameUpTo_period hs h4)
  · exact fun k hk => hv.weights k (sameUpTo_mixtures hs hk)
  · intro p q s hp hq f spec name hf hn
    obtain ⟨s', hp', hq'⟩ := hstage hp hq
    obtain ⟨spec', hf', _, ht⟩ := sameUpTo_factor hs hf
    exact hv.stages p q s' hp' hq' f spec' name hf' (by rw [← sameUpTo_allFactors hs, ht]; exact hn)
  · intro p q s hp hq f hf
    obtain ⟨s', hp', hq'⟩ := hstage hp hq
    exact hv.stageShocks p q s' hp' hq' f (sameUpTo_latent hs hf)
  · intro k f hk hf
    exact hv.order k f (sameUpTo_mixtures hs hk) (by rw [← sameUpTo_map hs (fun f _ _ => f)]; exact hf)
  · intro t f spec ht hf hc
    obtain ⟨spec', hf', _, htr⟩ := sameUpTo_factor hs hf
    rw [sameUpTo_allFactors hs]
    exact hv.shares t f spec' (sameUpTo_period hs ht) hf' (by rw [htr]; exact hc)
  · intro d t v hd hu
    obtain ⟨d', hd'⟩ := sameUpTo_distance hs hd
    exact (h.bounds d d' hd hd').trans (hv.measSds d' t v hd' (sameUpTo_update hs hu))
  · intro d t f hd ht hf
    obtain ⟨d', hd'⟩ := sameUpTo_distance hs hd
    exact (h.bounds d d' hd hd').trans (hv.shockSds d' t f hd' (sameUpTo_period hs ht) (sameUpTo_latent hs hf))
  · intro d k e f hd hk he hf
    obtain ⟨d', hd'⟩ := sameUpTo_distance hs hd
    exact (h.bounds d d' hd hd').trans (hv.diagonal d' k e f hd' (sameUpTo_mixtures hs hk) he (sameUpTo_latent hs hf))

/-- **C130, restrictions.** The values that satisfy the constraints and bounds of a model with more restrictions satisfy those of the model with fewer restrictions. -/
theorem C130_nested (h : HasRestrictionsOf m m') (he : Estimable m) (he' : Estimable m') {df : LongData ℝ} {inputs inputs' : MaximizationInputs} (hin : getMaximizationInputs m df = .ok inputs)
    (hin' : getMaximizationInputs m' df = .ok inputs') (B : Loc → ℝ) : Feasible inputs' B ⊆ Feasible inputs B := by
  rw [C120_feasible he hin, C120_feasible he' hin']
  exact fun val hv => ⟨admissible_of_restrictions h hv.1, hv.2⟩

theorem sameUpTo_params (h : SameUpToRestrictions m m') (hpm : processModel m = .ok pm) (hpm' : processModel m' = .ok pm') {params : List (Loc × ℝ)} {val : Loc → ℝ} (hp : ParamsWith m' params val) : ParamsWith m params val := by
  refine ⟨hp.nodup, fun l => ?_, hp.values⟩
  rw [hp.labels l, ← mem_paramsIndex_iff hpm l, ← mem_paramsIndex_iff hpm' l, sameUpTo_processed h hpm hpm']
  rfl

/-- **C130, estimates.** Estimates with fewer restrictions never have a lower likelihood. -/
theorem C130_higher_maximum (h : HasRestrictionsOf m m') (he : Estimable m) (he' : Estimable m') {df : LongData ℝ} {inputs inputs' : MaximizationInputs} (hin : getMaximizationInputs m df = .ok inputs)
    (hin' : getMaximizationInputs m' df = .ok inputs') (B : Loc → ℝ) (qr : QR) (custom : String → CustomFn) (nan : ℝ) {val val' : Loc → ℝ} (hmax : Maximizes (loglikeValue qr custom nan m df) m (Feasible inputs B) val)
    (hmax' : Maximizes (loglikeValue qr custom nan m' df) m' (Feasible inputs' B) val') {params params' : List (Loc × ℝ)} (hp : ParamsWith m params val) (hp' : ParamsWith m' params' val') {x x' : ℝ}
    (hx : loglikeValue qr custom nan m df params = .ok x) (hx' : loglikeValue qr custom nan m' df params' = .ok x') : x' ≤ x := by
  obtain ⟨pm, _, _, _, hpm, _⟩ := getMaximizationInputs_ok.mp hin
  obtain ⟨pm', _, _, _, hpm', _⟩ := getMaximizationInputs_ok.mp hin'
  refine hmax.highest params x hp hx val' (C130_nested h he he' hin hin' B hmax'.admissible) params' x' (sameUpTo_params h.same hpm hpm' hp') ?_
  rw [← hx']
  unfold loglikeValue
  rw [hin, hin']
  show (inputs.loglike qr custom nan m params' >>= _) = (inputs'.loglike qr custom nan m' params' >>= _)
  rw [(C130_same_likelihood h.same hin hin' ⟨fun _ _ _ _ => 0, fun _ _ _ _ => 0, fun _ _ _ _ => 0⟩ (fun _ _ _ _ => 0) qr custom nan params').2.1]

end Skill
