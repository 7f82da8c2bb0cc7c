import Verif.Lemmas.Pipeline
import Verif.Lemmas.PipelineLaw3
import Verif.Lemmas.Utilities
import Verif.Lemmas.FilterContinuity
import Verif.Lemmas.LikelihoodBounds
import Verif.Lemmas.Masking
import Verif.Lemmas.UpdateOrder
/-
C70, C71: the likelihood function from the inputs of the user (model dictionary, dataset, parameter DataFrame).
-/
namespace Skill
open Matrix MeasureTheory ProbabilityTheory Spec

/-- What the likelihood function computes, in terms of the labels of parameters. -/
theorem evaluate_explicit {γ : Type} {post : (nObs nMix n : ℕ) → LoglikeResult nObs nMix n → Py γ} {m : ModelDict ℝ} (hg : GoodNames m) (hc : CleanAnchoring m) (ho : SameOrder m) {df : LongData ℝ}
    {inputs : MaximizationInputs} (hin : getMaximizationInputs m df = .ok inputs) {qr : QR} {custom : String → CustomFn} {nan : ℝ} {params : List (Loc × ℝ)} (hn : (params.map Prod.fst).Nodup) {val : Loc → ℝ}
    (hval : ∀ l x, (l, x) ∈ params → x = val l) {out : γ} (h : inputs.evaluate post qr custom nan m params = .ok out) {nObs : ℕ} (hObs : (inputs.data.controls.headD []).length = nObs) :
    ∃ (pm : Processed ℝ) (nT : ℕ) (con : Fin (nT + 2) → Fin nObs → Fin (nCon m) → ℝ) (obs : Fin (nT + 2) → Fin nObs → Fin (nObsd m) → ℝ) (data : Fin pm.updateInfo.length → Fin nObs → Option ℝ)
      (r : LoglikeResult nObs pm.dimensions.nMixtures (nLat m)),
      processModel m = .ok pm ∧ pm.dimensions.nPeriods = nT + 2 ∧ processData df pm.labels pm.updateInfo pm.anchoring .estimation = .ok inputs.data ∧
      (∀ (t : Fin (nT + 2)) (i : Fin nObs) (j : Fin (nCon m)), ∃ w, entry3 inputs.data.controls t i j = some w ∧ con t i j = w.getD nan) ∧
      (∀ (t : Fin (nT + 2)) (i : Fin nObs) (j : Fin (nObsd m)), ∃ w, entry3 inputs.data.observedFactors t i j = some w ∧ obs t i j = w.getD nan) ∧
      (∀ (k : Fin pm.updateInfo.length) (i : Fin nObs), entry2 (inputs.data.measurements.getD []) k i = some (data k i)) ∧
      logLikelihood qr (labelFixed custom m pm val nObs nT con obs) (clipOptions pm.estimationOptions) (labelCarry m val nObs pm.dimensions.nMixtures)
        (loopArgs (nT + 1) (pm.updateInfo.map (labelRow m val)) (List.ofFn data)) = .ok r ∧
      post nObs pm.dimensions.nMixtures (nLat m) r = .ok out := by
  unfold getMaximizationInputs at hin
  simp only [py_bind_ok, py_pure_ok] at hin
  obtain ⟨pm, hpm, info, hinfo, data, hdata, cs, hcs, rfl⟩ := hin
  unfold MaximizationInputs.evaluate MaximizationInputs.evaluateVec at h
  simp only [py_bind_ok] at h
  obtain ⟨vec, hvec, p, hp, h⟩ := h
  obtain ⟨d1, d2, d3⟩ := dimensions_eq hpm
  have hvec' : vec = pm.paramsIndex.map val := by
    obtain ⟨a1, a2, _⟩ := C09_row_order_irrelevant (params := params) (target := pm.paramsIndex) hn
    by_cases hkeys : ∀ l, l ∈ params.map Prod.fst ↔ l ∈ pm.paramsIndex
    · obtain ⟨vec', hv', hlen, hget⟩ := a1 hkeys
      obtain rfl := Except.ok.inj (hvec.symm.trans hv')
      refine List.ext_getElem (by simp [hlen]) (fun k k1 k2 => ?_)
      have hk : k < pm.paramsIndex.length := by simpa using k2
      obtain ⟨⟨l, x⟩, hx, hl⟩ := List.mem_map.mp ((hkeys pm.paramsIndex[k]).mpr (List.getElem_mem hk))
      dsimp only at hl
      have := hget k pm.paramsIndex[k] x (List.getElem?_eq_getElem hk) (hl ▸ hx)
      rw [List.getElem?_eq_getElem k1] at this
      rw [List.getElem_map, Option.some.inj this, ← hl]
      exact hval l x hx
    · push Not at hkeys
      have := a2 (by simpa only [iff_iff_and_or_not_and_not, not_iff] using (by
        obtain ⟨l, hl⟩ := hkeys
        exact ⟨l, by tauto⟩ : ∃ l, ¬ (l ∈ params.map Prod.fst ↔ l ∈ pm.paramsIndex)))
      rw [this] at hvec
      cases hvec
  subst hvec'
  dsimp only at hp h hObs ⊢
  rw [hObs] at hp h
  have hparse : pm.parse Real.log (pm.paramsIndex.map val) nObs = .ok p := py_bind_ok.mpr ⟨info, hinfo, hp⟩
  obtain ⟨_, hT⟩ := parse_needs hpm hparse
  obtain ⟨nT, hT⟩ : ∃ nT, pm.dimensions.nPeriods = nT + 2 := ⟨pm.dimensions.nPeriods - 2, by omega⟩
  have hall : pm.labels.allFactors = allFactors m := (labels_of_ok hpm).2.2.2.2.1
  rw [hall, d1, d2, d3, show pm.dimensions.nPeriods - 2 = nT by omega] at h
  unfold logLikelihoodJax at h
  simp only [py_bind_ok, py_pure_ok] at h
  obtain ⟨fixed, h1, carry, h2, rows, h3, dat, h4, _, _, r, h5, h6⟩ := h
  obtain ⟨con, obs, rfl, hcon, hobs⟩ := scanInputs_label hpm hg hc ho custom hT hparse h1
  obtain rfl := initialCarry_label hpm hg hparse h2
  obtain rfl := loopParams_label hpm hg hparse h3
  exact ⟨pm, nT, con, obs, dat, r, hpm, hT, hdata, hcon, hobs, fun k i => (toArray2_ok h4).2 k i, h5, h6⟩

theorem isUpdate_period {m : ModelDict ℝ} {t : ℕ} {v : String} (h : IsUpdate m t v) : IsPeriod m t := by
  rcases h with ⟨f, spec, hf, ms, hms, _⟩ | ⟨h, _⟩
  · exact isPeriod_iff_exists.mpr ⟨f, spec, hf, (List.getElem?_eq_some_iff.mp hms).1⟩
  · exact h

/-- The rows of the parameters are as the state space model needs them. -/
theorem goodRows_label {m : ModelDict ℝ} {k : ℕ} (hm : LinearModel m k) {pm : Processed ℝ} (hpm : processModel m = .ok pm) {nT : ℕ} (hT : pm.dimensions.nPeriods = nT + 2) (val : Loc → ℝ) :
    GoodRows nT (pm.updateInfo.map (labelRow m val)) := by
  obtain ⟨h1, h2, h3, _⟩ := C01_update_info_exact hpm
  refine ⟨?_, ?_, ?_, ?_⟩
  · rw [List.pairwise_map]
    exact h3
  · rw [List.map_map]
    exact h1
  · intro r hr
    obtain ⟨r', hr', rfl⟩ := List.mem_map.mp hr
    have := isUpdate_period ((h2 _ _).mp ⟨_, hr', rfl, rfl⟩)
    rw [isPeriod_iff hpm] at this
    show r'.period ≤ nT + 1
    omega
  · intro t ht
    obtain ⟨v, f, hM⟩ := hm.measured t ((isPeriod_iff hpm t).mpr (by omega))
    obtain ⟨r, hr, h, _⟩ := (h2 t v).mpr (Or.inl ⟨f, hM⟩)
    exact ⟨_, List.mem_map.mpr ⟨r, hr, rfl⟩, h⟩

section
variable (custom : String → CustomFn) (m : ModelDict ℝ) (pm : Processed ℝ) (val : Loc → ℝ) (nT : ℕ) (cov : Covariates)

/-- The steps of the state space model of one individual. -/
noncomputable abbrev covArgs : List (LoopArgs 1 (nLat m) (nCon m)) := loopArgs (nT + 1) (pm.updateInfo.map (labelRow m val)) (covData pm.updateInfo cov)

noncomputable abbrev covSteps : List (Step (nLat m)) := (covArgs m pm val nT cov).map (stepOf (covFixed custom m pm val nT cov) 0)

theorem covSteps_length : (covSteps custom m pm val nT cov).length = pm.updateInfo.length := by
  rw [covSteps, List.length_map, covArgs, loopArgs_length _ _ (by simp [covData]), List.length_map]

/-- The density of the data `y` of the individual. -/
noncomputable def covDensity (y : Fin (covSteps custom m pm val nT cov).length → ℝ) : ℝ :=
  ∑ e : Fin pm.dimensions.nMixtures, val ⟨.mixtureWeights, 0, Spec.mixtureName e, "-"⟩ * kalmanDensity (covSteps custom m pm val nT cov) ((labelCarry m val 1 pm.dimensions.nMixtures).states 0 e)
    (((labelCarry m val 1 pm.dimensions.nMixtures).upperChols 0 e)ᵀ * (labelCarry m val 1 pm.dimensions.nMixtures).upperChols 0 e) y

end

theorem sigma_label {m : ModelDict ℝ} {pm : Processed ℝ} (hpm : processModel m = .ok pm) (hkappa : ∀ o x, m.estimationOptions = some o → o.sigmaPointsScale = some x → 0 ≤ x) (custom : String → CustomFn)
    (val : Loc → ℝ) (nObs nT : ℕ) (con : Fin (nT + 2) → Fin nObs → Fin (nCon m) → ℝ) (obs : Fin (nT + 2) → Fin nObs → Fin (nObsd m) → ℝ) :
    SigmaOptions (labelFixed custom m pm val nObs nT con obs) pm.estimationOptions.sigmaPointsScale := by
  have hk : 0 ≤ pm.estimationOptions.sigmaPointsScale := by
    rw [(processModel_ok_iff.mp hpm).2.2.2.2.2.1]
    unfold processEstimationOptions
    dsimp only
    cases ho : m.estimationOptions with
    | none => simp
    | some o =>
      rw [Option.getD_some]
      cases hx : o.sigmaPointsScale with
      | none => simp
      | some x => exact hkappa o x ho hx
  refine ⟨hk, ?_, rfl, rfl⟩
  have : 0 < nLat m := List.length_pos_of_ne_nil (factors_ne_nil hpm)
  have : (0 : ℝ) < nLat m := by exact_mod_cast this
  linarith

theorem weights_label {m : ModelDict ℝ} {k : ℕ} {val : Loc → ℝ} (hv : ProperValues m k val) (nObs : ℕ) (i : Fin nObs) (e : Fin k) :
    Real.exp ((labelCarry m val nObs k).logWeights i e) = val ⟨.mixtureWeights, 0, Spec.mixtureName e, "-"⟩ :=
  Real.exp_log (hv.positive e e.isLt)

theorem rows_get {m : ModelDict ℝ} (val : Loc → ℝ) {pm : Processed ℝ} {nObs L : ℕ} {data : List (Fin nObs → Option ℝ)} (hd : data.length = pm.updateInfo.length) {j : ℕ} {a : LoopArgs nObs (nLat m) (nCon m)}
    (ha : (loopArgs L (pm.updateInfo.map (labelRow m val)) data)[j]? = some a) :
    ∃ r, pm.updateInfo[j]? = some r ∧ a.measSd = val ⟨.measSds, r.period, r.var, "-"⟩ ∧ a.isMeasurement = decide (r.purpose = .measurement) := by
  have hlt := (List.getElem?_eq_some_iff.mp ha).1
  rw [loopArgs_length _ _ (by rw [hd, List.length_map]), List.length_map] at hlt
  have hr : (pm.updateInfo.map (labelRow m val))[j]? = some (labelRow m val pm.updateInfo[j]) := by rw [List.getElem?_map, List.getElem?_eq_getElem hlt]; rfl
  rw [loopArgs_get _ hr (List.getElem?_eq_getElem (hd ▸ hlt))] at ha
  obtain rfl := Option.some.inj ha
  exact ⟨_, List.getElem?_eq_getElem hlt, rfl, rfl⟩

theorem rows_sd {m : ModelDict ℝ} {k : ℕ} {val : Loc → ℝ} (hv : ProperValues m k val) {pm : Processed ℝ} (hpm : processModel m = .ok pm) {nObs L : ℕ} {data : List (Fin nObs → Option ℝ)}
    (hd : data.length = pm.updateInfo.length) : ∀ a ∈ loopArgs L (pm.updateInfo.map (labelRow m val)) data, a.measSd ≠ 0 := by
  intro a ha
  obtain ⟨j, hj⟩ := List.getElem?_of_mem ha
  obtain ⟨r, hr, h1, _⟩ := rows_get val hd hj
  rw [h1]
  exact hv.sds _ _ (((C01_update_info_exact hpm).2.1 _ _).mp ⟨_, List.mem_of_getElem? hr, rfl, rfl⟩)

theorem rows_measurement {m : ModelDict ℝ} (hna : m.anchoring = none) {val : Loc → ℝ} {pm : Processed ℝ} (hpm : processModel m = .ok pm) {nObs L : ℕ} {data : List (Fin nObs → Option ℝ)}
    (hd : data.length = pm.updateInfo.length) : ∀ a ∈ loopArgs L (pm.updateInfo.map (labelRow m val)) data, a.isMeasurement = true := by
  intro a ha
  obtain ⟨j, hj⟩ := List.getElem?_of_mem ha
  obtain ⟨r, hr, _, h2⟩ := rows_get val hd hj
  rw [h2, decide_eq_true_iff]
  cases hpu : r.purpose with
  | measurement => rfl
  | anchoring =>
    obtain ⟨f, o, ⟨a, ha, _⟩, _⟩ := ((C01_update_info_exact hpm).2.2.2.2 _ (List.mem_of_getElem? hr)).mp hpu
    rw [hna] at ha
    cases ha

theorem covSteps_affine {m : ModelDict ℝ} {k : ℕ} (hm : LinearModel m k) (hg : GoodNames m) {val : Loc → ℝ} {pm : Processed ℝ} (hpm : processModel m = .ok pm) {nT : ℕ} (custom : String → CustomFn) (cov : Covariates) :
    ∀ s ∈ covSteps custom m pm val nT cov, s.Affine := by
  have hlin : AffineTransitions (covFixed custom m pm val nT cov) := affine_label hm hpm hg custom val 1 nT _ _
  intro s hs
  obtain ⟨a, _, rfl⟩ := List.mem_map.mp hs
  exact stepOf_affine hlin 0 a

theorem covSteps_sd {m : ModelDict ℝ} {k : ℕ} {val : Loc → ℝ} (hv : ProperValues m k val) {pm : Processed ℝ} (hpm : processModel m = .ok pm) {nT : ℕ} (custom : String → CustomFn) (cov : Covariates) :
    ∀ s ∈ covSteps custom m pm val nT cov, s.sd ≠ 0 := by
  intro s hs
  obtain ⟨a, ha, rfl⟩ := List.mem_map.mp hs
  exact rows_sd hv hpm (L := nT + 1) (data := covData pm.updateInfo cov) (by simp [covData]) a ha

/-- The density of the data if the mixture elements have the probabilities `w`. -/
noncomputable def weightsDensity (custom : String → CustomFn) (m : ModelDict ℝ) (pm : Processed ℝ) (val : Loc → ℝ) (nT : ℕ) (cov : Covariates) (w : Fin pm.dimensions.nMixtures → ℝ)
    (y : Fin (covSteps custom m pm val nT cov).length → ℝ) : ℝ :=
  ∑ e : Fin pm.dimensions.nMixtures, w e * kalmanDensity (covSteps custom m pm val nT cov) ((labelCarry m val 1 pm.dimensions.nMixtures).states 0 e)
    (((labelCarry m val 1 pm.dimensions.nMixtures).upperChols 0 e)ᵀ * (labelCarry m val 1 pm.dimensions.nMixtures).upperChols 0 e) y

/-- The law of the data; the mixture elements may have other probabilities than in the parameters. -/
theorem weights_law {m : ModelDict ℝ} {k : ℕ} (hm : LinearModel m k) (hg : GoodNames m) {val : Loc → ℝ} (hv : ProperValues m k val) {pm : Processed ℝ} (hpm : processModel m = .ok pm) {nT : ℕ} (hT : pm.dimensions.nPeriods = nT + 2) (custom : String → CustomFn) (cov : Covariates)
    {updates : List (Nat × String)} (hup : updates = pm.updateInfo.map (fun r => (r.period, r.var))) (hlen : (covSteps custom m pm val nT cov).length = updates.length)
    {Ω : Type} [MeasurableSpace Ω] {P : Measure Ω} [IsProbabilityMeasure P] {E : Ω → Fin pm.dimensions.nMixtures} {Z : Noise → Ω → ℝ}
    {val' : Loc → ℝ} (hZ : RandomNoise P val' E Z) (hw0 : ∀ e : Fin pm.dimensions.nMixtures, 0 ≤ val' ⟨.mixtureWeights, 0, Spec.mixtureName e, "-"⟩) :
    P.map (fun ω => observedData updates cov (measurementValue m val cov (E ω) (fun j => Z j ω))) =
      (referenceMeasure updates cov).withDensity (fun y => ENNReal.ofReal (weightsDensity custom m pm val nT cov (fun e => val' ⟨.mixtureWeights, 0, Spec.mixtureName e, "-"⟩) (fun j => y (Fin.cast hlen j)))) := by
  have hlin : AffineTransitions (covFixed custom m pm val nT cov) := affine_label hm hpm hg custom val 1 nT _ _
  have hrows := goodRows_label hm hpm hT val
  have hc2 := mixture_density (steps := covSteps custom m pm val nT cov) (covSteps_affine hm hg hpm custom cov) (covSteps_sd hv hpm custom cov) (w := fun e : Fin pm.dimensions.nMixtures => val' ⟨.mixtureWeights, 0, Spec.mixtureName e, "-"⟩)
    hw0 ((labelCarry m val 1 pm.dimensions.nMixtures).states 0) ((labelCarry m val 1 pm.dimensions.nMixtures).upperChols 0)
  refine transport_density hlen (X := fun ω => observedData updates cov (measurementValue m val cov (E ω) (fun j => Z j ω)))
    (μ := fun k => if cov.isObserved (updates.get k).1 (updates.get k).2 then volume else Measure.dirac 0) (d := fun y => ENNReal.ofReal (weightsDensity custom m pm val nT cov (fun e => val' ⟨.mixtureWeights, 0, Spec.mixtureName e, "-"⟩) y)) ?_
  have hK := covSteps_length custom m pm val nT cov
  -- the rows of the steps
  let urow : Fin (covSteps custom m pm val nT cov).length → URow := fun j => pm.updateInfo[j.val]'(by omega)
  have hu : ∀ j, pm.updateInfo[j.val]? = some (urow j) := fun j => List.getElem?_eq_getElem (by omega)
  let row : Fin (covSteps custom m pm val nT cov).length → UpdateParams (nLat m) (nCon m) := fun j => labelRow m val (urow j)
  have hrow : ∀ j, (pm.updateInfo.map (labelRow m val))[j.val]? = some (row j) := fun j => by rw [List.getElem?_map, hu]; rfl
  have hp : ∀ j, (row j).period < nT + 2 := fun j => by have := hrows.range _ (List.mem_of_getElem? (hrow j)); omega
  have hpos : ∀ j, ∃ a, (rowsOf (pm.updateInfo.map (labelRow m val)) (row j).period).get a = row j := by
    intro j
    exact List.mem_iff_get.mp (List.mem_filter.mpr ⟨List.mem_of_getElem? (hrow j), by simp⟩)
  choose pos hpos using hpos
  have hget : ∀ j, updates.get (Fin.cast hlen j) = ((urow j).period, (urow j).var) := by
    intro j
    apply Option.some.inj
    rw [List.get_eq_getElem, ← List.getElem?_eq_getElem]
    subst hup
    rw [List.getElem?_map, Fin.val_cast, hu]
    rfl
  let obs : Fin (covSteps custom m pm val nT cov).length → Bool := fun j => cov.isObserved (urow j).period (urow j).var
  have hobs : ∀ j, ∃ y, (covData pm.updateInfo cov)[j.val]? = some y ∧ obs j = (y 0).isSome := by
    intro j
    refine ⟨_, by rw [covData, List.getElem?_map, hu]; rfl, ?_⟩
    show cov.isObserved (urow j).period (urow j).var = (if cov.isObserved (urow j).period (urow j).var = true then some (0 : ℝ) else none).isSome
    cases cov.isObserved (urow j).period (urow j).var <;> rfl
  have hlaw := noise_law hlin hrows (data := covData pm.updateInfo cov) (by simp [covData]) 0 ((labelCarry m val 1 pm.dimensions.nMixtures).states 0) ((labelCarry m val 1 pm.dimensions.nMixtures).upperChols 0)
    rfl row hrow hp pos hpos obs hobs hZ.measurable_element hZ.measurable hZ.normal hZ.independent hZ.element_independent (w := fun e => val' ⟨.mixtureWeights, 0, Spec.mixtureName e, "-"⟩) hZ.element_weights
    (labelIndex_injective hg hrows.unique)
  have hdata : (fun ω (j : Fin (covSteps custom m pm val nT cov).length) => observedData updates cov (measurementValue m val cov (E ω) (fun j => Z j ω)) (Fin.cast hlen j)) =
      fun ω => labelData (fixed := covFixed custom m pm val nT cov) row hp pos obs 0 ((labelCarry m val 1 pm.dimensions.nMixtures).states 0) ((labelCarry m val 1 pm.dimensions.nMixtures).upperChols 0)
        (E ω, fun a => Z (labelIndex m nT (pm.updateInfo.map (labelRow m val)) a) ω) := by
    funext ω j
    have := data_label hm hpm hg custom val cov row urow (fun j => List.mem_of_getElem? (hu j)) (fun _ => rfl) hp pos hpos obs (fun _ => rfl) (E ω) (fun j => Z j ω) j
    rw [this, observedData, hget]
  rw [hdata, hlaw]
  refine hc2.trans ?_
  · unfold baseMeasure
    congr 2
    funext j
    rw [hget]
    obtain ⟨y, hy, hyo⟩ := hobs j
    have : ((covSteps custom m pm val nT cov).get j).observed = (y 0).isSome := by
      have h1 := loopArgs_get (nT + 1) (hrow j) hy
      have h2 := (List.getElem?_map (f := stepOf (covFixed custom m pm val nT cov) 0)).trans (congrArg (Option.map (stepOf (covFixed custom m pm val nT cov) 0)) h1)
      have h3 := Option.some.inj ((List.getElem?_eq_getElem j.isLt).symm.trans h2)
      exact (congrArg Step.observed h3).trans rfl
    show (if ((covSteps custom m pm val nT cov).get j).observed = true then _ else _) = _
    rw [this, ← hyo]

/-- The law of the data in the model of the user. -/
theorem label_law {m : ModelDict ℝ} {k : ℕ} (hm : LinearModel m k) (hg : GoodNames m) {val : Loc → ℝ} (hv : ProperValues m k val) {pm : Processed ℝ} (hpm : processModel m = .ok pm) {nT : ℕ} (hT : pm.dimensions.nPeriods = nT + 2) (custom : String → CustomFn) (cov : Covariates)
    {updates : List (Nat × String)} (hup : updates = pm.updateInfo.map (fun r => (r.period, r.var))) (hlen : (covSteps custom m pm val nT cov).length = updates.length)
    {Ω : Type} [MeasurableSpace Ω] {P : Measure Ω} [IsProbabilityMeasure P] {E : Ω → Fin k} {Z : Noise → Ω → ℝ} (hZ : RandomNoise P val E Z) :
    P.map (fun ω => observedData updates cov (measurementValue m val cov (E ω) (fun j => Z j ω))) =
      (referenceMeasure updates cov).withDensity (fun y => ENNReal.ofReal (covDensity custom m pm val nT cov (fun j => y (Fin.cast hlen j)))) := by
  have hk : pm.dimensions.nMixtures = k := ((hasNMixtures_of_ok hpm k).mp hm.mixture).symm
  subst hk
  exact weights_law hm hg hv hpm hT custom cov hup hlen hZ (fun e => (hv.positive e e.isLt).le)

theorem dataOf_get {nObs n nT nObserved nC : ℕ} {θ : Type} (fixed : ScanFixed nObs nT n nObserved nC θ) (i : Fin nObs) {args : List (LoopArgs nObs n nC)} {j : ℕ} (h : j < (args.map (stepOf fixed i)).length)
    {a : LoopArgs nObs n nC} (ha : args[j]? = some a) : dataOf fixed i args ⟨j, h⟩ = (a.measurements i).getD 0 := by
  induction args generalizing j with
  | nil => simp at ha
  | cons b as ih =>
    cases j with
    | zero =>
      simp only [List.getElem?_cons_zero, Option.some.injEq] at ha
      subst ha
      rfl
    | succ j =>
      rw [List.getElem?_cons_succ] at ha
      exact ih (by simpa using h) ha

theorem noNameClash_of_none {m : ModelDict ℝ} (h : m.anchoring = none) : NoNameClash m := by
  rintro f o g p ⟨a, ha, _⟩
  rw [h] at ha
  cases ha

theorem valueIs_of_none {m : ModelDict ℝ} (h : m.anchoring = none) (r : Option (LongRow ℝ)) (c : String) (v : Option ℝ) : ValueIs m r c v ↔ v = baseValue r c := by
  unfold ValueIs
  constructor
  · rintro (⟨f, o, ⟨a, ha, _⟩, _⟩ | ⟨_, h⟩)
    · rw [h] at ha; cases ha
    · exact h
  · intro hv
    refine Or.inr ⟨?_, hv⟩
    rintro ⟨f, o, ⟨a, ha, _⟩, _⟩
    rw [h] at ha; cases ha

theorem kept_unique {m : ModelDict ℝ} {r : Option (LongRow ℝ)} {t : ℕ} {v w w' : Option ℝ} (h : Kept m r t v w) (h' : Kept m r t v w') : w = w' := by
  rcases h with ⟨h1, h2⟩ | ⟨h1, h2⟩ <;> rcases h' with ⟨h3, h4⟩ | ⟨h3, h4⟩
  · rw [h2, h4]
  · exact absurd h1 h3
  · exact absurd h3 h1
  · rw [h2, h4]

/-- The density of the data of an individual is continuous. -/
theorem continuous_covDensity {m : ModelDict ℝ} {k : ℕ} (hm : LinearModel m k) (hg : GoodNames m) {val : Loc → ℝ} {pm : Processed ℝ} (hpm : processModel m = .ok pm) (nT : ℕ) (custom : String → CustomFn) (cov : Covariates) :
    Continuous (covDensity custom m pm val nT cov) := by
  unfold covDensity
  refine continuous_finsetSum _ (fun e _ => continuous_const.mul ?_)
  exact (continuous_kalmanDensity (covSteps_affine hm hg hpm custom cov) _).comp (continuous_const.prodMk continuous_id)

theorem covDensity_pos {m : ModelDict ℝ} {k : ℕ} (hm : LinearModel m k) {val : Loc → ℝ} (hv : ProperValues m k val) {pm : Processed ℝ} (hpm : processModel m = .ok pm) (nT : ℕ) (custom : String → CustomFn) (cov : Covariates) (y) :
    0 < covDensity custom m pm val nT cov y := by
  have hk : pm.dimensions.nMixtures = k := ((hasNMixtures_of_ok hpm k).mp hm.mixture).symm
  subst hk
  have hne : Nonempty (Fin pm.dimensions.nMixtures) := by
    by_contra hn
    rw [not_nonempty_iff] at hn
    have := hv.sum
    rw [Finset.univ_eq_empty, Finset.sum_empty] at this
    exact zero_ne_one this
  exact Finset.sum_pos (fun e _ => mul_pos (hv.positive e e.isLt) (kalmanDensity_pos (covSteps_sd hv hpm custom cov) _ (posSemidef_conjTranspose_mul_self _) _)) Finset.univ_nonempty

/-- The density is bounded and its logarithm does not decrease faster than a quadratic function. -/
theorem covDensity_bounds {m : ModelDict ℝ} {k : ℕ} (hm : LinearModel m k) (hg : GoodNames m) {val : Loc → ℝ} (hv : ProperValues m k val) {pm : Processed ℝ} (hpm : processModel m = .ok pm) (nT : ℕ) (custom : String → CustomFn) (cov : Covariates) :
    ∃ C D : ℝ, 0 ≤ C ∧ ∀ y, Real.exp (-(C * (1 + ‖y‖ ^ 2))) ≤ covDensity custom m pm val nT cov y ∧ covDensity custom m pm val nT cov y ≤ D := by
  have hk : pm.dimensions.nMixtures = k := ((hasNMixtures_of_ok hpm k).mp hm.mixture).symm
  subst hk
  have hpos : 0 < pm.dimensions.nMixtures := by
    rcases Nat.eq_zero_or_pos pm.dimensions.nMixtures with h0 | h0
    · have := hv.sum
      rw [Finset.sum_eq_zero (fun e _ => absurd e.isLt (by omega))] at this
      exact absurd this zero_ne_one
    · exact h0
  have hw : ∀ e : Fin pm.dimensions.nMixtures, 0 < val ⟨.mixtureWeights, 0, Spec.mixtureName e, "-"⟩ := fun e => hv.positive e e.isLt
  choose D hD hle using fun e : Fin pm.dimensions.nMixtures => kalmanDensity_le (covSteps custom m pm val nT cov) (((labelCarry m val 1 pm.dimensions.nMixtures).upperChols 0 e)ᵀ * (labelCarry m val 1 pm.dimensions.nMixtures).upperChols 0 e)
  have hpsd : ∀ e, (((labelCarry m val 1 pm.dimensions.nMixtures).upperChols 0 e)ᵀ * (labelCarry m val 1 pm.dimensions.nMixtures).upperChols 0 e).PosSemidef := fun e => posSemidef_conjTranspose_mul_self _
  obtain ⟨C, hC, hge⟩ := kalmanDensity_ge (covSteps_affine hm hg hpm custom cov) (covSteps_sd hv hpm custom cov) (hpsd ⟨0, hpos⟩)
  let m0 := (labelCarry m val 1 pm.dimensions.nMixtures).states 0 ⟨0, hpos⟩
  let w0 := val ⟨.mixtureWeights, 0, Spec.mixtureName 0, "-"⟩
  have hw0 : 0 < w0 := hw ⟨0, hpos⟩
  refine ⟨|Real.log w0| + C * (1 + ‖m0‖ ^ 2), ∑ e : Fin pm.dimensions.nMixtures, val ⟨.mixtureWeights, 0, Spec.mixtureName e, "-"⟩ * D e, by positivity, fun y => ⟨?_, ?_⟩⟩
  · unfold covDensity
    refine le_trans ?_ (Finset.single_le_sum (f := fun e : Fin pm.dimensions.nMixtures => val ⟨.mixtureWeights, 0, Spec.mixtureName e, "-"⟩ * kalmanDensity (covSteps custom m pm val nT cov)
      ((labelCarry m val 1 pm.dimensions.nMixtures).states 0 e) (((labelCarry m val 1 pm.dimensions.nMixtures).upperChols 0 e)ᵀ * (labelCarry m val 1 pm.dimensions.nMixtures).upperChols 0 e) y)
      (fun e _ => (mul_pos (hw e) (kalmanDensity_pos (covSteps_sd hv hpm custom cov) _ (hpsd e) _)).le) (Finset.mem_univ ⟨0, hpos⟩))
    refine le_trans ?_ (mul_le_mul_of_nonneg_left (hge m0 y) hw0.le)
    have e1 : w0 * Real.exp (-(C * (1 + ‖m0‖ ^ 2 + ‖y‖ ^ 2))) = Real.exp (Real.log w0 + -(C * (1 + ‖m0‖ ^ 2 + ‖y‖ ^ 2))) := by rw [Real.exp_add, Real.exp_log hw0]
    rw [e1, Real.exp_le_exp]
    have h1 := neg_abs_le (Real.log w0)
    have h2 : 0 ≤ |Real.log w0| * ‖y‖ ^ 2 := by positivity
    have h3 : 0 ≤ C * (‖m0‖ ^ 2 * ‖y‖ ^ 2) := by positivity
    nlinarith
  · exact Finset.sum_le_sum (fun e _ => mul_le_mul_of_nonneg_left (hle e _ y) (hw e).le)

theorem exists_valueIs (m : ModelDict ℝ) (r : Option (LongRow ℝ)) (c : String) : ∃ v, ValueIs m r c v := by
  by_cases h : ∃ f, Anchors m c f
  · obtain ⟨f, o, ho, hc⟩ := h
    exact ⟨_, Or.inl ⟨f, o, ho, hc, rfl⟩⟩
  · exact ⟨_, Or.inr ⟨h, rfl⟩⟩

/-- The arrays for the likelihood function have the data, control variables and observed factors of an individual that is described by `cov` and `y`. -/
theorem individual_data {m : ModelDict ℝ} (hclash : NoNameClash m) (hg : GoodNames m) {pm : Processed ℝ} (hpm : processModel m = .ok pm) {nT : ℕ} (hT : pm.dimensions.nPeriods = nT + 2) (nan : ℝ)
    {df : LongData ℝ} {ids pers : List Int} (hi : IndexOk df) (hu : NoUnusedPeriods df) (hids : IdsOf df ids) (hpers : PeriodsOf df pers) {pd : ProcessedData ℝ}
    (hdata : processData df pm.labels pm.updateInfo pm.anchoring .estimation = .ok pd) {con : Fin (nT + 2) → Fin ids.length → Fin (nCon m) → ℝ} {obs : Fin (nT + 2) → Fin ids.length → Fin (nObsd m) → ℝ}
    {data : Fin pm.updateInfo.length → Fin ids.length → Option ℝ} (hcon : ∀ (t : Fin (nT + 2)) (i : Fin ids.length) (j : Fin (nCon m)), ∃ w, entry3 pd.controls t i j = some w ∧ con t i j = w.getD nan)
    (hobs : ∀ (t : Fin (nT + 2)) (i : Fin ids.length) (j : Fin (nObsd m)), ∃ w, entry3 pd.observedFactors t i j = some w ∧ obs t i j = w.getD nan)
    (hmeas : ∀ (k : Fin pm.updateInfo.length) (i : Fin ids.length), entry2 (pd.measurements.getD []) k i = some (data k i))
    {i : ℕ} {cov : Covariates} {y : Nat → String → ℝ} (hil : i < ids.length) (hdesc : Describes m df ids pers i cov y) (hper : ∀ u ∈ pm.updateInfo, u.period < nT + 2) :
    (∀ (j : ℕ) (hj : j < pm.updateInfo.length), cov.isObserved pm.updateInfo[j].period pm.updateInfo[j].var = (data ⟨j, hj⟩ ⟨i, hil⟩).isSome ∧
      (∀ b, data ⟨j, hj⟩ ⟨i, hil⟩ = some b → y pm.updateInfo[j].period pm.updateInfo[j].var = b) ∧
      ((data ⟨j, hj⟩ ⟨i, hil⟩).isSome = true → ∀ c : Fin (nCon m), con ⟨pm.updateInfo[j].period, hper _ (List.getElem_mem hj)⟩ ⟨i, hil⟩ c = cov.control pm.updateInfo[j].period (conName m c))) ∧
    ∀ (t : Fin (nT + 2)) (f : Fin (nObsd m)), obs t ⟨i, hil⟩ f = cov.factor t (obsName m f) := by
  obtain ⟨hu1, hu2, _⟩ := C01_update_info_exact hpm
  obtain ⟨meas, hmeas', _, _, _, hdat⟩ := C27_data_arrays hpm hg.keys hclash hi hu hids hpers hdata
  rw [hmeas', Option.getD_some] at hmeas
  -- the measurements, controls and observed factors of the individual
  have hrowOf : ∀ t : Fin (nT + 2), ∃ r, RowOf df ids pers i t r ∧ (∀ v, IsUpdate m t v → ∃ a w, ValueIs m r v a ∧ Kept m r t a w ∧ cov.isObserved t v = w.isSome ∧ ∀ b, w = some b → y t v = b) ∧
      (¬IncompleteControls m r t → ∀ c ∈ "constant" :: m.controls.getD [], ∀ a, ValueIs m r c (some a) → cov.control t c = a) ∧
      (∀ f ∈ m.observedFactors.getD [], ¬IncompleteControls m r t ∧ ValueIs m r f (some (cov.factor t f))) := fun t =>
    hdesc t ((isPeriod_iff hpm t).mpr (by have := t.isLt; omega))
  have hD : ∀ (j : ℕ) (hj : j < pm.updateInfo.length), cov.isObserved pm.updateInfo[j].period pm.updateInfo[j].var = (data ⟨j, hj⟩ ⟨i, hil⟩).isSome ∧
      (∀ b, data ⟨j, hj⟩ ⟨i, hil⟩ = some b → y pm.updateInfo[j].period pm.updateInfo[j].var = b) ∧
      ((data ⟨j, hj⟩ ⟨i, hil⟩).isSome = true → ∀ c : Fin (nCon m), con ⟨pm.updateInfo[j].period, hper _ (List.getElem_mem hj)⟩ ⟨i, hil⟩ c = cov.control pm.updateInfo[j].period (conName m c)) := by
    intro j hj
    obtain ⟨r, hrow, hr1, hr2, _⟩ := hrowOf ⟨pm.updateInfo[j].period, hper _ (List.getElem_mem hj)⟩
    have hupd : IsUpdate m pm.updateInfo[j].period pm.updateInfo[j].var := (hu2 _ _).mp ⟨_, List.getElem_mem hj, rfl, rfl⟩
    obtain ⟨a, w, ha, hkept, hw1, hw2⟩ := hr1 _ hupd
    obtain ⟨d1, d2, _⟩ := hdat i pm.updateInfo[j].period r hil (isUpdate_period hupd) hrow
    obtain ⟨w', hw', hkept'⟩ := d1 j _ a (List.getElem?_eq_getElem hj) rfl ha
    obtain rfl := kept_unique hkept hkept'
    have hdw : data ⟨j, hj⟩ ⟨i, hil⟩ = w := Option.some.inj ((hmeas ⟨j, hj⟩ ⟨i, hil⟩).symm.trans hw')
    rw [hdw]
    refine ⟨hw1, hw2, fun hsome c => ?_⟩
    have hinc : ¬IncompleteControls m r pm.updateInfo[j].period := by
      rcases hkept with ⟨_, h0⟩ | ⟨h0, _⟩
      · rw [h0] at hsome; cases hsome
      · exact h0
    obtain ⟨b, rfl⟩ := Option.isSome_iff_exists.mp hsome
    have hab : a = some b := by
      rcases hkept with ⟨h0, _⟩ | ⟨_, h0⟩
      · exact absurd h0 hinc
      · exact h0.symm
    have hcval : ∃ x, ValueIs m r (conName m c) (some x) := by
      obtain ⟨v, hv⟩ := exists_valueIs m r (conName m c)
      cases v with
      | some x => exact ⟨x, hv⟩
      | none => exact absurd ⟨⟨conName m c, List.mem_of_getElem? (conName_get c), hv⟩, _, b, hupd, hab ▸ ha⟩ hinc
    obtain ⟨x, hx⟩ := hcval
    obtain ⟨w2, hw2, hk2⟩ := d2 c _ _ (conName_get c) hx
    obtain ⟨w3, hw3, hc3⟩ := hcon ⟨pm.updateInfo[j].period, hper _ (List.getElem_mem hj)⟩ ⟨i, hil⟩ c
    have hw23 : w3 = w2 := Option.some.inj (hw3.symm.trans hw2)
    have : w2 = some x := by
      rcases hk2 with ⟨h0, _⟩ | ⟨_, h0⟩
      · exact absurd h0 hinc
      · exact h0
    rw [hc3, hw23, this, Option.getD_some]
    exact (hr2 hinc _ (List.mem_of_getElem? (conName_get c)) x hx).symm
  have hF : ∀ (t : Fin (nT + 2)) (f : Fin (nObsd m)), obs t ⟨i, hil⟩ f = cov.factor t (obsName m f) := by
    intro t f
    obtain ⟨r, hrow, _, _, hr3⟩ := hrowOf t
    obtain ⟨hinc, hvf⟩ := hr3 _ (List.mem_of_getElem? (obsName_get f))
    obtain ⟨_, _, d3⟩ := hdat i t r hil ((isPeriod_iff hpm t).mpr (by have := t.isLt; omega)) hrow
    obtain ⟨w2, hw2, hk2⟩ := d3 f _ _ (obsName_get f) hvf
    obtain ⟨w3, hw3, hc3⟩ := hobs t ⟨i, hil⟩ f
    have hw23 : w3 = w2 := Option.some.inj (hw3.symm.trans hw2)
    have : w2 = some (cov.factor t (obsName m f)) := by
      rcases hk2 with ⟨h0, _⟩ | ⟨_, h0⟩
      · exact absurd h0 hinc
      · exact h0
    rw [hc3, hw23, this, Option.getD_some]
  exact ⟨hD, hF⟩

theorem updates_in_range {m : ModelDict ℝ} {pm : Processed ℝ} (hpm : processModel m = .ok pm) {nT : ℕ} (hT : pm.dimensions.nPeriods = nT + 2) : ∀ u ∈ pm.updateInfo, u.period < nT + 2 := fun u hu' => by
  have := isUpdate_period (((C01_update_info_exact hpm).2.1 _ _).mp ⟨u, hu', rfl, rfl⟩)
  rw [isPeriod_iff hpm] at this
  omega

/-- The state space model of an individual of a dataset is the one of its covariates, and so are the data. -/
theorem individual_steps {m : ModelDict ℝ} {k : ℕ} (hm : LinearModel m k) (hg : GoodNames m) {pm : Processed ℝ} (hpm : processModel m = .ok pm) {nT : ℕ} (hT : pm.dimensions.nPeriods = nT + 2) (custom : String → CustomFn) (nan : ℝ)
    (val : Loc → ℝ) {df : LongData ℝ} {ids pers : List Int} (hi : IndexOk df) (hu : NoUnusedPeriods df) (hids : IdsOf df ids) (hpers : PeriodsOf df pers) {pd : ProcessedData ℝ}
    (hdata : processData df pm.labels pm.updateInfo pm.anchoring .estimation = .ok pd) {con : Fin (nT + 2) → Fin ids.length → Fin (nCon m) → ℝ} {obs : Fin (nT + 2) → Fin ids.length → Fin (nObsd m) → ℝ}
    {data : Fin pm.updateInfo.length → Fin ids.length → Option ℝ} (hcon : ∀ (t : Fin (nT + 2)) (i : Fin ids.length) (j : Fin (nCon m)), ∃ w, entry3 pd.controls t i j = some w ∧ con t i j = w.getD nan)
    (hobs : ∀ (t : Fin (nT + 2)) (i : Fin ids.length) (j : Fin (nObsd m)), ∃ w, entry3 pd.observedFactors t i j = some w ∧ obs t i j = w.getD nan)
    (hmeas : ∀ (k : Fin pm.updateInfo.length) (i : Fin ids.length), entry2 (pd.measurements.getD []) k i = some (data k i))
    {i : ℕ} {cov : Covariates} {y : Nat → String → ℝ} (hil : i < ids.length) (hdesc : Describes m df ids pers i cov y) :
    List.Forall₂ SameStep ((loopArgs (nT + 1) (pm.updateInfo.map (labelRow m val)) (List.ofFn data)).map (stepOf (labelFixed custom m pm val ids.length nT con obs) ⟨i, hil⟩)) (covSteps custom m pm val nT cov) ∧
    ∀ (j : ℕ) (h : j < ((loopArgs (nT + 1) (pm.updateInfo.map (labelRow m val)) (List.ofFn data)).map (stepOf (labelFixed custom m pm val ids.length nT con obs) ⟨i, hil⟩)).length)
      (h' : j < (pm.updateInfo.map (fun r => (r.period, r.var))).length),
      dataOf (labelFixed custom m pm val ids.length nT con obs) ⟨i, hil⟩ (loopArgs (nT + 1) (pm.updateInfo.map (labelRow m val)) (List.ofFn data)) ⟨j, h⟩ =
        observedData (pm.updateInfo.map (fun r => (r.period, r.var))) cov y ⟨j, h'⟩ := by
  have hper := updates_in_range hpm hT
  obtain ⟨hD, hF⟩ := individual_data hm.anchoring.2.2 hg hpm hT nan hi hu hids hpers hdata hcon hobs hmeas hil hdesc hper
  -- the densities agree
  have hU : ∀ t : Int, unanchoredTransition (labelFixed custom m pm val ids.length nT con obs) ⟨i, hil⟩ t = unanchoredTransition (covFixed custom m pm val nT cov) 0 t := by
    intro t
    funext x f
    unfold unanchoredTransition covFixed labelFixed
    dsimp only
    have : obs (jaxIndex (nT + 1) t) ⟨i, hil⟩ = fun j : Fin (nObsd m) => cov.factor (jaxIndex (nT + 1) t) (obsName m j) := funext (fun f => hF _ f)
    rw [this]
  have hl1 : (loopArgs (nT + 1) (pm.updateInfo.map (labelRow m val)) (List.ofFn data)).length = pm.updateInfo.length := by rw [loopArgs_length _ _ (by simp), List.length_map]
  have hl2 : (covArgs m pm val nT cov).length = pm.updateInfo.length := by rw [covArgs, loopArgs_length _ _ (by simp [covData]), List.length_map]
  have hrow : ∀ (j : ℕ) (hj : j < pm.updateInfo.length), (pm.updateInfo.map (labelRow m val))[j]? = some (labelRow m val pm.updateInfo[j]) := fun j hj => by
    rw [List.getElem?_map, List.getElem?_eq_getElem hj]; rfl
  have hget1 := fun (j : ℕ) (hj : j < pm.updateInfo.length) => Option.some.inj ((List.getElem?_eq_getElem (hl1.symm ▸ hj)).symm.trans
    (loopArgs_get (nT + 1) (hrow j hj) (data := List.ofFn data) (y := data ⟨j, hj⟩) (by rw [List.getElem?_ofFn, dif_pos hj])))
  have hget2 := fun (j : ℕ) (hj : j < pm.updateInfo.length) => Option.some.inj ((List.getElem?_eq_getElem (hl2.symm ▸ hj)).symm.trans
    (loopArgs_get (nT + 1) (hrow j hj) (data := covData pm.updateInfo cov) (y := fun _ => if cov.isObserved pm.updateInfo[j].period pm.updateInfo[j].var then some 0 else none)
      (by rw [covData, List.getElem?_map, List.getElem?_eq_getElem hj]; rfl)))
  constructor
  · refine List.forall₂_iff_get.mpr ⟨by rw [List.length_map, List.length_map, hl1, hl2], fun j h h' => ?_⟩
    have hj : j < pm.updateInfo.length := by rw [List.length_map, hl1] at h; exact h
    rw [List.get_eq_getElem, List.get_eq_getElem, List.getElem_map, List.getElem_map, hget1 j hj, hget2 j hj]
    have hc : jaxIndex (nT + 1) (if pm.updateInfo[j].period = nT + 1 then -1 else (pm.updateInfo[j].period : Int)) = ⟨pm.updateInfo[j].period, hper _ (List.getElem_mem hj)⟩ := by
      have h1 := jaxIndex_val (k := nT + 1) (t := pm.updateInfo[j].period) (by have := hper _ (List.getElem_mem hj); omega)
      split_ifs with hp
      · exact (jaxIndex_last _).trans (Fin.ext (Eq.trans (by rw [hp]) h1))
      · exact Fin.ext h1
    refine ⟨?_, ?_, fun hob => ⟨rfl, ?_, rfl⟩⟩
    · show (data ⟨j, hj⟩ ⟨i, hil⟩).isSome = (if cov.isObserved pm.updateInfo[j].period pm.updateInfo[j].var then some (0 : ℝ) else none).isSome
      rw [(hD j hj).1]
      cases (data ⟨j, hj⟩ ⟨i, hil⟩).isSome <;> rfl
    · show (if _ then some (unanchoredTransition _ _ _, _) else none) = (if _ then some (unanchoredTransition _ _ _, _) else none)
      rw [hU]
      rfl
    · show con (jaxIndex (nT + 1) (if pm.updateInfo[j].period = nT + 1 then -1 else (pm.updateInfo[j].period : Int))) ⟨i, hil⟩ ⬝ᵥ _ =
        (fun c : Fin (nCon m) => cov.control (jaxIndex (nT + 1) (if pm.updateInfo[j].period = nT + 1 then -1 else (pm.updateInfo[j].period : Int))) (conName m c)) ⬝ᵥ _
      rw [hc, funext ((hD j hj).2.2 hob)]
  · intro j h h'
    have hj : j < pm.updateInfo.length := by rw [List.length_map, hl1] at h; exact h
    rw [dataOf_get _ _ _ ((List.getElem?_eq_getElem (by omega)).trans (congrArg some (hget1 j hj)))]
    show (data ⟨j, hj⟩ ⟨i, hil⟩).getD 0 = _
    have hg : (pm.updateInfo.map (fun r => (r.period, r.var)))[j]'(by simpa using hj) = (pm.updateInfo[j].period, pm.updateInfo[j].var) := List.getElem_map _
    show _ = if cov.isObserved ((pm.updateInfo.map (fun r => (r.period, r.var)))[j]'(by simpa using hj)).1 ((pm.updateInfo.map (fun r => (r.period, r.var)))[j]'(by simpa using hj)).2 = true then
      y ((pm.updateInfo.map (fun r => (r.period, r.var)))[j]'(by simpa using hj)).1 ((pm.updateInfo.map (fun r => (r.period, r.var)))[j]'(by simpa using hj)).2 else 0
    rw [hg]
    obtain ⟨h1, h2, _⟩ := hD j hj
    dsimp only
    rw [h1]
    cases hd : data ⟨j, hj⟩ ⟨i, hil⟩ with
    | none => rfl
    | some b => rw [Option.isSome_some, if_pos rfl, h2 b hd, Option.getD_some]


/-- The number of individuals is the length of the array of controls. -/
theorem length_of_controls {m : ModelDict ℝ} {pm : Processed ℝ} (hpm : processModel m = .ok pm) (hper : IsPeriod m 1) (hclash : NoNameClash m) (hg : GoodNames m) {df : LongData ℝ} {ids pers : List Int} (hi : IndexOk df)
    (hu : NoUnusedPeriods df) (hids : IdsOf df ids) (hpers : PeriodsOf df pers) {inputs : MaximizationInputs} (hin : getMaximizationInputs m df = .ok inputs) : (inputs.data.controls.headD []).length = ids.length := by
  have h := hin
  unfold getMaximizationInputs at h
  simp only [py_bind_ok, py_pure_ok] at h
  obtain ⟨pm', hpm', info, hinfo, data, hdata, cs, hcs, rfl⟩ := h
  obtain rfl := Except.ok.inj (hpm.symm.trans hpm')
  obtain ⟨meas, _, _, ⟨h1, h2⟩, _⟩ := C27_data_arrays hpm hg.keys hclash hi hu hids hpers hdata
  dsimp only
  cases hcon : data.controls with
  | nil =>
    obtain ⟨n, hn1, hn2⟩ := hper
    rw [hcon] at h1
    have := IsNPeriods.unique h1 hn1
    simp at this
    omega
  | cons x xs => exact (h2 x (by rw [hcon]; simp)).1

theorem length_controls {m : ModelDict ℝ} {pm : Processed ℝ} (hpm : processModel m = .ok pm) {k : ℕ} (hm : LinearModel m k) (hg : GoodNames m) {df : LongData ℝ} {ids pers : List Int} (hi : IndexOk df)
    (hu : NoUnusedPeriods df) (hids : IdsOf df ids) (hpers : PeriodsOf df pers) {inputs : MaximizationInputs} (hin : getMaximizationInputs m df = .ok inputs) : (inputs.data.controls.headD []).length = ids.length :=
  length_of_controls hpm hm.periods hm.anchoring.2.2 hg hi hu hids hpers hin

/-- The same, if only the updates that satisfy `p` are observed. -/
theorem individual_masked {m : ModelDict ℝ} {k : ℕ} (hm : LinearModel m k) (hg : GoodNames m) {pm : Processed ℝ} (hpm : processModel m = .ok pm) {nT : ℕ} (hT : pm.dimensions.nPeriods = nT + 2) (custom : String → CustomFn) (nan : ℝ)
    (val : Loc → ℝ) {df : LongData ℝ} {ids pers : List Int} (hi : IndexOk df) (hu : NoUnusedPeriods df) (hids : IdsOf df ids) (hpers : PeriodsOf df pers) {pd : ProcessedData ℝ}
    (hdata : processData df pm.labels pm.updateInfo pm.anchoring .estimation = .ok pd) {con : Fin (nT + 2) → Fin ids.length → Fin (nCon m) → ℝ} {obs : Fin (nT + 2) → Fin ids.length → Fin (nObsd m) → ℝ}
    {data : Fin pm.updateInfo.length → Fin ids.length → Option ℝ} (hcon : ∀ (t : Fin (nT + 2)) (i : Fin ids.length) (j : Fin (nCon m)), ∃ w, entry3 pd.controls t i j = some w ∧ con t i j = w.getD nan)
    (hobs : ∀ (t : Fin (nT + 2)) (i : Fin ids.length) (j : Fin (nObsd m)), ∃ w, entry3 pd.observedFactors t i j = some w ∧ obs t i j = w.getD nan)
    (hmeas : ∀ (k : Fin pm.updateInfo.length) (i : Fin ids.length), entry2 (pd.measurements.getD []) k i = some (data k i))
    {i : ℕ} {cov : Covariates} {y : Nat → String → ℝ} (hil : i < ids.length) (hdesc : Describes m df ids pers i cov y) (p : Nat → String → Prop) :
    List.Forall₂ SameStep ((List.zipWith LoopArgs.keep (loopArgs (nT + 1) (pm.updateInfo.map (labelRow m val)) (List.ofFn data)) (pm.updateInfo.map (fun r => @decide (p r.period r.var) (Classical.dec _)))).map
      (stepOf (labelFixed custom m pm val ids.length nT con obs) ⟨i, hil⟩)) (covSteps custom m pm val nT (cov.only p)) ∧
    ∀ (j : ℕ) (h : j < ((List.zipWith LoopArgs.keep (loopArgs (nT + 1) (pm.updateInfo.map (labelRow m val)) (List.ofFn data)) (pm.updateInfo.map (fun r => @decide (p r.period r.var) (Classical.dec _)))).map
        (stepOf (labelFixed custom m pm val ids.length nT con obs) ⟨i, hil⟩)).length) (h' : j < (pm.updateInfo.map (fun r => (r.period, r.var))).length),
      dataOf (labelFixed custom m pm val ids.length nT con obs) ⟨i, hil⟩
        (List.zipWith LoopArgs.keep (loopArgs (nT + 1) (pm.updateInfo.map (labelRow m val)) (List.ofFn data)) (pm.updateInfo.map (fun r => @decide (p r.period r.var) (Classical.dec _)))) ⟨j, h⟩ =
        observedData (pm.updateInfo.map (fun r => (r.period, r.var))) (cov.only p) y ⟨j, h'⟩ := by
  obtain ⟨hsame, hdat⟩ := individual_steps hm hg hpm hT custom nan val hi hu hids hpers hdata hcon hobs hmeas hil hdesc
  have hl1 : (loopArgs (nT + 1) (pm.updateInfo.map (labelRow m val)) (List.ofFn data)).length = pm.updateInfo.length := by rw [loopArgs_length _ _ (by simp), List.length_map]
  set fixed := labelFixed custom m pm val ids.length nT con obs with hfixed
  set args := loopArgs (nT + 1) (pm.updateInfo.map (labelRow m val)) (List.ofFn data) with hargs
  set bs : List Bool := pm.updateInfo.map (fun r => @decide (p r.period r.var) (Classical.dec _)) with hbs
  have hbl : bs.length = args.length := by rw [hl1, hbs, List.length_map]
  have hb : ∀ (j : ℕ) (r : URow), pm.updateInfo[j]? = some r → bs[j]? = some (@decide (p r.period r.var) (Classical.dec _)) := fun j (r : URow) hr => by rw [hbs, List.getElem?_map, hr]; rfl
  have hcl : (covSteps custom m pm val nT cov).length = pm.updateInfo.length := covSteps_length custom m pm val nT cov
  have hsame' : List.Forall₂ SameStep ((List.zipWith LoopArgs.keep args bs).map (stepOf fixed ⟨i, hil⟩)) (covSteps custom m pm val nT (cov.only p)) := by
    refine masked_steps hbl hsame (by rw [covSteps_length, covSteps_length]) (fun j s s' b hs hs' hb' => ?_)
    have hj : j < pm.updateInfo.length := hcl ▸ (List.getElem?_eq_some_iff.mp hs).1
    have hu := List.getElem?_eq_getElem hj
    rw [hb j _ hu, Option.some.injEq] at hb'
    have hrow : (pm.updateInfo.map (labelRow m val))[j]? = some (labelRow m val pm.updateInfo[j]) := by rw [List.getElem?_map, hu]; rfl
    rw [covSteps, List.getElem?_map, covArgs, loopArgs_get (nT + 1) hrow (y := fun _ => if cov.isObserved pm.updateInfo[j].period pm.updateInfo[j].var then some 0 else none) (by rw [covData, List.getElem?_map, hu]; rfl)] at hs
    rw [covSteps, List.getElem?_map, covArgs, loopArgs_get (nT + 1) hrow (y := fun _ => if (cov.only p).isObserved pm.updateInfo[j].period pm.updateInfo[j].var then some 0 else none) (by rw [covData, List.getElem?_map, hu]; rfl)] at hs'
    obtain rfl := Option.some.inj hs
    obtain rfl := Option.some.inj hs'
    subst hb'
    have hob : (if (cov.only p).isObserved pm.updateInfo[j].period pm.updateInfo[j].var = true then some (0 : ℝ) else none).isSome =
        (@decide (p pm.updateInfo[j].period pm.updateInfo[j].var) (Classical.dec _) && (if cov.isObserved pm.updateInfo[j].period pm.updateInfo[j].var = true then some (0 : ℝ) else none).isSome) := by
      show (if (@decide (p pm.updateInfo[j].period pm.updateInfo[j].var) (Classical.dec _) && cov.isObserved pm.updateInfo[j].period pm.updateInfo[j].var) = true then some (0 : ℝ) else none).isSome = _
      cases @decide (p pm.updateInfo[j].period pm.updateInfo[j].var) (Classical.dec _) <;> cases cov.isObserved pm.updateInfo[j].period pm.updateInfo[j].var <;> rfl
    unfold stepOf
    rw [Step.mk.injEq]
    exact ⟨rfl, rfl, rfl, hob, rfl⟩
  refine ⟨hsame', fun j h h' => ?_⟩
  have hj : j < pm.updateInfo.length := by simpa using h'
  have ha : args[j]? = some args[j] := List.getElem?_eq_getElem (hl1 ▸ hj)
  have hbj := hb j _ (List.getElem?_eq_getElem hj)
  rw [dataOf_get fixed ⟨i, hil⟩ h (a := args[j].keep (@decide (p pm.updateInfo[j].period pm.updateInfo[j].var) (Classical.dec _))) (by rw [List.getElem?_zipWith_eq_some]; exact ⟨_, _, ha, hbj, rfl⟩)]
  have hd := hdat j (by rw [List.length_map, hl1]; exact hj) h'
  rw [dataOf_get fixed ⟨i, hil⟩ _ ha] at hd
  show (if @decide (p pm.updateInfo[j].period pm.updateInfo[j].var) (Classical.dec _) then args[j].measurements ⟨i, hil⟩ else none).getD 0 = observedData _ (cov.only p) y ⟨j, _⟩
  have hg : ∀ hx, (pm.updateInfo.map (fun r => (r.period, r.var))).get ⟨j, hx⟩ = (pm.updateInfo[j].period, pm.updateInfo[j].var) := fun hx => List.getElem_map _
  unfold observedData at hd ⊢
  rw [hg] at hd ⊢
  show _ = if (@decide (p pm.updateInfo[j].period pm.updateInfo[j].var) (Classical.dec _) && cov.isObserved pm.updateInfo[j].period pm.updateInfo[j].var) = true then _ else _
  cases @decide (p pm.updateInfo[j].period pm.updateInfo[j].var) (Classical.dec _) with
  | true => simpa using hd
  | false => simp

/-- The contributions of the updates that satisfy `p`, if these are the measurements before some update, possibly this update, and none of the later ones. -/
theorem label_contributions {qr : QR} (hqr : ValidQR qr) {m : ModelDict ℝ} {k : ℕ} (hm : LinearModel m k) (hg : GoodNames m) (hkappa : ∀ o x, m.estimationOptions = some o → o.sigmaPointsScale = some x → 0 ≤ x)
    {val : Loc → ℝ} (hv : ProperValues m k val) (hanch : m.anchoring = none ∨ k = 1) {pm : Processed ℝ} (hpm : processModel m = .ok pm) {nT : ℕ} (hT : pm.dimensions.nPeriods = nT + 2) (custom : String → CustomFn) (nan : ℝ)
    {df : LongData ℝ} {ids pers : List Int} (hi : IndexOk df) (hu : NoUnusedPeriods df) (hids : IdsOf df ids) (hpers : PeriodsOf df pers) {pd : ProcessedData ℝ}
    (hdata : processData df pm.labels pm.updateInfo pm.anchoring .estimation = .ok pd) {con : Fin (nT + 2) → Fin ids.length → Fin (nCon m) → ℝ} {obs : Fin (nT + 2) → Fin ids.length → Fin (nObsd m) → ℝ}
    {data : Fin pm.updateInfo.length → Fin ids.length → Option ℝ} (hcon : ∀ (t : Fin (nT + 2)) (i : Fin ids.length) (j : Fin (nCon m)), ∃ w, entry3 pd.controls t i j = some w ∧ con t i j = w.getD nan)
    (hobs : ∀ (t : Fin (nT + 2)) (i : Fin ids.length) (j : Fin (nObsd m)), ∃ w, entry3 pd.observedFactors t i j = some w ∧ obs t i j = w.getD nan)
    (hmeas : ∀ (k : Fin pm.updateInfo.length) (i : Fin ids.length), entry2 (pd.measurements.getD []) k i = some (data k i))
    {i : ℕ} {cov : Covariates} {y : Nat → String → ℝ} (hil : i < ids.length) (hdesc : Describes m df ids pers i cov y) {p : Nat → String → Prop} {J : ℕ}
    (hp : ∀ j r, pm.updateInfo[j]? = some r → (j < J → (p r.period r.var ↔ IsMeasurement m r.period r.var)) ∧ (J < j → ¬p r.period r.var))
    (hlen : (covSteps custom m pm val nT (cov.only p)).length = (pm.updateInfo.map (fun r => (r.period, r.var))).length) :
    (List.zipWith (fun (o : StepOut ids.length pm.dimensions.nMixtures (nLat m)) (b : Bool) => if b then o.loglikes ⟨i, hil⟩ else 0)
      (outs qr (labelFixed custom m pm val ids.length nT con obs) (labelCarry m val ids.length pm.dimensions.nMixtures) (loopArgs (nT + 1) (pm.updateInfo.map (labelRow m val)) (List.ofFn data)))
      (pm.updateInfo.map (fun r => @decide (p r.period r.var) (Classical.dec _)))).sum =
    Real.log (covDensity custom m pm val nT (cov.only p) (fun j => observedData (pm.updateInfo.map (fun r => (r.period, r.var))) (cov.only p) y (Fin.cast hlen j))) := by
  classical
  have hk : pm.dimensions.nMixtures = k := ((hasNMixtures_of_ok hpm k).mp hm.mixture).symm
  subst hk
  have hmask := individual_masked hm hg hpm hT custom nan val hi hu hids hpers hdata hcon hobs hmeas hil hdesc p
  have hl1 : (loopArgs (nT + 1) (pm.updateInfo.map (labelRow m val)) (List.ofFn data)).length = pm.updateInfo.length := by rw [loopArgs_length _ _ (by simp), List.length_map]
  have hsds := rows_sd hv hpm (L := nT + 1) (data := List.ofFn data) (by simp)
  have hflag : pm.dimensions.nMixtures = 1 ∨ ∀ a ∈ loopArgs (nT + 1) (pm.updateInfo.map (labelRow m val)) (List.ofFn data), a.isMeasurement = true :=
    hanch.symm.imp id (fun h => rows_measurement h hpm (by simp))
  set fixed := labelFixed custom m pm val ids.length nT con obs with hfixed
  have hget := fun (j : ℕ) (a) (ha : (loopArgs (nT + 1) (pm.updateInfo.map (labelRow m val)) (List.ofFn data))[j]? = some a) => rows_get val (L := nT + 1) (data := List.ofFn data) (by simp) ha
  set args := loopArgs (nT + 1) (pm.updateInfo.map (labelRow m val)) (List.ofFn data) with hargs
  set bs : List Bool := pm.updateInfo.map (fun r => @decide (p r.period r.var) (Classical.dec _)) with hbs
  have hbl : bs.length = args.length := by rw [hl1, hbs, List.length_map]
  have hb : ∀ (j : ℕ) (r : URow), pm.updateInfo[j]? = some r → bs[j]? = some (@decide (p r.period r.var) (Classical.dec _)) := fun j (r : URow) hr => by rw [hbs, List.getElem?_map, hr]; rfl
  have hkeeps : Keeps args bs := by
    refine keeps_of hbl (J := J) (fun j a b ha hb' => ?_)
    obtain ⟨r, hr, _, hr2⟩ := hget j a ha
    rw [hb j r hr, Option.some.injEq] at hb'
    subst hb'
    obtain ⟨h1, h2⟩ := hp j r hr
    refine ⟨fun h => ?_, fun h => ?_⟩
    · rw [hr2]
      exact decide_eq_decide.mpr ((h1 h).trans (purpose_iff hpm hm.anchoring.1 (List.mem_of_getElem? hr)).symm)
    · exact decide_eq_false (h2 h)
  rw [contributions_keep qr fixed hkeeps hflag]
  have hw : ∀ i : Fin ids.length, ∑ e, Real.exp ((labelCarry m val ids.length pm.dimensions.nMixtures).logWeights i e) = 1 := fun i => by
    rw [Finset.sum_congr rfl (fun e _ => weights_label hv ids.length i e)]; exact hv.sum
  have hmem : ∀ a' ∈ List.zipWith LoopArgs.keep args bs, a'.measSd ≠ 0 ∧ a'.isMeasurement = true := by
    intro a' ha'
    obtain ⟨j, hj⟩ := List.getElem?_of_mem ha'
    rw [List.getElem?_zipWith_eq_some] at hj
    obtain ⟨a, b, ha, _, rfl⟩ := hj
    exact ⟨hsds a (List.mem_of_getElem? ha), rfl⟩
  have e1 := contributions_eq hqr (sigma_label hpm hkappa custom val ids.length nT con obs) (affine_label hm hpm hg custom val ids.length nT con obs) (hm.single.imp id (fun h => by simp [h])) ⟨i, hil⟩
    (fun a ha => (hmem a ha).1) (fun a ha => (hmem a ha).2) hw (dataOf fixed ⟨i, hil⟩ (List.zipWith LoopArgs.keep args bs))
  rw [fill_dataOf] at e1
  rw [← Real.log_exp (List.sum _), e1]
  congr 1
  unfold covDensity
  refine Finset.sum_congr rfl (fun e _ => ?_)
  rw [weights_label hv]
  refine congrArg (val ⟨.mixtureWeights, 0, Spec.mixtureName e, "-"⟩ * ·) (kalmanDensity_congr hmask.1 _ _ (fun j h h' => ?_))
  exact hmask.2 j h (by rw [covSteps_length] at h'; simpa using h')

theorem only_true (cov : Covariates) : cov.only (fun _ _ => True) = cov := by
  obtain ⟨o, c, f⟩ := cov
  simp [Covariates.only]

/-- The contributions that satisfy `p`, as sum over the updates. -/
theorem sum_updates {nObs nMix n : ℕ} {rows : List (StepOut nObs nMix n)} {u : List URow} (hl : rows.length = u.length) (i : ℕ) (hi : i < nObs) (p : Nat → String → Prop) {N : List (Nat × String)}
    (hN : N = u.map (fun r => (r.period, r.var))) (inst : ∀ j : Fin N.length, Decidable (p (N.get j).1 (N.get j).2)) :
    (∑ j : Fin N.length, if p (N.get j).1 (N.get j).2 then ((((rows.map (fun o => o.loglikes)).map List.ofFn).getD j []).getD i 0) else 0) =
      (List.zipWith (fun (o : StepOut nObs nMix n) (b : Bool) => if b then o.loglikes ⟨i, hi⟩ else 0) rows (u.map (fun r => @decide (p r.period r.var) (Classical.dec _)))).sum := by
  subst hN
  rw [← List.sum_ofFn]
  congr 1
  refine List.ext_getElem (by simp [hl]) (fun j h1 h2 => ?_)
  have hj : j < u.length := by simpa using h1
  have hjr : j < rows.length := hl ▸ hj
  rw [List.getElem_ofFn, List.getElem_zipWith, List.getElem_map]
  have hg : (u.map (fun r => (r.period, r.var))).get ⟨j, by simpa using hj⟩ = (u[j].period, u[j].var) := List.getElem_map _
  have hrow : ((rows.map (fun o => o.loglikes)).map List.ofFn).getD j [] = List.ofFn rows[j].loglikes := by
    rw [List.getD_eq_getElem?_getD, List.getElem?_map, List.getElem?_map, List.getElem?_eq_getElem hjr]
    rfl
  show (if p ((u.map (fun r => (r.period, r.var))).get ⟨j, _⟩).1 ((u.map (fun r => (r.period, r.var))).get ⟨j, _⟩).2 then (((rows.map (fun o => o.loglikes)).map List.ofFn).getD j []).getD i 0 else 0) = _
  rw [hrow, List.getD_eq_getElem?_getD, List.getElem?_ofFn, dif_pos hi, Option.getD_some]
  by_cases hp : p u[j].period u[j].var
  · rw [if_pos (by rw [hg]; exact hp), if_pos (by simpa using hp)]
  · rw [if_neg (by rw [hg]; exact hp), if_neg (by simpa using hp)]

/-- What `loglike` returns, for a subset of the updates as in `label_contributions`. -/
theorem loglike_contributions {qr : QR} (hqr : ValidQR qr) {m : ModelDict ℝ} {pm : Processed ℝ} (hpm : processModel m = .ok pm) {k : ℕ} (hm : LinearModel m k) (hg : GoodNames m)
    (hkappa : ∀ o x, m.estimationOptions = some o → o.sigmaPointsScale = some x → 0 ≤ x) {val : Loc → ℝ} (hv : ProperValues m k val) (hanch : m.anchoring = none ∨ k = 1) {nT : ℕ} (hT : pm.dimensions.nPeriods = nT + 2)
    (custom : String → CustomFn) (nan : ℝ) {df : LongData ℝ} {ids pers : List Int} {inputs : MaximizationInputs} {params : List (Loc × ℝ)} {out : LoglikeOutput} (hi : IndexOk df) (hu : NoUnusedPeriods df) (hids : IdsOf df ids)
    (hpers : PeriodsOf df pers) (hn : (params.map Prod.fst).Nodup) (hval : ∀ l x, (l, x) ∈ params → x = val l) (hin : getMaximizationInputs m df = .ok inputs) (hout : inputs.loglike qr custom nan m params = .ok out) :
    out.allContributions.length = pm.updateInfo.length ∧
    (out.contributions.length = ids.length ∧ out.value = out.contributions.sum) ∧ ∀ (i : Nat) (cov : Covariates) (y : Nat → String → ℝ), i < ids.length → Describes m df ids pers i cov y →
      (∀ (p : Nat → String → Prop) (J : ℕ), (∀ j r, pm.updateInfo[j]? = some r → (j < J → (p r.period r.var ↔ IsMeasurement m r.period r.var)) ∧ (J < j → ¬p r.period r.var)) →
        ∀ (inst : ∀ j : Fin (pm.updateInfo.map (fun r => (r.period, r.var))).length, Decidable (p ((pm.updateInfo.map (fun r => (r.period, r.var))).get j).1 ((pm.updateInfo.map (fun r => (r.period, r.var))).get j).2))
          (hlen : (covSteps custom m pm val nT (cov.only p)).length = (pm.updateInfo.map (fun r => (r.period, r.var))).length),
        (∑ j : Fin (pm.updateInfo.map (fun r => (r.period, r.var))).length, if p ((pm.updateInfo.map (fun r => (r.period, r.var))).get j).1 ((pm.updateInfo.map (fun r => (r.period, r.var))).get j).2 then
          (out.allContributions.getD j []).getD i 0 else 0) =
        Real.log (covDensity custom m pm val nT (cov.only p) (fun j => observedData (pm.updateInfo.map (fun r => (r.period, r.var))) (cov.only p) y (Fin.cast hlen j)))) ∧
      (NoClipping m → out.contributions.getD i 0 = (out.allContributions.map (fun row => row.getD i 0)).sum) := by
  have hObs := length_controls hpm hm hg hi hu hids hpers hin
  obtain ⟨pm', nT', con, obs, data, r, hpm', hT', hdata, hcon, hobs, hmeas, hr, hpost⟩ := evaluate_explicit hg hm.anchoring.1 hm.anchoring.2.1 hin hn hval hout hObs
  obtain rfl := Except.ok.inj (hpm.symm.trans hpm')
  obtain rfl := Except.ok.inj hpost
  obtain rfl : nT = nT' := by omega
  obtain ⟨h1, h2, h3, h4⟩ := logLikelihood_ok hr
  have hl : r.outs.length = pm.updateInfo.length := by rw [h1, outs_length, loopArgs_length _ _ (by simp), List.length_map]
  unfold LoglikeResult.output
  dsimp only
  refine ⟨by rw [h2, List.length_map, List.length_map, hl], ⟨by simp, ?_⟩, fun i cov y hil hdesc => ⟨fun p J hp inst hlen => ?_, ?_⟩⟩
  · rw [h4, List.sum_ofFn, list_sum_swap]
    exact Finset.sum_congr rfl (fun i _ => (h3 i).symm)
  · rw [h2, sum_updates hl i hil p rfl inst, h1]
    exact label_contributions hqr hm hg hkappa hv hanch hpm hT custom nan hi hu hids hpers hdata hcon hobs hmeas hil hdesc hp hlen
  · rintro ⟨o, ho, hlo, hup⟩
    have hl : (clipOptions pm.estimationOptions).lower = none ∧ (clipOptions pm.estimationOptions).upper = none := by
      unfold clipOptions
      dsimp only
      rw [(processModel_ok_iff.mp hpm).2.2.2.2.2.1]
      unfold processEstimationOptions
      dsimp only
      rw [ho, Option.getD_some, hlo]
      rcases hup with h | h <;> rw [h] <;> exact ⟨rfl, rfl⟩
    rw [h2, List.map_map, List.map_map, List.getD_eq_getElem?_getD, List.getElem?_ofFn, dif_pos hil, Option.getD_some, h3, hl.1, hl.2]
    congr 1
    refine List.map_congr_left (fun o _ => ?_)
    simp only [Function.comp, List.getD_eq_getElem?_getD, List.getElem?_ofFn, dif_pos hil, Option.getD_some]
    rfl

theorem sum_getD (rows : List (List ℝ)) (i : ℕ) {N : ℕ} (hN : rows.length = N) : (rows.map (fun row => row.getD i 0)).sum = ∑ j : Fin N, (rows.getD j []).getD i 0 := by
  subst hN
  rw [← List.sum_ofFn]
  congr 1
  refine List.ext_getElem (by simp) (fun j h1 h2 => ?_)
  rw [List.getElem_map, List.getElem_ofFn, List.getD_eq_getElem?_getD (l := rows), List.getElem?_eq_getElem]
  rfl

/-- `density cov` is the density of the data of an individual with covariates `cov` in the model of the user with the parameter values `val`, and the likelihood of the package uses it (see C71). -/
structure DensityFor (qr : QR) (custom : String → CustomFn) (nan : ℝ) (m : ModelDict ℝ) (k : ℕ) (updates : List (Nat × String)) (val : Loc → ℝ) (density : Covariates → (Fin updates.length → ℝ) → ℝ) : Prop where
  continuous : ∀ cov, Continuous (density cov)
  pos : ∀ cov y, 0 < density cov y
  bounds : ∀ cov, ∃ C D : ℝ, 0 ≤ C ∧ ∀ y, Real.exp (-(C * (1 + ‖y‖ ^ 2))) ≤ density cov y ∧ density cov y ≤ D
  law : ∀ (cov : Covariates) {Ω : Type} [MeasurableSpace Ω] (P : Measure Ω) [IsProbabilityMeasure P] (E : Ω → Fin k) (Z : Noise → Ω → ℝ), RandomNoise P val E Z →
    P.map (fun ω => observedData updates cov (measurementValue m val cov (E ω) (fun j => Z j ω))) = (referenceMeasure updates cov).withDensity (fun y => ENNReal.ofReal (density cov y))
  loglike : ∀ (df : LongData ℝ) (ids pers : List Int) (inputs : MaximizationInputs) (params : List (Loc × ℝ)) (out : LoglikeOutput), IndexOk df → NoUnusedPeriods df → IdsOf df ids → PeriodsOf df pers →
    (params.map Prod.fst).Nodup → (∀ l x, (l, x) ∈ params → x = val l) → getMaximizationInputs m df = .ok inputs → inputs.loglike qr custom nan m params = .ok out →
    ∀ (i : Nat) (cov : Covariates) (y : Nat → String → ℝ), i < ids.length → Describes m df ids pers i cov y →
      (out.allContributions.map (fun row => row.getD i 0)).sum = Real.log (density cov (observedData updates cov y)) ∧
      (NoClipping m → out.contributions.getD i 0 = Real.log (density cov (observedData updates cov y)))
  value : ∀ (df : LongData ℝ) (ids pers : List Int) (inputs : MaximizationInputs) (params : List (Loc × ℝ)) (out : LoglikeOutput), IndexOk df → NoUnusedPeriods df → IdsOf df ids → PeriodsOf df pers →
    (params.map Prod.fst).Nodup → (∀ l x, (l, x) ∈ params → x = val l) → getMaximizationInputs m df = .ok inputs → inputs.loglike qr custom nan m params = .ok out →
    out.contributions.length = ids.length ∧ out.value = out.contributions.sum

/-- The periods and names of the updates. -/
abbrev updateList (pm : Processed ℝ) : List (Nat × String) := pm.updateInfo.map (fun r => (r.period, r.var))

theorem updateList_length (custom : String → CustomFn) (m : ModelDict ℝ) (pm : Processed ℝ) (val : Loc → ℝ) (nT : ℕ) (cov : Covariates) : (covSteps custom m pm val nT cov).length = (updateList pm).length := by
  rw [covSteps_length, List.length_map]

/-- The density of the data of an individual in the model of the user. -/
noncomputable def valuesDensity (custom : String → CustomFn) (m : ModelDict ℝ) (pm : Processed ℝ) (nT : ℕ) (val : Loc → ℝ) (cov : Covariates) (y : Fin (updateList pm).length → ℝ) : ℝ :=
  covDensity custom m pm val nT cov (fun j => y (Fin.cast (updateList_length custom m pm val nT cov) j))

theorem updateList_enumerates {m : ModelDict ℝ} {pm : Processed ℝ} (hpm : processModel m = .ok pm) : Enumerates m (updateList pm) := by
  obtain ⟨hu1, hu2, _, _, hu5⟩ := C01_update_info_exact hpm
  refine ⟨hu1, fun t v => ?_⟩
  rw [← hu2]
  simp [List.mem_map]

/-- `valuesDensity` is the density of the data. -/
theorem density_explicit {qr : QR} (hqr : ValidQR qr) {m : ModelDict ℝ} {pm : Processed ℝ} (hpm : processModel m = .ok pm) {k : ℕ} (hm : LinearModel m k) (hna : m.anchoring = none) (hg : GoodNames m)
    (hkappa : ∀ o x, m.estimationOptions = some o → o.sigmaPointsScale = some x → 0 ≤ x) (custom : String → CustomFn) (nan : ℝ) {nT : ℕ} (hT : pm.dimensions.nPeriods = nT + 2) {val : Loc → ℝ} (hv : ProperValues m k val) :
    DensityFor qr custom nan m k (updateList pm) val (valuesDensity custom m pm nT val) := by
  obtain ⟨hu1, hu2, _, _, hu5⟩ := C01_update_info_exact hpm
  have hlen : ∀ val cov, (covSteps custom m pm val nT cov).length = (pm.updateInfo.map (fun r => (r.period, r.var))).length := fun val cov => by rw [covSteps_length, List.length_map]
  refine ⟨?_, ?_, ?_, ?_, ?_, fun df ids pers inputs params out hi hu hids hpers hn hval hin hout =>
    (loglike_contributions hqr hpm hm hg hkappa hv (Or.inl hna) hT custom nan hi hu hids hpers hn hval hin hout).2.1⟩
  · intro cov
    exact (continuous_covDensity hm hg hpm nT custom cov).comp (continuous_pi (fun j => continuous_apply (Fin.cast (hlen val cov) j)))
  · intro cov y
    exact covDensity_pos hm hv hpm nT custom cov _
  · intro cov
    obtain ⟨C, D, hC, h⟩ := covDensity_bounds hm hg hv hpm nT custom cov
    have hnorm : ∀ y : Fin (pm.updateInfo.map (fun r => (r.period, r.var))).length → ℝ, ‖fun j => y (Fin.cast (hlen val cov) j)‖ ≤ ‖y‖ := fun y =>
      (pi_norm_le_iff_of_nonneg (norm_nonneg y)).mpr (fun j => norm_le_pi_norm y _)
    refine ⟨C, D, hC, fun y => ⟨le_trans (Real.exp_le_exp.mpr ?_) (h _).1, (h _).2⟩⟩
    have h1 : ‖fun j => y (Fin.cast (hlen val cov) j)‖ ^ 2 ≤ ‖y‖ ^ 2 := pow_le_pow_left₀ (norm_nonneg _) (hnorm y) 2
    exact neg_le_neg (mul_le_mul_of_nonneg_left (by linarith) hC)
  · intro cov Ω _ P _ E Z hZ
    exact label_law hm hg hv hpm hT custom cov rfl (hlen val cov) hZ
  intro df ids pers inputs params out hi hu hids hpers hn hval hin hout i cov y hil hdesc
  obtain ⟨hl, _, h⟩ := loglike_contributions hqr hpm hm hg hkappa hv (Or.inl hna) hT custom nan hi hu hids hpers hn hval hin hout
  obtain ⟨h1, h2⟩ := h i cov y hil hdesc
  have h1 := h1 (fun _ _ => True) pm.updateInfo.length (fun j r hr => by
    refine ⟨fun _ => ⟨fun _ => ?_, fun _ => trivial⟩, fun h => ?_⟩
    · refine (purpose_iff hpm hm.anchoring.1 (List.mem_of_getElem? hr)).mp ?_
      cases hp : r.purpose with
      | measurement => rfl
      | anchoring =>
        obtain ⟨f, o, ⟨a, ha, _⟩, _⟩ := (hu5 _ (List.mem_of_getElem? hr)).mp hp
        rw [hna] at ha
        cases ha
    · have := (List.getElem?_eq_some_iff.mp hr).1
      omega) (fun _ => inferInstance) (by rw [only_true]; exact hlen val cov)
  simp only [if_true] at h1
  rw [← sum_getD _ i (by rw [hl, List.length_map])] at h1
  have hsub : ∀ cov', cov' = cov → ∀ (hl' : (covSteps custom m pm val nT cov').length = (pm.updateInfo.map (fun r => (r.period, r.var))).length),
      covDensity custom m pm val nT cov' (fun j => observedData (pm.updateInfo.map (fun r => (r.period, r.var))) cov' y (Fin.cast hl' j)) =
        covDensity custom m pm val nT cov (fun j => observedData (pm.updateInfo.map (fun r => (r.period, r.var))) cov y (Fin.cast (hlen val cov) j)) := by
    rintro _ rfl _
    rfl
  rw [hsub _ (only_true cov)] at h1
  exact ⟨h1, fun hc => (h2 hc).trans h1⟩

/-- The density of the data of an individual in the model of the user, as a function of the values of the parameters. -/
theorem density_of_values {qr : QR} (hqr : ValidQR qr) {m : ModelDict ℝ} {pm : Processed ℝ} (hpm : processModel m = .ok pm) {k : ℕ} (hm : LinearModel m k) (hna : m.anchoring = none) (hg : GoodNames m)
    (hkappa : ∀ o x, m.estimationOptions = some o → o.sigmaPointsScale = some x → 0 ≤ x) (custom : String → CustomFn) (nan : ℝ) :
    ∃ updates, Enumerates m updates ∧ ∃ density : (Loc → ℝ) → Covariates → (Fin updates.length → ℝ) → ℝ, ∀ val, ProperValues m k val → DensityFor qr custom nan m k updates val (density val) := by
  obtain ⟨nT, hT⟩ : ∃ nT, pm.dimensions.nPeriods = nT + 2 := ⟨pm.dimensions.nPeriods - 2, by have := (isPeriod_iff hpm 1).mp hm.periods; omega⟩
  exact ⟨updateList pm, updateList_enumerates hpm, valuesDensity custom m pm nT, fun val hv => density_explicit hqr hpm hm hna hg hkappa custom nan hT hv⟩

/-- **C71.** Consider a model dictionary of a user without anchoring, with linear or constant transition functions and measurements in every period, and parameters with the values `val`. Then there is a function
`density` such that
* `density cov` is the density of the measurements of an individual with covariates `cov` (pattern of missing values, controls and observed factors) in the statistical model that the user wrote down (in terms of the
  names of factors, controls, measurements and parameters), with respect to Lebesgue measure for observed measurements, and it is continuous (so that it is determined everywhere);
* for every dataset and every parameter DataFrame with these values, in any order of the rows, for which `loglike` returns a result, the contributions of each individual to the log likelihood (before clipping) add up to the logarithm of
  the density of the data of the individual. Without clipping this is also the contribution that `loglike` returns for the individual. -/
theorem C71_likelihood_of_user_model {qr : QR} (hqr : ValidQR qr) {m : ModelDict ℝ} {pm : Processed ℝ} (hpm : processModel m = .ok pm) {k : ℕ} (hm : LinearModel m k) (hna : m.anchoring = none) (hg : GoodNames m)
    (hkappa : ∀ o x, m.estimationOptions = some o → o.sigmaPointsScale = some x → 0 ≤ x) {val : Loc → ℝ} (hv : ProperValues m k val) (custom : String → CustomFn) (nan : ℝ) :
    ∃ updates, Enumerates m updates ∧ ∃ density : Covariates → (Fin updates.length → ℝ) → ℝ, (∀ cov, Continuous (density cov)) ∧
      (∀ (cov : Covariates) {Ω : Type} [MeasurableSpace Ω] (P : Measure Ω) [IsProbabilityMeasure P] (E : Ω → Fin k) (Z : Noise → Ω → ℝ), RandomNoise P val E Z →
        P.map (fun ω => observedData updates cov (measurementValue m val cov (E ω) (fun j => Z j ω))) = (referenceMeasure updates cov).withDensity (fun y => ENNReal.ofReal (density cov y))) ∧
      ∀ (df : LongData ℝ) (ids pers : List Int) (inputs : MaximizationInputs) (params : List (Loc × ℝ)) (out : LoglikeOutput), IndexOk df → NoUnusedPeriods df → IdsOf df ids → PeriodsOf df pers →
        (params.map Prod.fst).Nodup → (∀ l x, (l, x) ∈ params → x = val l) → getMaximizationInputs m df = .ok inputs → inputs.loglike qr custom nan m params = .ok out →
        ∀ (i : Nat) (cov : Covariates) (y : Nat → String → ℝ), i < ids.length → Describes m df ids pers i cov y →
          0 < density cov (observedData updates cov y) ∧ (out.allContributions.map (fun row => row.getD i 0)).sum = Real.log (density cov (observedData updates cov y)) ∧
          (NoClipping m → out.contributions.getD i 0 = Real.log (density cov (observedData updates cov y))) := by
  obtain ⟨updates, hup, density, h⟩ := density_of_values hqr hpm hm hna hg hkappa custom nan
  have h := h val hv
  refine ⟨updates, hup, density val, h.continuous, h.law, ?_⟩
  intro df ids pers inputs params out hi hu hids hpers hn hval hin hout i cov y hil hdesc
  exact ⟨h.pos _ _, h.loglike df ids pers inputs params out hi hu hids hpers hn hval hin hout i cov y hil hdesc⟩

open Classical in
/-- **C87.** Consider a model dictionary with one mixture element, with linear or constant transition functions and measurements in every period, in which some factors are anchored. Then there is a function `density` such
that
* `density cov` is the density of the measurements and anchoring outcomes of an individual with covariates `cov` in the statistical model of the user (see C71); it is positive and continuous;
* for each individual of a dataset the contributions of measurements to the log likelihood add up to the logarithm of the density of the observed measurements (without the anchoring outcomes);
* the contribution of the outcome of an anchoring equation in period t is the logarithm of its conditional density, given the measurements up to period t: the other anchoring outcomes and later measurements do not matter.
Without clipping the contribution of the individual is the sum of all these contributions. -/
theorem C87_anchored_likelihood {qr : QR} (hqr : ValidQR qr) {m : ModelDict ℝ} {pm : Processed ℝ} (hpm : processModel m = .ok pm) (hm : LinearModel m 1) (hg : GoodNames m)
    (hkappa : ∀ o x, m.estimationOptions = some o → o.sigmaPointsScale = some x → 0 ≤ x) {val : Loc → ℝ} (hv : ProperValues m 1 val) (custom : String → CustomFn) (nan : ℝ) :
    ∃ updates, Enumerates m updates ∧ ∃ density : Covariates → (Fin updates.length → ℝ) → ℝ, (∀ cov, Continuous (density cov) ∧ ∀ y, 0 < density cov y) ∧
      (∀ (cov : Covariates) {Ω : Type} [MeasurableSpace Ω] (P : Measure Ω) [IsProbabilityMeasure P] (E : Ω → Fin 1) (Z : Noise → Ω → ℝ), RandomNoise P val E Z →
        P.map (fun ω => observedData updates cov (measurementValue m val cov (E ω) (fun j => Z j ω))) = (referenceMeasure updates cov).withDensity (fun y => ENNReal.ofReal (density cov y))) ∧
      ∀ (df : LongData ℝ) (ids pers : List Int) (inputs : MaximizationInputs) (params : List (Loc × ℝ)) (out : LoglikeOutput), IndexOk df → NoUnusedPeriods df → IdsOf df ids → PeriodsOf df pers →
        (params.map Prod.fst).Nodup → (∀ l x, (l, x) ∈ params → x = val l) → getMaximizationInputs m df = .ok inputs → inputs.loglike qr custom nan m params = .ok out →
        out.allContributions.length = updates.length ∧
        ∀ (i : Nat) (cov : Covariates) (y : Nat → String → ℝ), i < ids.length → Describes m df ids pers i cov y →
          let contribution := fun j : Fin updates.length => (out.allContributions.getD j []).getD i 0
          let logDensity := fun p : Nat → String → Prop => Real.log (density (cov.only p) (observedData updates (cov.only p) y))
          (∑ j, if IsMeasurement m (updates.get j).1 (updates.get j).2 then contribution j else 0) = logDensity (IsMeasurement m) ∧
          (∀ j t v, updates.get j = (t, v) → ¬IsMeasurement m t v →
            contribution j = logDensity (fun s w => (s ≤ t ∧ IsMeasurement m s w) ∨ (s = t ∧ w = v)) - logDensity (fun s w => s ≤ t ∧ IsMeasurement m s w)) ∧
          (NoClipping m → out.contributions.getD i 0 = ∑ j, contribution j) := by
  obtain ⟨nT, hT⟩ : ∃ nT, pm.dimensions.nPeriods = nT + 2 := ⟨pm.dimensions.nPeriods - 2, by have := (isPeriod_iff hpm 1).mp hm.periods; omega⟩
  obtain ⟨hu1, hu2, hsorted, _⟩ := C01_update_info_exact hpm
  have hlen : ∀ cov, (covSteps custom m pm val nT cov).length = (pm.updateInfo.map (fun r => (r.period, r.var))).length := fun cov => by rw [covSteps_length, List.length_map]
  refine ⟨pm.updateInfo.map (fun r => (r.period, r.var)), ⟨hu1, fun t v => ?_⟩, fun cov y => covDensity custom m pm val nT cov (fun j => y (Fin.cast (hlen cov) j)), ?_, ?_, ?_⟩
  · rw [← hu2]
    simp [List.mem_map]
  · intro cov
    exact ⟨(continuous_covDensity hm hg hpm nT custom cov).comp (continuous_pi (fun j => continuous_apply (Fin.cast (hlen cov) j))), fun y => covDensity_pos hm hv hpm nT custom cov _⟩
  · intro cov Ω _ P _ E Z hZ
    exact label_law hm hg hv hpm hT custom cov rfl (hlen cov) hZ
  intro df ids pers inputs params out hi hu hids hpers hn hval hin hout
  obtain ⟨hl, _, h⟩ := loglike_contributions hqr hpm hm hg hkappa hv (Or.inr rfl) hT custom nan hi hu hids hpers hn hval hin hout
  refine ⟨by rw [hl, List.length_map], fun i cov y hil hdesc => ?_⟩
  obtain ⟨h1, h2⟩ := h i cov y hil hdesc
  dsimp only
  refine ⟨?_, ?_, fun hc => ?_⟩
  · refine h1 (IsMeasurement m) pm.updateInfo.length (fun j r hr => ⟨fun _ => Iff.rfl, fun h => ?_⟩) _ _
    have := (List.getElem?_eq_some_iff.mp hr).1
    omega
  · intro j t v hj hnm
    have hjl : j.val < pm.updateInfo.length := by have := j.isLt; simpa using this
    have hrow : (pm.updateInfo[j.val].period, pm.updateInfo[j.val].var) = (t, v) := by
      rw [← hj, List.get_eq_getElem, List.getElem_map]
    obtain ⟨rfl, rfl⟩ := Prod.mk.inj hrow
    have hfirst := measurements_first hpm hm.anchoring.1
    rw [List.pairwise_iff_getElem] at hsorted hfirst
    have hbefore : ∀ a r, pm.updateInfo[a]? = some r → (a < j.val → r.period ≤ pm.updateInfo[j.val].period) ∧
        (j.val < a → ¬(r.period ≤ pm.updateInfo[j.val].period ∧ IsMeasurement m r.period r.var) ∧ ¬(r.period = pm.updateInfo[j.val].period ∧ r.var = pm.updateInfo[j.val].var)) := by
      intro a r hr
      obtain ⟨ha, rfl⟩ := List.getElem?_eq_some_iff.mp hr
      refine ⟨fun h => hsorted a j.val ha hjl h, fun h => ⟨fun ⟨h1, h2⟩ => ?_, fun ⟨h1, h2⟩ => ?_⟩⟩
      · exact hfirst j.val a hjl ha h (le_antisymm (hsorted j.val a hjl ha h) h1) hnm h2
      · have := (List.getElem_inj (h₀ := by simpa using ha) (h₁ := by simpa using hjl) hu1).mp (by rw [List.getElem_map, List.getElem_map, h1, h2])
        omega
    have e1 := h1 (fun s w => (s ≤ pm.updateInfo[j.val].period ∧ IsMeasurement m s w) ∨ (s = pm.updateInfo[j.val].period ∧ w = pm.updateInfo[j.val].var)) j.val (fun a r hr => by
      obtain ⟨b1, b2⟩ := hbefore a r hr
      refine ⟨fun h => ⟨?_, fun hM => Or.inl ⟨b1 h, hM⟩⟩, fun h => fun hp => hp.elim (b2 h).1 (b2 h).2⟩
      rintro (⟨_, hM⟩ | ⟨h1, h2⟩)
      · exact hM
      · exfalso
        obtain ⟨ha, rfl⟩ := List.getElem?_eq_some_iff.mp hr
        have := (List.getElem_inj (h₀ := by simpa using ha) (h₁ := by simpa using hjl) hu1).mp (by rw [List.getElem_map, List.getElem_map, h1, h2])
        omega) (fun _ => Classical.dec _) (hlen _)
    have e2 := h1 (fun s w => s ≤ pm.updateInfo[j.val].period ∧ IsMeasurement m s w) j.val (fun a r hr => by
      obtain ⟨b1, b2⟩ := hbefore a r hr
      exact ⟨fun h => ⟨fun hp => hp.2, fun hM => ⟨b1 h, hM⟩⟩, fun h => (b2 h).1⟩) (fun _ => Classical.dec _) (hlen _)
    rw [← e1, ← e2, ← Finset.sum_sub_distrib]
    rw [Finset.sum_eq_single j]
    · rw [hj]
      rw [if_pos (Or.inr ⟨rfl, rfl⟩), if_neg (fun h => hnm h.2), sub_zero]
    · intro a _ ha
      have hne : ¬(((pm.updateInfo.map (fun r => (r.period, r.var))).get a).1 = pm.updateInfo[j.val].period ∧ ((pm.updateInfo.map (fun r => (r.period, r.var))).get a).2 = pm.updateInfo[j.val].var) := by
        rintro ⟨h1, h2⟩
        refine ha (List.nodup_iff_injective_get.mp hu1 ?_)
        rw [hj]
        exact Prod.ext h1 h2
      by_cases hq : ((pm.updateInfo.map (fun r => (r.period, r.var))).get a).1 ≤ pm.updateInfo[j.val].period ∧
          IsMeasurement m ((pm.updateInfo.map (fun r => (r.period, r.var))).get a).1 ((pm.updateInfo.map (fun r => (r.period, r.var))).get a).2
      · rw [if_pos (Or.inl hq), if_pos hq, sub_self]
      · rw [if_neg (fun h => h.elim hq hne), if_neg hq, sub_self]
    · simp
  · rw [h2 hc, sum_getD _ i (N := (pm.updateInfo.map (fun r => (r.period, r.var))).length) (by rw [hl, List.length_map])]

end Skill
