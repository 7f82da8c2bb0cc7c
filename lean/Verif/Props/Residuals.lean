import Verif.Lemmas.ResidualLaw
import Verif.Lemmas.ElementNoise
import Verif.Props.FilteredStates
import Verif.Lemmas.DataMoments
/-
C123: the residuals in the output of debug_loglike.
-/
namespace Skill
open Matrix MeasureTheory ProbabilityTheory Spec

theorem covSteps_observed (custom : String → CustomFn) (m : ModelDict ℝ) (pm : Processed ℝ) (val : Loc → ℝ) (nT : ℕ) (cov : Covariates) {j : ℕ} {r : URow} (hr : pm.updateInfo[j]? = some r)
    (h : j < (covSteps custom m pm val nT cov).length) : (covSteps custom m pm val nT cov)[j].observed = cov.isObserved r.period r.var := by
  have hrow : (pm.updateInfo.map (labelRow m val))[j]? = some (labelRow m val r) := by rw [List.getElem?_map, hr]; rfl
  have h1 := loopArgs_get (nT + 1) hrow (y := fun _ => if cov.isObserved r.period r.var then some 0 else none) (data := covData pm.updateInfo cov) (by rw [covData, List.getElem?_map, hr]; rfl)
  have h2 := (List.getElem?_map (f := stepOf (covFixed custom m pm val nT cov) 0)).trans (congrArg (Option.map (stepOf (covFixed custom m pm val nT cov) 0)) h1)
  have h3 := Option.some.inj ((List.getElem?_eq_getElem h).symm.trans h2)
  refine (congrArg Step.observed h3).trans ?_
  show (if cov.isObserved r.period r.var = true then some (0 : ℝ) else none).isSome = _
  cases cov.isObserved r.period r.var <;> rfl

section
variable {qr : QR} (hqr : ValidQR qr) {m : ModelDict ℝ} {pm : Processed ℝ} (hpm : processModel m = .ok pm) {k : ℕ} (hm : LinearModel m k) (hg : GoodNames m)
    (hkappa : ∀ o x, m.estimationOptions = some o → o.sigmaPointsScale = some x → 0 ≤ x) {val : Loc → ℝ} (hv : ProperValues m k val) (custom : String → CustomFn) (nan : ℝ)
include hqr hpm hm hg hkappa hv

/-- The residuals of an individual of a dataset. -/
theorem residual_label {nT : ℕ} (hT : pm.dimensions.nPeriods = nT + 2) {df : LongData ℝ} {ids pers : List Int} (hi : IndexOk df) (hu : NoUnusedPeriods df) (hids : IdsOf df ids) (hpers : PeriodsOf df pers)
    {pd : ProcessedData ℝ} (hdata : processData df pm.labels pm.updateInfo pm.anchoring .estimation = .ok pd) {con : Fin (nT + 2) → Fin ids.length → Fin (nCon m) → ℝ}
    {obs : Fin (nT + 2) → Fin ids.length → Fin (nObsd m) → ℝ} {data : Fin pm.updateInfo.length → Fin ids.length → Option ℝ}
    (hcon : ∀ (t : Fin (nT + 2)) (i : Fin ids.length) (j : Fin (nCon m)), ∃ w, entry3 pd.controls t i j = some w ∧ con t i j = w.getD nan)
    (hobs : ∀ (t : Fin (nT + 2)) (i : Fin ids.length) (j : Fin (nObsd m)), ∃ w, entry3 pd.observedFactors t i j = some w ∧ obs t i j = w.getD nan)
    (hmeas : ∀ (k : Fin pm.updateInfo.length) (i : Fin ids.length), entry2 (pd.measurements.getD []) k i = some (data k i))
    {i : ℕ} {cov : Covariates} {y : Nat → String → ℝ} (hil : i < ids.length) (hdesc : Describes m df ids pers i cov y) {j : ℕ} {r : URow} (hr : pm.updateInfo[j]? = some r) (hrm : IsMeasurement m r.period r.var)
    {o : StepOut ids.length pm.dimensions.nMixtures (nLat m)}
    (ho : (outs qr (labelFixed custom m pm val ids.length nT con obs) (labelCarry m val ids.length pm.dimensions.nMixtures) (loopArgs (nT + 1) (pm.updateInfo.map (labelRow m val)) (List.ofFn data)))[j]? = some o)
    (hlen : (covSteps custom m pm val nT (cov.only (fun s v => IsMeasurement m s v))).length = (pm.updateInfo.map (fun r => (r.period, r.var))).length)
    (hj : j < (covSteps custom m pm val nT (cov.only (fun s v => IsMeasurement m s v))).length) (e : Fin pm.dimensions.nMixtures) :
    o.residuals ⟨i, hil⟩ e = (if cov.isObserved r.period r.var then some (stepResiduals (covSteps custom m pm val nT (cov.only (fun s v => IsMeasurement m s v))) ((labelCarry m val 1 pm.dimensions.nMixtures).states 0 e)
        (((labelCarry m val 1 pm.dimensions.nMixtures).upperChols 0 e)ᵀ * (labelCarry m val 1 pm.dimensions.nMixtures).upperChols 0 e)
        (fun k => observedData (pm.updateInfo.map (fun r => (r.period, r.var))) (cov.only (fun s v => IsMeasurement m s v)) y (Fin.cast hlen k)) ⟨j, hj⟩) else none) ∧
    o.residualSds ⟨i, hil⟩ e = (if cov.isObserved r.period r.var then some (stepSds (covSteps custom m pm val nT (cov.only (fun s v => IsMeasurement m s v)))
        (((labelCarry m val 1 pm.dimensions.nMixtures).upperChols 0 e)ᵀ * (labelCarry m val 1 pm.dimensions.nMixtures).upperChols 0 e) ⟨j, hj⟩) else none) := by
  have hk : pm.dimensions.nMixtures = k := ((hasNMixtures_of_ok hpm k).mp hm.mixture).symm
  subst hk
  obtain ⟨hsame, hdat⟩ := individual_masked hm hg hpm hT custom nan val hi hu hids hpers hdata hcon hobs hmeas hil hdesc (fun s v => IsMeasurement m s v)
  have hsds := rows_sd hv hpm (L := nT + 1) (data := List.ofFn data) (by simp)
  have hw : ∀ i : Fin ids.length, ∑ e, Real.exp ((labelCarry m val ids.length pm.dimensions.nMixtures).logWeights i e) = 1 := fun i => by
    rw [Finset.sum_congr rfl (fun e _ => weights_label hv ids.length i e)]; exact hv.sum
  set fixed := labelFixed custom m pm val ids.length nT con obs with hfixed
  have hget := fun (j : ℕ) (a) (ha : (loopArgs (nT + 1) (pm.updateInfo.map (labelRow m val)) (List.ofFn data))[j]? = some a) => rows_get val (L := nT + 1) (data := List.ofFn data) (by simp) ha
  have hlenA : (loopArgs (nT + 1) (pm.updateInfo.map (labelRow m val)) (List.ofFn data)).length = pm.updateInfo.length := by rw [loopArgs_length _ _ (by simp), List.length_map]
  set args := loopArgs (nT + 1) (pm.updateInfo.map (labelRow m val)) (List.ofFn data) with hargsdef
  set cov' := (cov.only (fun s v => IsMeasurement m s v)) with hcov'
  set kept := List.zipWith LoopArgs.keep args (pm.updateInfo.map (fun r => @decide (IsMeasurement m r.period r.var) (Classical.dec _))) with hkept
  have hkl : kept.length = pm.updateInfo.length := by rw [hkept, List.length_zipWith, hlenA, List.length_map, Nat.min_self]
  have heq : args.map (fun a => a.keep a.isMeasurement) = kept := by
    refine List.ext_getElem (by rw [List.length_map, hkl, hlenA]) (fun a h1 h2 => ?_)
    have ha : a < pm.updateInfo.length := by rw [hkl] at h2; omega
    rw [List.getElem_map, List.getElem_zipWith]
    obtain ⟨r, hr, _, hr2⟩ := hget a args[a] (List.getElem?_eq_getElem (by omega))
    rw [List.getElem?_eq_getElem ha] at hr
    obtain rfl := Option.some.inj hr
    congr 1
    rw [hr2, List.getElem_map, decide_eq_decide, purpose_iff hpm hm.anchoring.1 (List.getElem_mem ha)]
  have hju : j < pm.updateInfo.length := (List.getElem?_eq_some_iff.mp hr).1
  obtain ⟨r', hr', _, hr2⟩ := hget j args[j] (List.getElem?_eq_getElem (by omega))
  obtain rfl := Option.some.inj (hr.symm.trans hr')
  have ham : args[j].isMeasurement = true := by
    rw [hr2, decide_eq_true_iff, purpose_iff hpm hm.anchoring.1 (List.mem_of_getElem? hr)]
    exact hrm
  obtain ⟨o', ho', hres, hsd⟩ := outs_keep_elements qr fixed (c' := labelCarry m val ids.length pm.dimensions.nMixtures) rfl rfl ho (List.getElem?_eq_getElem (by omega)) ham
  rw [← hres, ← hsd]
  rw [heq] at ho'
  have hkj : j < (kept.map (stepOf fixed ⟨i, hil⟩)).length := by rw [List.length_map]; omega
  have hkj' : j < kept.length := by omega
  have hR := residual_out (fixed := fixed) hqr (sigma_label hpm hkappa custom val ids.length nT con obs) (affine_label hm hpm hg custom val ids.length nT con obs) (hm.single.imp id (fun h => by simp [h])) ⟨i, hil⟩ (args := kept)
    (fun a ha => by
      rw [← heq] at ha
      obtain ⟨a', ha', rfl⟩ := List.mem_map.mp ha
      exact hsds a' ha')
    (fun a ha => by
      rw [← heq] at ha
      obtain ⟨a', _, rfl⟩ := List.mem_map.mp ha
      rfl) hw ho' (List.getElem?_eq_getElem hkj') hkj e
  have hobsj : (kept[j].measurements ⟨i, hil⟩).isSome = cov.isObserved r.period r.var := by
    have h1 := (List.forall₂_iff_get.mp hsame).2 j hkj hj
    have h2 : (kept[j].measurements ⟨i, hil⟩).isSome = ((kept.map (stepOf fixed ⟨i, hil⟩)).get ⟨j, hkj⟩).observed := by
      rw [List.get_eq_getElem, List.getElem_map]
      rfl
    rw [h2, h1.1]
    refine (covSteps_observed custom m pm val nT cov' hr hj).trans ?_
    show (@decide (IsMeasurement m r.period r.var) (Classical.dec _) && cov.isObserved r.period r.var) = _
    rw [@decide_eq_true _ (Classical.dec _) hrm, Bool.true_and]
  rw [hR.1, hR.2, hobsj]
  cases hob : cov.isObserved r.period r.var with
  | false => exact ⟨rfl, rfl⟩
  | true =>
    have hy : ∀ (a : ℕ) (h : a < (kept.map (stepOf fixed ⟨i, hil⟩)).length) (h' : a < (covSteps custom m pm val nT cov').length),
        dataOf fixed ⟨i, hil⟩ kept ⟨a, h⟩ = observedData (pm.updateInfo.map (fun r => (r.period, r.var))) cov' y (Fin.cast hlen ⟨a, h'⟩) := fun a h h' => hdat a h (hlen ▸ h')
    have := stepResiduals_congr hsame ((labelCarry m val 1 pm.dimensions.nMixtures).states 0 e)
      (((labelCarry m val 1 pm.dimensions.nMixtures).upperChols 0 e)ᵀ * (labelCarry m val 1 pm.dimensions.nMixtures).upperChols 0 e)
      (y' := fun k => observedData (pm.updateInfo.map (fun r => (r.period, r.var))) cov' y (Fin.cast hlen k)) hy hkj hj (by
        rw [List.getElem_map]
        exact hobsj.trans hob)
    exact ⟨congrArg some this.1, congrArg some this.2⟩

end

theorem processDebugData_residuals {u : List URow} {factors : List String} {nObs nMix n : ℕ} {r : LoglikeResult nObs nMix n} {d : DebugData} (h : processDebugData u factors nObs nMix n r = .ok d) :
    processResiduals (r.outs.map (fun o => o.residuals)) u = .ok d.residuals ∧ processResiduals (r.outs.map (fun o => o.residualSds)) u = .ok d.residualSds := by
  unfold processDebugData at h
  simp only [py_bind_ok, py_pure_ok] at h
  obtain ⟨_, _, rows, hrows, res, hres, sds, hsds, _, _, rfl⟩ := h
  exact ⟨hres, hsds⟩

/-- The law of the residuals of a mixture element, if everyone belongs to this mixture element. -/
theorem label_residuals {m : ModelDict ℝ} {pm : Processed ℝ} (hpm : processModel m = .ok pm) {k : ℕ} (hm : LinearModel m k) (hg : GoodNames m) {val : Loc → ℝ} (hv : ProperValues m k val) (custom : String → CustomFn)
    {nT : ℕ} (hT : pm.dimensions.nPeriods = nT + 2) (cov : Covariates) (e0 : Fin pm.dimensions.nMixtures)
    (hlen : (covSteps custom m pm val nT (cov.only (fun t v => IsMeasurement m t v))).length = (pm.updateInfo.map (fun r => (r.period, r.var))).length)
    {Ω : Type} [MeasurableSpace Ω] {P : Measure Ω} [IsProbabilityMeasure P] {E : Ω → Fin k} {Z : Noise → Ω → ℝ}
    {val' : Loc → ℝ} (hZ : RandomNoise P val' E Z) (hw : ∀ e < k, val' ⟨.mixtureWeights, 0, Spec.mixtureName e, "-"⟩ = if e = e0.val then 1 else 0) :
    let updates := pm.updateInfo.map (fun r => (r.period, r.var))
    let x0 := (labelCarry m val 1 pm.dimensions.nMixtures).states 0 e0
    let C0 := ((labelCarry m val 1 pm.dimensions.nMixtures).upperChols 0 e0)ᵀ * (labelCarry m val 1 pm.dimensions.nMixtures).upperChols 0 e0
    let steps := covSteps custom m pm val nT (cov.only (fun t v => IsMeasurement m t v))
    let present := fun j => IsMeasurement m (updates.get j).1 (updates.get j).2 ∧ cov.isObserved (updates.get j).1 (updates.get j).2 = true
    let data := fun ω => observedData updates (cov.only (fun t v => IsMeasurement m t v)) (measurementValue m val cov (E ω) (fun a => Z a ω))
    (∀ j, present j → P[fun ω => data ω j | MeasurableSpace.comap (fun ω (i : {i // i < j}) => data ω i) inferInstance] =ᵐ[P]
      fun ω => data ω j - stepResiduals steps x0 C0 (fun k => data ω (Fin.cast hlen k)) (Fin.cast hlen.symm j)) ∧
    (∀ j, present j → P.map (fun ω => stepResiduals steps x0 C0 (fun k => data ω (Fin.cast hlen k)) (Fin.cast hlen.symm j) / stepSds steps C0 (Fin.cast hlen.symm j)) = gaussianReal 0 1) ∧
    iIndepFun (fun (j : {j // present j}) ω => stepResiduals steps x0 C0 (fun k => data ω (Fin.cast hlen k)) (Fin.cast hlen.symm j) / stepSds steps C0 (Fin.cast hlen.symm j)) P := by
  intro updates x0 C0 steps present data
  have hk : pm.dimensions.nMixtures = k := ((hasNMixtures_of_ok hpm k).mp hm.mixture).symm
  subst hk
  have hC0 : C0.PosSemidef := posSemidef_conjTranspose_mul_self _
  have hdens : ∀ y, weightsDensity custom m pm val nT (cov.only (fun t v => IsMeasurement m t v)) (fun e => val' ⟨.mixtureWeights, 0, Spec.mixtureName e, "-"⟩) y = kalmanDensity steps x0 C0 y := by
    intro y
    unfold weightsDensity
    dsimp only
    rw [Finset.sum_eq_single e0 (fun e _ h => by rw [hw e e.isLt, if_neg (fun h' => h (Fin.ext h')), zero_mul]) (fun h => absurd (Finset.mem_univ _) h), hw e0 e0.isLt, if_pos rfl, one_mul]
  have hlaw : P.map data = (Measure.pi (fun k => if (cov.only (fun t v => IsMeasurement m t v)).isObserved (updates.get k).1 (updates.get k).2 then volume else Measure.dirac 0)).withDensity
      (fun y => ENNReal.ofReal (kalmanDensity steps x0 C0 (fun j => y (Fin.cast hlen j)))) := by
    have h := weights_law hm hg hv hpm hT custom (cov.only (fun t v => IsMeasurement m t v)) (updates := updates) rfl hlen hZ (fun e => by rw [hw e e.isLt]; split_ifs <;> norm_num)
    simp only [measurementValue_only, hdens] at h
    exact h
  have hD : Measurable data := by
    have := (measurable_observed m val (cov.only (fun t v => IsMeasurement m t v)) updates).comp (hZ.measurable_element.prodMk (measurable_pi_lambda _ hZ.measurable))
    have e : data = (fun d : Fin pm.dimensions.nMixtures × (Noise → ℝ) => observedData updates (cov.only (fun t v => IsMeasurement m t v)) (measurementValue m val (cov.only (fun t v => IsMeasurement m t v)) d.1 d.2)) ∘ fun ω => (E ω, fun j => Z j ω) := by
      funext ω
      simp only [data, Function.comp_apply, measurementValue_only]
    rw [e]
    exact this
  have hobs : ∀ k, (steps.get k).observed = (fun j => (cov.only (fun t v => IsMeasurement m t v)).isObserved (updates.get j).1 (updates.get j).2) (Fin.cast hlen k) := by
    intro k
    have hj : k.val < pm.updateInfo.length := by
      have := (Fin.cast hlen k).isLt
      simpa using this
    refine (covSteps_observed custom m pm val nT _ (List.getElem?_eq_getElem hj) k.isLt).trans ?_
    have : updates.get (Fin.cast hlen k) = (pm.updateInfo[k.val].period, pm.updateInfo[k.val].var) := by
      rw [List.get_eq_getElem]
      exact List.getElem_map _
    dsimp only
    rw [this]
  have h0 : ∀ ω k, (fun j => (cov.only (fun t v => IsMeasurement m t v)).isObserved (updates.get j).1 (updates.get j).2) k = false → data ω k = 0 := by
    intro ω k h
    show observedData _ _ _ k = 0
    unfold observedData
    exact if_neg (by rw [show (cov.only (fun t v => IsMeasurement m t v)).isObserved (updates.get k).1 (updates.get k).2 = false from h]; simp)
  have hint : ∀ k, Integrable (fun ω => data ω k) P := by
    intro k
    show Integrable (fun ω => observedData _ _ _ k) P
    unfold observedData
    split_ifs
    · exact (memLp_choice hZ.measurable_element (fun e => memLp_measurement hZ m val cov e _ _)).integrable (by norm_num)
    · exact integrable_const _
  have hp : ∀ j, present j → (fun j => (cov.only (fun t v => IsMeasurement m t v)).isObserved (updates.get j).1 (updates.get j).2) j = true := by
    rintro j ⟨h1, h2⟩
    show (@decide _ (Classical.dec _) && cov.isObserved _ _) = true
    rw [@decide_eq_true _ (Classical.dec _) h1, h2]
    rfl
  exact residuals_transport (covSteps_affine hm hg hpm custom _) (covSteps_sd hv hpm custom _) x0 hC0 hlen hD hobs hlaw h0 hint hp

/-- **C123**: consider a model with linear and constant transitions and one mixture element. There are functions `residual` and `sd` of the covariates of an individual (and of the measurements) such that

* the standard deviations are positive;
* the difference between a measurement and its residual is a prediction: it only depends on earlier measurements;
* in each random experiment with the noise of the model, this prediction is the conditional expectation of the measurement given the earlier measurements;
* in each such experiment, the residuals of the observed measurements, divided by their standard deviations, are independent and standard normal;
* the DataFrames residuals and residual_sds in the output of debug_loglike have one row for each update and individual. The row of a measurement contains `residual` and `sd` at the data of the individual;
  both are missing if the measurement is missing. -/
theorem C123_residuals {qr : QR} (hqr : ValidQR qr) {m : ModelDict ℝ} {pm : Processed ℝ} (hpm : processModel m = .ok pm) (hm : LinearModel m 1) (hg : GoodNames m)
    (hkappa : ∀ o x, m.estimationOptions = some o → o.sigmaPointsScale = some x → 0 ≤ x) {val : Loc → ℝ} (hv : ProperValues m 1 val) (custom : String → CustomFn) (nan : ℝ) :
    ∃ updates, Enumerates m updates ∧ (updates.map Prod.fst).Pairwise (· ≤ ·) ∧
      ∃ (residual : Covariates → (Fin updates.length → ℝ) → Fin updates.length → ℝ) (sd : Covariates → Fin updates.length → ℝ),
      (∀ cov j, 0 < sd cov j) ∧
      (∀ cov y y' j, (∀ i, i < j → y i = y' i) → y j - residual cov y j = y' j - residual cov y' j) ∧
      (∀ (cov : Covariates) {Ω : Type} [MeasurableSpace Ω] (P : Measure Ω) [IsProbabilityMeasure P] (E : Ω → Fin 1) (Z : Noise → Ω → ℝ), RandomNoise P val E Z →
          let present := fun j => IsMeasurement m (updates.get j).1 (updates.get j).2 ∧ cov.isObserved (updates.get j).1 (updates.get j).2 = true
          let data := fun ω => observedData updates (cov.only (fun t v => IsMeasurement m t v)) (measurementValue m val cov (E ω) (fun a => Z a ω))
          (∀ j, present j → P[fun ω => data ω j | MeasurableSpace.comap (fun ω (i : {i // i < j}) => data ω i) inferInstance] =ᵐ[P] fun ω => data ω j - residual cov (data ω) j) ∧
          (∀ j, present j → P.map (fun ω => residual cov (data ω) j / sd cov j) = gaussianReal 0 1) ∧
          iIndepFun (fun (j : {j // present j}) ω => residual cov (data ω) j / sd cov j) P) ∧
      ∀ (df : LongData ℝ) (ids pers : List Int) (params : List (Loc × ℝ)) (inputs : MaximizationInputs) (out : DebugData), IndexOk df → NoUnusedPeriods df → IdsOf df ids → PeriodsOf df pers →
        (params.map Prod.fst).Nodup → (∀ l x, (l, x) ∈ params → x = val l) → getMaximizationInputs m df = .ok inputs → inputs.debugLoglike qr custom nan m params = .ok out →
        out.residuals.length = updates.length * ids.length ∧ out.residualSds.length = updates.length * ids.length ∧
        ∀ (j : Fin updates.length) (i : Nat) (cov : Covariates) (y : Nat → String → ℝ), i < ids.length → Describes m df ids pers i cov y → IsMeasurement m (updates.get j).1 (updates.get j).2 →
          let data := observedData updates (cov.only (fun t v => IsMeasurement m t v)) y
          let observed := cov.isObserved (updates.get j).1 (updates.get j).2
          out.residuals[j * ids.length + i]? = some ⟨if observed then some (residual cov data j) else none, 0, (updates.get j).1, i, (updates.get j).2⟩ ∧
          out.residualSds[j * ids.length + i]? = some ⟨if observed then some (sd cov j) else none, 0, (updates.get j).1, i, (updates.get j).2⟩ := by
  classical
  obtain ⟨nT, hT⟩ : ∃ nT, pm.dimensions.nPeriods = nT + 2 := ⟨pm.dimensions.nPeriods - 2, by have := (isPeriod_iff hpm 1).mp hm.periods; omega⟩
  obtain ⟨hu1, hu2, hsorted, _⟩ := C01_update_info_exact hpm
  have hk : pm.dimensions.nMixtures = 1 := ((hasNMixtures_of_ok hpm 1).mp hm.mixture).symm
  let e0 : Fin pm.dimensions.nMixtures := ⟨0, by omega⟩
  let x0 := (labelCarry m val 1 pm.dimensions.nMixtures).states 0 e0
  let C0 := ((labelCarry m val 1 pm.dimensions.nMixtures).upperChols 0 e0)ᵀ * (labelCarry m val 1 pm.dimensions.nMixtures).upperChols 0 e0
  have hC0 : C0.PosSemidef := posSemidef_conjTranspose_mul_self _
  have hlen : ∀ cov, (covSteps custom m pm val nT cov).length = (pm.updateInfo.map (fun r => (r.period, r.var))).length := fun cov => by rw [covSteps_length, List.length_map]
  have hget : ∀ j : Fin (pm.updateInfo.map (fun r => (r.period, r.var))).length, ∃ r, pm.updateInfo[j.val]? = some r ∧ (pm.updateInfo.map (fun r => (r.period, r.var))).get j = (r.period, r.var) := fun j => by
    have hj : j.val < pm.updateInfo.length := by simpa using j.isLt
    exact ⟨_, List.getElem?_eq_getElem hj, by rw [List.get_eq_getElem, List.getElem_map]⟩
  let steps : Covariates → List (Step (nLat m)) := fun cov => covSteps custom m pm val nT (cov.only (fun t v => IsMeasurement m t v))
  have hsd : ∀ cov, ∀ s ∈ steps cov, s.sd ≠ 0 := fun cov => covSteps_sd hv hpm custom _
  refine ⟨pm.updateInfo.map (fun r => (r.period, r.var)), ⟨hu1, fun t v => by rw [← hu2]; simp [List.mem_map]⟩, ?_,
    fun cov y j => stepResiduals (steps cov) x0 C0 (fun k => y (Fin.cast (hlen _) k)) (Fin.cast (hlen _).symm j), fun cov j => stepSds (steps cov) C0 (Fin.cast (hlen _).symm j), ?_, ?_, ?_, ?_⟩
  · rw [List.map_map]
    exact List.pairwise_map.mpr hsorted
  · exact fun cov j => stepSds_pos (hsd cov) hC0 _
  · intro cov y y' j h
    exact stepResiduals_sequential x0 C0 (fun k => y (Fin.cast (hlen _) k)) (fun k => y' (Fin.cast (hlen _) k)) (Fin.cast (hlen _).symm j) (fun i hi => h _ hi)
  · intro cov Ω _ P _ E Z hZ present data
    refine label_residuals hpm hm hg hv custom hT cov e0 (hlen _) hZ (fun e he => ?_)
    obtain rfl : e = 0 := by omega
    have h := hv.sum
    rw [Fin.sum_univ_one] at h
    rw [if_pos rfl]
    exact h
  · intro df ids pers params inputs out hi hu hids hpers hn hval hin hdebug
    have hin' := hin
    unfold getMaximizationInputs at hin'
    simp only [py_bind_ok, py_pure_ok] at hin'
    obtain ⟨pm', hpm', info, hinfo, dat, hdat, cs, hcs, hinp⟩ := hin'
    obtain rfl := Except.ok.inj (hpm.symm.trans hpm')
    have hObs := length_controls hpm hm hg hi hu hids hpers hin
    obtain ⟨pm', nT', con, obs, data, r, hpm', hT', hdata, hcon, hobs, hmeas, hr, hpost⟩ := evaluate_explicit hg hm.anchoring.1 hm.anchoring.2.1 hin hn hval hdebug hObs
    obtain rfl := Except.ok.inj (hpm.symm.trans hpm')
    obtain rfl : nT = nT' := by omega
    rw [← hinp] at hpost
    dsimp only at hpost
    obtain ⟨hres, hsds⟩ := processDebugData_residuals hpost
    obtain ⟨ho, _⟩ := logLikelihood_ok hr
    have hlenargs : r.outs.length = pm.updateInfo.length := by rw [ho, outs_length, loopArgs_length _ _ (by simp), List.length_map]
    have hne : pm.updateInfo ≠ [] := by
      obtain ⟨v, f, h⟩ := hm.measured 1 hm.periods
      obtain ⟨r, hr, _⟩ := (hu2 1 v).mpr (Or.inl ⟨f, h⟩)
      exact List.ne_nil_of_mem hr
    obtain ⟨_, res', sds', _, _, hres', hsds', _, _, hl1, hl2, _, hcell⟩ := C52_ids_partial hk hlenargs hne
    obtain rfl := Except.ok.inj (hres.symm.trans hres')
    obtain rfl := Except.ok.inj (hsds.symm.trans hsds')
    refine ⟨by rw [hl1, List.length_map], by rw [hl2, List.length_map], fun j i cov y hil hdesc hjm => ?_⟩
    obtain ⟨row, hrow, hgetj⟩ := hget j
    have hjlt : j.val < r.outs.length := by rw [hlenargs]; exact (List.getElem?_eq_some_iff.mp hrow).1
    have hoj := List.getElem?_eq_getElem hjlt
    obtain ⟨_, c1, c2, _⟩ := hcell j.val row _ ⟨i, hil⟩ e0 hrow hoj
    dsimp only
    rw [hgetj] at hjm ⊢
    obtain ⟨d1, d2⟩ := residual_label hqr hpm hm hg hkappa hv custom nan hT hi hu hids hpers hdata hcon hobs hmeas hil hdesc hrow hjm (by rw [← ho]; exact hoj) (hlen _) (by rw [hlen]; exact j.isLt) e0
    rw [d1] at c1
    rw [d2] at c2
    exact ⟨c1, c2⟩

end Skill
