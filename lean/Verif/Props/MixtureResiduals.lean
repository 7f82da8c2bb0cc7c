import Verif.Props.Residuals
/-
C128: the residuals of each mixture element.
-/
namespace Skill
open Matrix MeasureTheory ProbabilityTheory Spec

/-- **C128**: consider a model with linear and constant transitions (with any number of mixture elements, with or without anchoring). There are functions `residual` and `sd` of the covariates of an individual and a mixture element
(and of the measurements) such that

* the standard deviations are positive;
* the difference between a measurement and its residual is a prediction: it only depends on earlier measurements;
* in each random experiment with the noise of the model, among those individuals that belong to mixture element e, this prediction is the conditional expectation of the measurement given the earlier measurements;
* in each such experiment, and among the same individuals, the residuals of the observed measurements, divided by their standard deviations, are independent and standard normal;
* the DataFrames residuals and residual_sds in the output of debug_loglike have one row for each update, individual and mixture element. The row of a measurement contains `residual` and `sd` at the data of the individual;
  both are missing if the measurement is missing. (The column id counts pairs of an individual and a mixture element, see C52.) -/
theorem C128_mixture_residuals {qr : QR} (hqr : ValidQR qr) {m : ModelDict ℝ} {pm : Processed ℝ} (hpm : processModel m = .ok pm) {k : ℕ} (hm : LinearModel m k) (hg : GoodNames m)
    (hkappa : ∀ o x, m.estimationOptions = some o → o.sigmaPointsScale = some x → 0 ≤ x) {val : Loc → ℝ} (hv : ProperValues m k val) (custom : String → CustomFn) (nan : ℝ) :
    ∃ updates, Enumerates m updates ∧ (updates.map Prod.fst).Pairwise (· ≤ ·) ∧
      ∃ (residual : Covariates → Fin k → (Fin updates.length → ℝ) → Fin updates.length → ℝ) (sd : Covariates → Fin k → Fin updates.length → ℝ),
      (∀ cov e j, 0 < sd cov e j) ∧
      (∀ cov e y y' j, (∀ i, i < j → y i = y' i) → y j - residual cov e y j = y' j - residual cov e y' j) ∧
      (∀ (cov : Covariates) (e : Fin k) {Ω : Type} [MeasurableSpace Ω] (P : Measure Ω) [IsProbabilityMeasure P] (E : Ω → Fin k) (Z : Noise → Ω → ℝ), RandomNoise P val E Z →
          let present := fun j => IsMeasurement m (updates.get j).1 (updates.get j).2 ∧ cov.isObserved (updates.get j).1 (updates.get j).2 = true
          let data := fun ω => observedData updates (cov.only (fun t v => IsMeasurement m t v)) (measurementValue m val cov (E ω) (fun a => Z a ω))
          let members := cond P {ω | E ω = e}
          (∀ j, present j → members[fun ω => data ω j | MeasurableSpace.comap (fun ω (i : {i // i < j}) => data ω i) inferInstance] =ᵐ[members] fun ω => data ω j - residual cov e (data ω) j) ∧
          (∀ j, present j → members.map (fun ω => residual cov e (data ω) j / sd cov e j) = gaussianReal 0 1) ∧
          iIndepFun (fun (j : {j // present j}) ω => residual cov e (data ω) j / sd cov e j) members) ∧
      ∀ (df : LongData ℝ) (ids pers : List Int) (params : List (Loc × ℝ)) (inputs : MaximizationInputs) (out : DebugData), IndexOk df → NoUnusedPeriods df → IdsOf df ids → PeriodsOf df pers →
        (params.map Prod.fst).Nodup → (∀ l x, (l, x) ∈ params → x = val l) → getMaximizationInputs m df = .ok inputs → inputs.debugLoglike qr custom nan m params = .ok out →
        out.residuals.length = updates.length * (ids.length * k) ∧ out.residualSds.length = updates.length * (ids.length * k) ∧
        ∀ (j : Fin updates.length) (i : Nat) (e : Fin k) (cov : Covariates) (y : Nat → String → ℝ), i < ids.length → Describes m df ids pers i cov y → IsMeasurement m (updates.get j).1 (updates.get j).2 →
          let data := observedData updates (cov.only (fun t v => IsMeasurement m t v)) y
          let observed := cov.isObserved (updates.get j).1 (updates.get j).2
          out.residuals[j * (ids.length * k) + (i * k + e)]? = some ⟨if observed then some (residual cov e data j) else none, e, (updates.get j).1, i * k + e, (updates.get j).2⟩ ∧
          out.residualSds[j * (ids.length * k) + (i * k + e)]? = some ⟨if observed then some (sd cov e j) else none, e, (updates.get j).1, i * k + e, (updates.get j).2⟩ := by
  classical
  obtain ⟨nT, hT⟩ : ∃ nT, pm.dimensions.nPeriods = nT + 2 := ⟨pm.dimensions.nPeriods - 2, by have := (isPeriod_iff hpm 1).mp hm.periods; omega⟩
  obtain ⟨hu1, hu2, hsorted, _⟩ := C01_update_info_exact hpm
  have hk : pm.dimensions.nMixtures = k := ((hasNMixtures_of_ok hpm k).mp hm.mixture).symm
  subst hk
  let x0 : Fin pm.dimensions.nMixtures → Fin (nLat m) → ℝ := fun e => (labelCarry m val 1 pm.dimensions.nMixtures).states 0 e
  let C0 : Fin pm.dimensions.nMixtures → Matrix (Fin (nLat m)) (Fin (nLat m)) ℝ := fun e => ((labelCarry m val 1 pm.dimensions.nMixtures).upperChols 0 e)ᵀ * (labelCarry m val 1 pm.dimensions.nMixtures).upperChols 0 e
  have hC0 : ∀ e, (C0 e).PosSemidef := fun e => posSemidef_conjTranspose_mul_self _
  have hlen : ∀ cov, (covSteps custom m pm val nT cov).length = (pm.updateInfo.map (fun r => (r.period, r.var))).length := fun cov => by rw [covSteps_length, List.length_map]
  have hget : ∀ j : Fin (pm.updateInfo.map (fun r => (r.period, r.var))).length, ∃ r, pm.updateInfo[j.val]? = some r ∧ (pm.updateInfo.map (fun r => (r.period, r.var))).get j = (r.period, r.var) := fun j => by
    have hj : j.val < pm.updateInfo.length := by simpa using j.isLt
    exact ⟨_, List.getElem?_eq_getElem hj, by rw [List.get_eq_getElem, List.getElem_map]⟩
  let steps : Covariates → List (Step (nLat m)) := fun cov => covSteps custom m pm val nT (cov.only (fun t v => IsMeasurement m t v))
  have hsd : ∀ cov, ∀ s ∈ steps cov, s.sd ≠ 0 := fun cov => covSteps_sd hv hpm custom _
  refine ⟨pm.updateInfo.map (fun r => (r.period, r.var)), ⟨hu1, fun t v => by rw [← hu2]; simp [List.mem_map]⟩, ?_,
    fun cov e y j => stepResiduals (steps cov) (x0 e) (C0 e) (fun k => y (Fin.cast (hlen _) k)) (Fin.cast (hlen _).symm j), fun cov e j => stepSds (steps cov) (C0 e) (Fin.cast (hlen _).symm j), ?_, ?_, ?_, ?_⟩
  · rw [List.map_map]
    exact List.pairwise_map.mpr hsorted
  · exact fun cov e j => stepSds_pos (hsd cov) (hC0 e) _
  · intro cov e y y' j h
    exact stepResiduals_sequential (x0 e) (C0 e) (fun k => y (Fin.cast (hlen _) k)) (fun k => y' (Fin.cast (hlen _) k)) (Fin.cast (hlen _).symm j) (fun i hi => h _ hi)
  · intro cov e Ω _ P _ E Z hZ present data members
    obtain ⟨hprob, hZe⟩ := randomNoise_element hZ (hv.positive e e.isLt)
    exact @label_residuals _ _ hpm _ hm hg _ hv custom _ hT cov e (hlen _) _ _ (cond P (E ⁻¹' {e})) hprob _ _ _ hZe (fun e' _ => elementVal_weights e e')
  · intro df ids pers params inputs out hi hu hids hpers hn hval hin hdebug
    have hin' := hin
    unfold getMaximizationInputs at hin'
    simp only [py_bind_ok, py_pure_ok] at hin'
    obtain ⟨pm', hpm', info, hinfo, dat, hdat, cs, hcs, hinp⟩ := hin'
    obtain rfl := Except.ok.inj (hpm.symm.trans hpm')
    have hObs := length_controls hpm hm hg hi hu hids hpers hin
    obtain ⟨pm', nT', con, obs, data, r, hpm', hT', hdata, hcon, hobs, hmeas, hr, hpost⟩ := evaluate_explicit hg hm.anchoring.1 hm.anchoring.2.1 hin hn hval hdebug hObs
    obtain rfl := Except.ok.inj (hpm.symm.trans hpm')
    obtain rfl : nT = nT' := by omega
    rw [← hinp] at hpost
    dsimp only at hpost
    obtain ⟨hres, hsds⟩ := processDebugData_residuals hpost
    obtain ⟨ho, _⟩ := logLikelihood_ok hr
    have hlenargs : r.outs.length = pm.updateInfo.length := by rw [ho, outs_length, loopArgs_length _ _ (by simp), List.length_map]
    unfold processResiduals at hres hsds
    dsimp only at hres hsds
    split_ifs at hres hsds
    obtain ⟨l1, c1⟩ := debugRows (by rw [List.length_map, hlenargs]) (Except.ok.inj hres).symm
    obtain ⟨l2, c2⟩ := debugRows (by rw [List.length_map, hlenargs]) (Except.ok.inj hsds).symm
    refine ⟨by rw [l1, List.length_map], by rw [l2, List.length_map], fun j i e cov y hil hdesc hjm => ?_⟩
    obtain ⟨row, hrow, hgetj⟩ := hget j
    have hjlt : j.val < r.outs.length := by rw [hlenargs]; exact (List.getElem?_eq_some_iff.mp hrow).1
    have hoj := List.getElem?_eq_getElem hjlt
    have d1 : _ = some (DebugRow.mk ((r.outs[j.val]'hjlt).residuals ⟨i, hil⟩ e) _ _ _ _) := c1 j.val row _ ⟨i, hil⟩ e hrow (by rw [List.getElem?_map, hoj]; rfl)
    have d2 : _ = some (DebugRow.mk ((r.outs[j.val]'hjlt).residualSds ⟨i, hil⟩ e) _ _ _ _) := c2 j.val row _ ⟨i, hil⟩ e hrow (by rw [List.getElem?_map, hoj]; rfl)
    dsimp only
    rw [hgetj] at hjm ⊢
    obtain ⟨e1, e2⟩ := residual_label hqr hpm hm hg hkappa hv custom nan hT hi hu hids hpers hdata hcon hobs hmeas hil hdesc hrow hjm (by rw [← ho]; exact hoj) (hlen _) (by rw [hlen]; exact j.isLt) e
    rw [e1] at d1
    rw [e2] at d2
    exact ⟨d1, d2⟩

end Skill
