import Verif.Props.RoundTrip
import Verif.Props.PipelineExamples
import Verif.Lemmas.LikelihoodRatio
import Verif.Lemmas.DataMoments

/-! The likelihood function at the true parameters and at other parameters (C99). -/

namespace Skill
open Matrix MeasureTheory ProbabilityTheory Spec

section
variable {qr : QR} {custom : String → CustomFn} {nan : ℝ} {m : ModelDict ℝ} {k : ℕ} {updates : List (Nat × String)}

theorem DensityFor.total {val : Loc → ℝ} {density : Covariates → (Fin updates.length → ℝ) → ℝ} (hd : DensityFor qr custom nan m k updates val density) (hv : ProperValues m k val) (cov : Covariates) :
    ∫⁻ y, ENNReal.ofReal (density cov y) ∂(referenceMeasure updates cov) = 1 := by
  obtain ⟨Ω, _, P, E, Z, _, hZ⟩ := exists_randomNoise (k := k) (fun e he => (hv.positive e he).le) hv.sum
  have h := hd.law cov P E Z hZ
  have hm : Measurable (fun ω => observedData updates cov (measurementValue m val cov (E ω) (fun j => Z j ω))) :=
    (measurable_observed m val cov updates).comp (hZ.measurable_element.prodMk (measurable_pi_iff.mpr hZ.measurable))
  have hp : IsProbabilityMeasure (P.map (fun ω => observedData updates cov (measurementValue m val cov (E ω) (fun j => Z j ω)))) := Measure.isProbabilityMeasure_map hm.aemeasurable
  rw [h] at hp
  have := hp.measure_univ
  rwa [withDensity_apply _ MeasurableSet.univ, Measure.restrict_univ] at this

theorem DensityFor.integrable {val val0 : Loc → ℝ} {density density0 : Covariates → (Fin updates.length → ℝ) → ℝ} (hd : DensityFor qr custom nan m k updates val density)
    (hd0 : DensityFor qr custom nan m k updates val0 density0) (hv0 : ProperValues m k val0) (cov : Covariates) :
    Integrable (fun y => Real.log (density cov y)) ((referenceMeasure updates cov).withDensity (fun y => ENNReal.ofReal (density0 cov y))) := by
  obtain ⟨Ω, _, P, E, Z, _, hZ⟩ := exists_randomNoise (k := k) (fun e he => (hv0.positive e he).le) hv0.sum
  have hm : Measurable (fun ω => observedData updates cov (measurementValue m val0 cov (E ω) (fun j => Z j ω))) :=
    (measurable_observed m val0 cov updates).comp (hZ.measurable_element.prodMk (measurable_pi_iff.mpr hZ.measurable))
  rw [← hd0.law cov P E Z hZ, integrable_map_measure (g := fun y => Real.log (density cov y)) (Real.measurable_log.comp (hd.continuous cov).measurable).aestronglyMeasurable hm.aemeasurable]
  obtain ⟨C, D, hC, hb⟩ := hd.bounds cov
  exact integrable_log hm (fun j => memLp_observed hZ m val0 cov updates j) (hd.continuous cov).measurable hC (fun y => (hb y).1) (fun y => (hb y).2)

theorem sum_range_getD (l : List ℝ) : l.sum = ∑ i ∈ Finset.range l.length, l.getD i 0 := by
  induction l with
  | nil => rfl
  | cons a l ih =>
    rw [List.length_cons, Finset.sum_range_succ', List.sum_cons, ih, add_comm]
    rfl

end

/-- **C99.** Consider a model dictionary without anchoring, with linear or constant transition functions and measurements in every period, without clipping of the likelihood contributions. Let the measurements in the dataset be
generated by the statistical model of the user with the parameter values `val0` (independently for the individuals, with any pattern of missing values, controls and observed factors). Then the values that `loglike` returns at
parameters with values `val0` and at parameters with other values `val` are related as in `TruthIsBest`. -/
theorem C99_true_parameters_best {qr : QR} (hqr : ValidQR qr) {m : ModelDict ℝ} {pm : Processed ℝ} (hpm : processModel m = .ok pm) {k : ℕ} (hm : LinearModel m k) (hna : m.anchoring = none) (hg : GoodNames m)
    (hkappa : ∀ o x, m.estimationOptions = some o → o.sigmaPointsScale = some x → 0 ≤ x) (hclip : NoClipping m) {val0 val : Loc → ℝ} (hv0 : ProperValues m k val0) (hv : ProperValues m k val) (custom : String → CustomFn) (nan : ℝ)
    {Ω : Type} [MeasurableSpace Ω] (P : Measure Ω) [IsProbabilityMeasure P] (E : Nat → Ω → Fin k) (Z : Nat → Noise → Ω → ℝ) (hZ : ∀ i, RandomNoise P val0 (E i) (Z i))
    (hind : iIndepFun (fun i ω => (E i ω, fun j => Z i j ω)) P)
    (df : Ω → LongData ℝ) (ids pers : List Int) (cov : Nat → Covariates) (hdf : ∀ ω, IndexOk (df ω) ∧ NoUnusedPeriods (df ω) ∧ IdsOf (df ω) ids ∧ PeriodsOf (df ω) pers)
    (hdesc : ∀ ω, ∀ i < ids.length, Describes m (df ω) ids pers i (cov i) (measurementValue m val0 (cov i) (E i ω) (fun j => Z i j ω)))
    (params0 params : List (Loc × ℝ)) (hn0 : (params0.map Prod.fst).Nodup) (hval0 : ∀ l x, (l, x) ∈ params0 → x = val0 l) (hn : (params.map Prod.fst).Nodup) (hval : ∀ l x, (l, x) ∈ params → x = val l)
    (inputs : Ω → MaximizationInputs) (out0 out : Ω → LoglikeOutput)
    (hout : ∀ᵐ ω ∂P, getMaximizationInputs m (df ω) = .ok (inputs ω) ∧ (inputs ω).loglike qr custom nan m params0 = .ok (out0 ω) ∧ (inputs ω).loglike qr custom nan m params = .ok (out ω)) :
    TruthIsBest P (fun ω => (out ω).value) (fun ω => (out0 ω).value) := by
  obtain ⟨updates, hup, density, hdens⟩ := density_of_values hqr hpm hm hna hg hkappa custom nan
  have hd0 := hdens val0 hv0
  have hd := hdens val hv
  have hobs : ∀ i, Measurable (fun d : Fin k × (Noise → ℝ) => observedData updates (cov i) (measurementValue m val0 (cov i) d.1 d.2)) := fun i => measurable_observed m val0 (cov i) updates
  refine truthIsBest_of_density (n := ids.length) (F := fun _ => Fin updates.length → ℝ) (μ := fun i => referenceMeasure updates (cov i)) (Y := fun i ω => observedData updates (cov i) (measurementValue m val0 (cov i) (E i ω) (fun j => Z i j ω)))
    (p := fun i => density val (cov i)) (p0 := fun i => density val0 (cov i)) (fun i => (hobs i).comp ((hZ i).measurable_element.prodMk (measurable_pi_iff.mpr (hZ i).measurable)))
    (hind.comp (fun i d => observedData updates (cov i) (measurementValue m val0 (cov i) d.1 d.2)) hobs) (fun i => (hd.continuous _).measurable) (fun i => (hd0.continuous _).measurable) (fun i => hd.pos _) (fun i => hd0.pos _)
    (fun i _ => hd0.law (cov i) P (E i) (Z i) (hZ i)) (fun i => hd.total hv _) (fun i => hd.integrable hd0 hv0 _) (fun i => hd0.integrable hd0 hv0 _) ?_ ?_
  · filter_upwards [hout] with ω h
    obtain ⟨hin, _, h⟩ := h
    obtain ⟨h1, h2, h3, h4⟩ := hdf ω
    obtain ⟨hl, hvalue⟩ := hd.value _ ids pers _ params _ h1 h2 h3 h4 hn hval hin h
    rw [hvalue, sum_range_getD, hl]
    exact Finset.sum_congr rfl (fun i hi => (hd.loglike _ ids pers _ params _ h1 h2 h3 h4 hn hval hin h i (cov i) _ (Finset.mem_range.mp hi) (hdesc ω i (Finset.mem_range.mp hi))).2 hclip)
  · filter_upwards [hout] with ω h
    obtain ⟨hin, h, _⟩ := h
    obtain ⟨h1, h2, h3, h4⟩ := hdf ω
    obtain ⟨hl, hvalue⟩ := hd0.value _ ids pers _ params0 _ h1 h2 h3 h4 hn0 hval0 hin h
    rw [hvalue, sum_range_getD, hl]
    exact Finset.sum_congr rfl (fun i hi => (hd0.loglike _ ids pers _ params0 _ h1 h2 h3 h4 hn0 hval0 hin h i (cov i) _ (Finset.mem_range.mp hi) (hdesc ω i (Finset.mem_range.mp hi))).2 hclip)

/-- **C99**, for simulated data: simulate at least two individuals with simulate_dataset, at the parameters `params0`, and use the simulated measurements for the likelihood function. Then the values of the likelihood function at `params0`
and at other parameters `params` are related as in `TruthIsBest` (they exist almost surely). -/
theorem C99_simulated_data {qr : QR} (hqr : ValidQR qr) {root : NormalRoot} (hroot : ValidRoot root) {m : ModelDict ℝ} {pm : Processed ℝ} (hpm : processModel m = .ok pm) {k : ℕ} (hm : LinearModel m k)
    (hsm : SimulationModel m k) (hna : m.anchoring = none) (hcon : m.controls.getD [] = []) (hobs : m.observedFactors.getD [] = []) (hno : ∀ t v, IsUpdate m t v → v ≠ "constant")
    (hkappa : ∀ o x, m.estimationOptions = some o → o.sigmaPointsScale = some x → 0 ≤ x) (hclip : NoClipping m) {val0 val : Loc → ℝ} (hv0 : ProperValues m k val0) (hv : ProperValues m k val) (custom : String → CustomFn) (nan : ℝ)
    (params0 params : List (Loc × ℝ)) (hn0 : (params0.map Prod.fst).Nodup) (hlab0 : ∀ l, l ∈ params0.map Prod.fst ↔ IsParam m l) (hval0 : ∀ l x, (l, x) ∈ params0 → x = val0 l)
    (hn : (params.map Prod.fst).Nodup) (hlab : ∀ l, l ∈ params.map Prod.fst ↔ IsParam m l) (hval : ∀ l x, (l, x) ∈ params → x = val l) (n : Nat) (h2n : 2 ≤ n)
    {Ω : Type} [MeasurableSpace Ω] (P : Measure Ω) [IsProbabilityMeasure P] (E : Nat → Ω → Fin k) (Z : Nat → Draw → Ω → ℝ) (hZ : RandomDatasetDraws P val0 E Z) :
    ∃ value0 value : Ω → ℝ, TruthIsBest P value value0 ∧
      ∀ᵐ ω ∂P, ∃ data inputs out0 out, simulateDataset root custom nan m params0 (some n) none [] (drawsWith (fun i => E i ω) (fun i j => Z i j ω)) = .ok data ∧
        getMaximizationInputs m (asDataset data.measurements) = .ok inputs ∧ inputs.loglike qr custom nan m params0 = .ok out0 ∧ inputs.loglike qr custom nan m params = .ok out ∧
        value0 ω = out0.value ∧ value ω = out.value := by
  obtain ⟨updates, hup, density, hdens⟩ := density_of_values hqr hpm hm hna hsm.names hkappa custom nan
  have hd0 := hdens val0 hv0
  have hd := hdens val hv
  have hparams0 : HasParams m params0 val0 := ⟨hn0, fun l hl => by
    obtain ⟨⟨l', x⟩, hx, rfl⟩ := List.mem_map.mp ((hlab0 l).mpr hl)
    rw [← hval0 l' x hx]
    exact hx⟩
  obtain ⟨out, X, h1, h2, h3, h4, h5⟩ := simulated_estimation hroot hpm hm hsm hna hcon hobs hno custom nan hup hdens hv0 params0 n hparams0 h2n P E Z hZ
  have hcell : Measurable (fun (x : Cell m → ℝ) (j : Fin updates.length) => x (measurementCell hup j)) := measurable_pi_iff.mpr (fun j => measurable_pi_apply _)
  refine ⟨fun ω => ∑ i ∈ Finset.range n, Real.log (density val0 noCovariates (fun j => X i ω (measurementCell hup j))),
    fun ω => ∑ i ∈ Finset.range n, Real.log (density val noCovariates (fun j => X i ω (measurementCell hup j))), ?_, ?_⟩
  · exact truthIsBest_of_density (n := n) (F := fun _ => Fin updates.length → ℝ) (μ := fun i => referenceMeasure updates noCovariates) (Y := fun i ω j => X i ω (measurementCell hup j))
      (p := fun i => density val noCovariates) (p0 := fun i => density val0 noCovariates) (fun i => hcell.comp (h2 i)) (h3.comp (fun i x j => x (measurementCell hup j)) (fun _ => hcell))
      (fun i => (hd.continuous _).measurable) (fun i => (hd0.continuous _).measurable) (fun i => hd.pos _) (fun i => hd0.pos _)
      (fun i hi => h4 i hi) (fun i => hd.total hv _) (fun i => hd.integrable hd0 hv0 _) (fun i => hd0.integrable hd0 hv0 _) (Filter.Eventually.of_forall (fun _ => rfl)) (Filter.Eventually.of_forall (fun _ => rfl))
  · filter_upwards [h5] with ω h
    obtain ⟨inputs, hin, h⟩ := h
    obtain ⟨r0, a1, a2, a3, a4⟩ := h params0 val0 hn0 hlab0 hval0
    obtain ⟨r, b1, b2, b3, b4⟩ := h params val hn hlab hval
    refine ⟨out ω, inputs, r0, r, (h1 ω).1, hin, a1, b1, ?_, ?_⟩
    · rw [a3, sum_range_getD, a2]
      exact Finset.sum_congr rfl (fun i hi => ((a4 hv0 i (Finset.mem_range.mp hi)).2 hclip).symm)
    · rw [b3, sum_range_getD, b2]
      exact Finset.sum_congr rfl (fun i hi => ((b4 hv i (Finset.mem_range.mp hi)).2 hclip).symm)

end Skill
