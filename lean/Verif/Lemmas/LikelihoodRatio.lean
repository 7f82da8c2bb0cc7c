import Verif.Spec.LikelihoodRatio
import Mathlib.Probability.Independence.Integration
import Mathlib.Probability.Independence.Basic
import Mathlib.MeasureTheory.Measure.WithDensity
import Mathlib.Analysis.SpecialFunctions.Exp
import Mathlib.MeasureTheory.Constructions.BorelSpace.Real

/-! Likelihood ratios of independent observations. -/

namespace Skill
open MeasureTheory ProbabilityTheory Spec
open scoped ENNReal

variable {Ω : Type} [MeasurableSpace Ω] {P : Measure Ω} [IsProbabilityMeasure P]

/-- All statements of `TruthIsBest` follow from the one about the mean of the likelihood ratio. -/
theorem truthIsBest_of_ratio {value value0 : Ω → ℝ} (hi : Integrable value P) (hi0 : Integrable value0 P) (h1 : ∫⁻ ω, ENNReal.ofReal (Real.exp (value ω - value0 ω)) ∂P = 1) :
    TruthIsBest P value value0 := by
  have hD : Integrable (fun ω => value ω - value0 ω) P := hi.sub hi0
  have hem : AEStronglyMeasurable (fun ω => Real.exp (value ω - value0 ω)) P := (Real.measurable_exp.comp_aemeasurable hD.aemeasurable).aestronglyMeasurable
  have he : Integrable (fun ω => Real.exp (value ω - value0 ω)) P :=
    (lintegral_ofReal_ne_top_iff_integrable hem (Filter.Eventually.of_forall (fun ω => (Real.exp_pos _).le))).mp (by rw [h1]; exact ENNReal.one_ne_top)
  have he1 : ∫ ω, Real.exp (value ω - value0 ω) ∂P = 1 := by
    rw [integral_eq_lintegral_of_nonneg_ae (Filter.Eventually.of_forall (fun ω => (Real.exp_pos _).le)) hem, h1, ENNReal.toReal_one]
  have hg : Integrable (fun ω => Real.exp (value ω - value0 ω) - 1 - (value ω - value0 ω)) P := (he.sub (integrable_const 1)).sub hD
  have hg1 : ∫ ω, (Real.exp (value ω - value0 ω) - 1 - (value ω - value0 ω)) ∂P = ∫ ω, value0 ω ∂P - ∫ ω, value ω ∂P := by
    rw [integral_sub (f := fun ω => Real.exp (value ω - value0 ω) - 1) (he.sub (integrable_const 1)) hD, integral_sub he (integrable_const 1), he1, integral_sub hi hi0, integral_const, probReal_univ, one_smul]
    ring
  have hnn : ∀ ω, 0 ≤ Real.exp (value ω - value0 ω) - 1 - (value ω - value0 ω) := fun ω => by have := Real.add_one_le_exp (value ω - value0 ω); linarith
  refine ⟨h1, fun c => ?_, ⟨hi, hi0⟩, ?_, fun hs => ?_⟩
  · have h2 := mul_meas_ge_le_lintegral₀ (ENNReal.measurable_ofReal.comp_aemeasurable hem.aemeasurable) (ENNReal.ofReal (Real.exp c)) (μ := P)
    simp only [Function.comp] at h2
    rw [h1] at h2
    have h3 : P {ω | value0 ω + c ≤ value ω} ≤ P {ω | ENNReal.ofReal (Real.exp c) ≤ ENNReal.ofReal (Real.exp (value ω - value0 ω))} := by
      refine measure_mono (fun ω hc => ENNReal.ofReal_le_ofReal (Real.exp_le_exp.mpr ?_))
      have hc : value0 ω + c ≤ value ω := hc
      linarith
    rw [Real.exp_neg, ENNReal.ofReal_inv_of_pos (Real.exp_pos c)]
    refine h3.trans ?_
    rw [ENNReal.le_inv_iff_mul_le, mul_comm]
    exact h2
  · have := integral_nonneg (μ := P) (f := fun ω => Real.exp (value ω - value0 ω) - 1 - (value ω - value0 ω)) hnn
    rw [hg1] at this
    linarith
  · rw [hs, sub_self] at hg1
    have hz := (integral_eq_zero_iff_of_nonneg hnn hg).mp hg1
    filter_upwards [hz] with ω h
    by_contra hne
    have h2 := Real.add_one_lt_exp (sub_ne_zero.mpr hne)
    have h : Real.exp (value ω - value0 ω) - 1 - (value ω - value0 ω) = 0 := h
    linarith

/-- The mean of the likelihood ratio of one observation. -/
theorem ratio_one {F : Type} [MeasurableSpace F] {μ : Measure F} {Y : Ω → F} (hY : Measurable Y) {p p0 : F → ℝ} (hp : Measurable p) (hp0 : Measurable p0) (hpos : ∀ y, 0 < p y) (hpos0 : ∀ y, 0 < p0 y)
    (hlaw : P.map Y = μ.withDensity (fun y => ENNReal.ofReal (p0 y))) (h1 : ∫⁻ y, ENNReal.ofReal (p y) ∂μ = 1) :
    ∫⁻ ω, ENNReal.ofReal (Real.exp (Real.log (p (Y ω)) - Real.log (p0 (Y ω)))) ∂P = 1 := by
  have hm : Measurable (fun y => ENNReal.ofReal (p y / p0 y)) := ENNReal.measurable_ofReal.comp (hp.div hp0)
  have e : (fun ω => ENNReal.ofReal (Real.exp (Real.log (p (Y ω)) - Real.log (p0 (Y ω))))) = fun ω => ENNReal.ofReal (p (Y ω) / p0 (Y ω)) := by
    funext ω
    rw [Real.exp_sub, Real.exp_log (hpos _), Real.exp_log (hpos0 _)]
  rw [e, ← lintegral_map (f := fun y => ENNReal.ofReal (p y / p0 y)) hm hY, hlaw, lintegral_withDensity_eq_lintegral_mul μ (f := fun y => ENNReal.ofReal (p0 y)) (ENNReal.measurable_ofReal.comp hp0) hm, ← h1]
  refine lintegral_congr (fun y => ?_)
  rw [Pi.mul_apply, ← ENNReal.ofReal_mul (hpos0 y).le, mul_div_cancel₀ _ (hpos0 y).ne']

/-- The mean of the likelihood ratio of independent observations. -/
theorem ratio_prod {F : ℕ → Type} [∀ i, MeasurableSpace (F i)] {μ : ∀ i, Measure (F i)} {Y : ∀ i, Ω → F i} {n : ℕ} (hY : ∀ i, Measurable (Y i)) (hind : iIndepFun Y P) {p p0 : ∀ i, F i → ℝ} (hp : ∀ i, Measurable (p i)) (hp0 : ∀ i, Measurable (p0 i))
    (hpos : ∀ i y, 0 < p i y) (hpos0 : ∀ i y, 0 < p0 i y) (hlaw : ∀ i < n, P.map (Y i) = (μ i).withDensity (fun y => ENNReal.ofReal (p0 i y))) (h1 : ∀ i, ∫⁻ y, ENNReal.ofReal (p i y) ∂(μ i) = 1) :
    ∫⁻ ω, ENNReal.ofReal (Real.exp (∑ i ∈ Finset.range n, (Real.log (p i (Y i ω)) - Real.log (p0 i (Y i ω))))) ∂P = 1 := by
  have e : ∀ ω, ENNReal.ofReal (Real.exp (∑ i ∈ Finset.range n, (Real.log (p i (Y i ω)) - Real.log (p0 i (Y i ω))))) =
      ∏ i ∈ Finset.range n, ENNReal.ofReal (Real.exp (Real.log (p i (Y i ω)) - Real.log (p0 i (Y i ω)))) := by
    intro ω
    rw [Real.exp_sum, ENNReal.ofReal_prod_of_nonneg (fun i _ => (Real.exp_pos _).le)]
  have hm : ∀ i, Measurable (fun y : F i => ENNReal.ofReal (Real.exp (Real.log (p i y) - Real.log (p0 i y)))) := fun i =>
    ENNReal.measurable_ofReal.comp (Real.measurable_exp.comp ((Real.measurable_log.comp (hp i)).sub (Real.measurable_log.comp (hp0 i))))
  rw [lintegral_congr e, lintegral_prod_eq_prod_lintegral_of_indepFun (Finset.range n) (fun i ω => ENNReal.ofReal (Real.exp (Real.log (p i (Y i ω)) - Real.log (p0 i (Y i ω)))))
    (hind.comp (fun i y => ENNReal.ofReal (Real.exp (Real.log (p i y) - Real.log (p0 i y)))) hm) (fun i => (hm i).comp (hY i))]
  exact Finset.prod_eq_one (fun i hi => ratio_one (hY i) (hp i) (hp0 i) (hpos i) (hpos0 i) (hlaw i (Finset.mem_range.mp hi)) (h1 i))

/-- Observations that are independent and have the density `p0 i`: the log likelihoods with these densities and with other densities. -/
theorem truthIsBest_of_density {F : ℕ → Type} [∀ i, MeasurableSpace (F i)] {μ : ∀ i, Measure (F i)} {Y : ∀ i, Ω → F i} {n : ℕ} (hY : ∀ i, Measurable (Y i)) (hind : iIndepFun Y P) {p p0 : ∀ i, F i → ℝ} (hp : ∀ i, Measurable (p i)) (hp0 : ∀ i, Measurable (p0 i))
    (hpos : ∀ i y, 0 < p i y) (hpos0 : ∀ i y, 0 < p0 i y) (hlaw : ∀ i < n, P.map (Y i) = (μ i).withDensity (fun y => ENNReal.ofReal (p0 i y))) (h1 : ∀ i, ∫⁻ y, ENNReal.ofReal (p i y) ∂(μ i) = 1)
    (hint : ∀ i, Integrable (fun y => Real.log (p i y)) ((μ i).withDensity (fun y => ENNReal.ofReal (p0 i y)))) (hint0 : ∀ i, Integrable (fun y => Real.log (p0 i y)) ((μ i).withDensity (fun y => ENNReal.ofReal (p0 i y))))
    {value value0 : Ω → ℝ} (hv : ∀ᵐ ω ∂P, value ω = ∑ i ∈ Finset.range n, Real.log (p i (Y i ω))) (hv0 : ∀ᵐ ω ∂P, value0 ω = ∑ i ∈ Finset.range n, Real.log (p0 i (Y i ω))) :
    TruthIsBest P value value0 := by
  have key : ∀ q : ∀ i, F i → ℝ, (∀ i, Integrable (fun y => Real.log (q i y)) ((μ i).withDensity (fun y => ENNReal.ofReal (p0 i y)))) →
      Integrable (fun ω => ∑ i ∈ Finset.range n, Real.log (q i (Y i ω))) P := by
    intro q hq
    refine integrable_finsetSum _ (fun i hi => ?_)
    have h := hq i
    rw [← hlaw i (Finset.mem_range.mp hi)] at h
    exact (integrable_map_measure h.aestronglyMeasurable (hY i).aemeasurable).mp h
  refine truthIsBest_of_ratio ((key p hint).congr (hv.mono (fun ω h => h.symm))) ((key p0 hint0).congr (hv0.mono (fun ω h => h.symm))) ?_
  rw [← ratio_prod hY hind hp hp0 hpos hpos0 hlaw h1]
  refine lintegral_congr_ae ?_
  filter_upwards [hv, hv0] with ω h h0
  rw [h, h0, Finset.sum_sub_distrib]

end Skill
