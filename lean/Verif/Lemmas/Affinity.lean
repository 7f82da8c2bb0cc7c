import Verif.Lemmas.LikelihoodRatio
import Mathlib.Analysis.SpecialFunctions.Pow.NNReal

/-! How improbable it is that a wrong density fits independent observations at least as well as the true one. -/

namespace Skill
open MeasureTheory ProbabilityTheory
open scoped ENNReal

/-- The affinity (Bhattacharyya coefficient) of two densities. -/
noncomputable def affinity {F : Type} [MeasurableSpace F] (μ : Measure F) (p p0 : F → ℝ) : ℝ≥0∞ := ∫⁻ y, ENNReal.ofReal (Real.sqrt (p y * p0 y)) ∂μ

section
variable {F : Type} [MeasurableSpace F] {μ : Measure F} {p p0 : F → ℝ}

theorem affinity_sum (hp : Measurable p) (hp0 : Measurable p0) (hpos : ∀ y, 0 < p y) (hpos0 : ∀ y, 0 < p0 y) (h1 : ∫⁻ y, ENNReal.ofReal (p y) ∂μ = 1) (h10 : ∫⁻ y, ENNReal.ofReal (p0 y) ∂μ = 1) :
    ∫⁻ y, ENNReal.ofReal ((Real.sqrt (p y) - Real.sqrt (p0 y)) ^ 2) ∂μ + 2 * affinity μ p p0 = 2 := by
  have e : ∀ y, ENNReal.ofReal (p y) + ENNReal.ofReal (p0 y) = ENNReal.ofReal ((Real.sqrt (p y) - Real.sqrt (p0 y)) ^ 2) + 2 * ENNReal.ofReal (Real.sqrt (p y * p0 y)) := by
    intro y
    rw [← ENNReal.ofReal_add (hpos y).le (hpos0 y).le, show (2 : ℝ≥0∞) = ENNReal.ofReal 2 by simp, ← ENNReal.ofReal_mul (by norm_num), ← ENNReal.ofReal_add (sq_nonneg _) (by positivity)]
    congr 1
    rw [Real.sqrt_mul (hpos y).le, sub_sq, Real.sq_sqrt (hpos y).le, Real.sq_sqrt (hpos0 y).le]
    ring
  have hm : Measurable (fun y => ENNReal.ofReal ((Real.sqrt (p y) - Real.sqrt (p0 y)) ^ 2)) := ENNReal.measurable_ofReal.comp ((hp.sqrt.sub hp0.sqrt).pow_const 2)
  have h := lintegral_congr (μ := μ) e
  rw [lintegral_add_left (f := fun y => ENNReal.ofReal (p y)) (ENNReal.measurable_ofReal.comp hp), lintegral_add_left hm, h1, h10, lintegral_const_mul (f := fun y => ENNReal.ofReal (Real.sqrt (p y * p0 y))) _ (ENNReal.measurable_ofReal.comp (hp.mul hp0).sqrt)] at h
  rw [affinity, ← h]
  norm_num

theorem affinity_le_one (hp : Measurable p) (hp0 : Measurable p0) (hpos : ∀ y, 0 < p y) (hpos0 : ∀ y, 0 < p0 y) (h1 : ∫⁻ y, ENNReal.ofReal (p y) ∂μ = 1) (h10 : ∫⁻ y, ENNReal.ofReal (p0 y) ∂μ = 1) :
    affinity μ p p0 ≤ 1 := by
  have h := affinity_sum hp hp0 hpos hpos0 h1 h10
  have h2 : 2 * affinity μ p p0 ≤ 2 * 1 := by
    rw [mul_one]
    conv_rhs => rw [← h]
    exact le_add_self
  exact (ENNReal.mul_le_mul_iff_right (by norm_num) (by norm_num)).mp h2

theorem affinity_lt_one (hp : Measurable p) (hp0 : Measurable p0) (hpos : ∀ y, 0 < p y) (hpos0 : ∀ y, 0 < p0 y) (h1 : ∫⁻ y, ENNReal.ofReal (p y) ∂μ = 1) (h10 : ∫⁻ y, ENNReal.ofReal (p0 y) ∂μ = 1)
    (hne : μ.withDensity (fun y => ENNReal.ofReal (p y)) ≠ μ.withDensity (fun y => ENNReal.ofReal (p0 y))) : affinity μ p p0 < 1 := by
  refine lt_of_le_of_ne (affinity_le_one hp hp0 hpos hpos0 h1 h10) (fun heq => hne ?_)
  have h := affinity_sum hp hp0 hpos hpos0 h1 h10
  rw [heq, mul_one] at h
  have h0 : ∫⁻ y, ENNReal.ofReal ((Real.sqrt (p y) - Real.sqrt (p0 y)) ^ 2) ∂μ = 0 := by
    by_contra hz
    have := ENNReal.lt_add_right (a := 2) (by norm_num) hz
    rw [add_comm, h] at this
    exact lt_irrefl _ this
  have hm : Measurable (fun y => ENNReal.ofReal ((Real.sqrt (p y) - Real.sqrt (p0 y)) ^ 2)) := ENNReal.measurable_ofReal.comp ((hp.sqrt.sub hp0.sqrt).pow_const 2)
  rw [lintegral_eq_zero_iff hm] at h0
  refine withDensity_congr_ae ?_
  filter_upwards [h0] with y hy
  have hy : ENNReal.ofReal ((Real.sqrt (p y) - Real.sqrt (p0 y)) ^ 2) = 0 := hy
  rw [ENNReal.ofReal_eq_zero] at hy
  have h2 := sub_eq_zero.mp (pow_eq_zero_iff (two_ne_zero) |>.mp (le_antisymm hy (sq_nonneg _)))
  rw [Real.sqrt_inj (hpos y).le (hpos0 y).le] at h2
  rw [h2]

end

variable {Ω : Type} [MeasurableSpace Ω] {P : Measure Ω} [IsProbabilityMeasure P]

omit [IsProbabilityMeasure P] in
/-- The mean of the root of the likelihood ratio of one observation. -/
theorem root_ratio {F : Type} [MeasurableSpace F] {μ : Measure F} {Y : Ω → F} (hY : Measurable Y) {p p0 : F → ℝ} (hp : Measurable p) (hp0 : Measurable p0) (hpos : ∀ y, 0 < p y) (hpos0 : ∀ y, 0 < p0 y)
    (hlaw : P.map Y = μ.withDensity (fun y => ENNReal.ofReal (p0 y))) :
    ∫⁻ ω, ENNReal.ofReal (Real.exp ((Real.log (p (Y ω)) - Real.log (p0 (Y ω))) / 2)) ∂P = affinity μ p p0 := by
  have hm : Measurable (fun y => ENNReal.ofReal (Real.sqrt (p y / p0 y))) := ENNReal.measurable_ofReal.comp (hp.div hp0).sqrt
  have e : (fun ω => ENNReal.ofReal (Real.exp ((Real.log (p (Y ω)) - Real.log (p0 (Y ω))) / 2))) = fun ω => ENNReal.ofReal (Real.sqrt (p (Y ω) / p0 (Y ω))) := by
    funext ω
    rw [← Real.log_div (hpos _).ne' (hpos0 _).ne', ← Real.exp_log (div_pos (hpos (Y ω)) (hpos0 (Y ω))), Real.log_exp, Real.exp_half]
  rw [e, ← lintegral_map (f := fun y => ENNReal.ofReal (Real.sqrt (p y / p0 y))) hm hY, hlaw, lintegral_withDensity_eq_lintegral_mul μ (f := fun y => ENNReal.ofReal (p0 y)) (ENNReal.measurable_ofReal.comp hp0) hm]
  refine lintegral_congr (fun y => ?_)
  rw [Pi.mul_apply, ← ENNReal.ofReal_mul (hpos0 y).le]
  congr 1
  have h0 := Real.mul_self_sqrt (hpos0 y).le
  have hs : 0 < Real.sqrt (p0 y) := Real.sqrt_pos.mpr (hpos0 y)
  rw [Real.sqrt_div (hpos y).le, Real.sqrt_mul (hpos y).le]
  field_simp
  rw [Real.sq_sqrt (hpos0 y).le, mul_comm]

/-- Independent observations with the densities `p0 i`: the probability that the densities `p i` fit at least as well is at most the product of the affinities. -/
theorem beaten_le_affinity {F : ℕ → Type} [∀ i, MeasurableSpace (F i)] {μ : ∀ i, Measure (F i)} {Y : ∀ i, Ω → F i} {n : ℕ} (hY : ∀ i, Measurable (Y i)) (hind : iIndepFun Y P) {p p0 : ∀ i, F i → ℝ} (hp : ∀ i, Measurable (p i)) (hp0 : ∀ i, Measurable (p0 i))
    (hpos : ∀ i y, 0 < p i y) (hpos0 : ∀ i y, 0 < p0 i y) (hlaw : ∀ i < n, P.map (Y i) = (μ i).withDensity (fun y => ENNReal.ofReal (p0 i y))) :
    P {ω | ∑ i ∈ Finset.range n, Real.log (p0 i (Y i ω)) ≤ ∑ i ∈ Finset.range n, Real.log (p i (Y i ω))} ≤ ∏ i ∈ Finset.range n, affinity (μ i) (p i) (p0 i) := by
  have hm : ∀ i, Measurable (fun y : F i => ENNReal.ofReal (Real.exp ((Real.log (p i y) - Real.log (p0 i y)) / 2))) := fun i =>
    ENNReal.measurable_ofReal.comp (Real.measurable_exp.comp (((Real.measurable_log.comp (hp i)).sub (Real.measurable_log.comp (hp0 i))).div_const 2))
  have hmean : ∫⁻ ω, ∏ i ∈ Finset.range n, ENNReal.ofReal (Real.exp ((Real.log (p i (Y i ω)) - Real.log (p0 i (Y i ω))) / 2)) ∂P = ∏ i ∈ Finset.range n, affinity (μ i) (p i) (p0 i) := by
    rw [lintegral_prod_eq_prod_lintegral_of_indepFun (Finset.range n) (fun i ω => ENNReal.ofReal (Real.exp ((Real.log (p i (Y i ω)) - Real.log (p0 i (Y i ω))) / 2)))
      (hind.comp (fun i y => ENNReal.ofReal (Real.exp ((Real.log (p i y) - Real.log (p0 i y)) / 2))) hm) (fun i => (hm i).comp (hY i))]
    exact Finset.prod_congr rfl (fun i hi => root_ratio (hY i) (hp i) (hp0 i) (hpos i) (hpos0 i) (hlaw i (Finset.mem_range.mp hi)))
  rw [← hmean]
  have h2 := mul_meas_ge_le_lintegral₀ (μ := P) (f := fun ω => ∏ i ∈ Finset.range n, ENNReal.ofReal (Real.exp ((Real.log (p i (Y i ω)) - Real.log (p0 i (Y i ω))) / 2)))
    (Finset.measurable_prod (f := fun i ω => ENNReal.ofReal (Real.exp ((Real.log (p i (Y i ω)) - Real.log (p0 i (Y i ω))) / 2))) _ (fun i _ => (hm i).comp (hY i))).aemeasurable 1
  rw [one_mul] at h2
  refine (measure_mono (fun ω hω => ?_)).trans h2
  have hω : ∑ i ∈ Finset.range n, Real.log (p0 i (Y i ω)) ≤ ∑ i ∈ Finset.range n, Real.log (p i (Y i ω)) := hω
  show 1 ≤ ∏ i ∈ Finset.range n, ENNReal.ofReal (Real.exp ((Real.log (p i (Y i ω)) - Real.log (p0 i (Y i ω))) / 2))
  rw [← ENNReal.ofReal_prod_of_nonneg (fun i _ => (Real.exp_pos _).le), ← Real.exp_sum, ← ENNReal.ofReal_one]
  refine ENNReal.ofReal_le_ofReal (Real.one_le_exp ?_)
  rw [← Finset.sum_div, Finset.sum_sub_distrib]
  linarith

end Skill
