import Verif.Lemmas.FilterContinuity
import Mathlib.Topology.Algebra.Module.FiniteDimension
import Mathlib.Analysis.Normed.Module.FiniteDimension
import Mathlib.MeasureTheory.Function.LpSpace.Basic

/-! Bounds for the density of the data of an individual: it is bounded, and its logarithm does not decrease faster than a quadratic function. -/

namespace Skill
open Matrix MeasureTheory ProbabilityTheory Spec

variable {n : ℕ}

theorem normalDensity_le (s v : ℝ) : normalDensity s v ≤ (√(2 * Real.pi * s.toNNReal))⁻¹ := by
  unfold normalDensity gaussianPDFReal
  refine mul_le_of_le_one_right (by positivity) (Real.exp_le_one_iff.mpr ?_)
  rw [neg_div]
  exact neg_nonpos.mpr (by positivity)

theorem kalmanDensity_le (steps : List (Step n)) : ∀ P : Matrix (Fin n) (Fin n) ℝ, ∃ C : ℝ, 0 ≤ C ∧ ∀ m y, kalmanDensity steps m P y ≤ C := by
  induction steps with
  | nil => exact fun P => ⟨1, zero_le_one, fun m y => le_refl _⟩
  | cons s ss ih =>
    intro P
    obtain ⟨C, hC, h⟩ := ih (stepCov s (updCov s P))
    refine ⟨max 1 (√(2 * Real.pi * (residualVariance P s.h s.sd).toNNReal))⁻¹ * C, by positivity, fun m y => ?_⟩
    rw [kalmanDensity_cons]
    have h1 : updDensity s m P (y 0) ≤ max 1 (√(2 * Real.pi * (residualVariance P s.h s.sd).toNNReal))⁻¹ := by
      unfold updDensity
      split_ifs
      · exact (normalDensity_le _ _).trans (le_max_right _ _)
      · exact le_max_left _ _
    refine (mul_le_mul_of_nonneg_left (h _ _) ?_).trans (mul_le_mul_of_nonneg_right h1 hC)
    unfold updDensity
    split_ifs
    · exact gaussianPDFReal_nonneg _ _ _
    · exact zero_le_one

theorem abs_dotProduct_le (m h : Fin n → ℝ) : |m ⬝ᵥ h| ≤ ‖m‖ * ∑ i, |h i| := by
  rw [dotProduct, Finset.mul_sum]
  refine (Finset.abs_sum_le_sum_abs _ _).trans (Finset.sum_le_sum (fun i _ => ?_))
  rw [abs_mul]
  exact mul_le_mul_of_nonneg_right (by simpa using norm_le_pi_norm m i) (abs_nonneg _)

theorem residual_growth (s : Step n) : ∃ K : ℝ, 0 ≤ K ∧ ∀ (m : Fin n → ℝ) (y : ℝ), |y - (m ⬝ᵥ s.h + s.c)| ≤ K * (1 + ‖m‖ + |y|) := by
  refine ⟨1 + |s.c| + ∑ i, |s.h i|, by positivity, fun m y => ?_⟩
  have h1 := abs_dotProduct_le m s.h
  have h2 : |y - (m ⬝ᵥ s.h + s.c)| ≤ |y| + (|m ⬝ᵥ s.h| + |s.c|) := (abs_sub _ _).trans (add_le_add_right (abs_add_le _ _) _)
  have hS : 0 ≤ ∑ i, |s.h i| := by positivity
  nlinarith [abs_nonneg y, abs_nonneg s.c, norm_nonneg m, mul_nonneg (abs_nonneg s.c) (norm_nonneg m), mul_nonneg (abs_nonneg s.c) (abs_nonneg y), mul_nonneg hS (abs_nonneg y)]

theorem updMean_growth (s : Step n) (P : Matrix (Fin n) (Fin n) ℝ) : ∃ K : ℝ, 0 ≤ K ∧ ∀ (m : Fin n → ℝ) (y : ℝ), ‖updMean s m P y‖ ≤ K * (1 + ‖m‖ + |y|) := by
  obtain ⟨K, hK, h⟩ := residual_growth s
  refine ⟨1 + K * |(residualVariance P s.h s.sd)⁻¹| * ‖P *ᵥ s.h‖, by positivity, fun m y => ?_⟩
  unfold updMean
  split_ifs
  · unfold posteriorMean
    refine (norm_add_le _ _).trans ?_
    rw [norm_smul, Real.norm_eq_abs, div_eq_mul_inv, abs_mul]
    have h1 := mul_le_mul_of_nonneg_right (mul_le_mul_of_nonneg_right (h m y) (abs_nonneg (residualVariance P s.h s.sd)⁻¹)) (norm_nonneg (P *ᵥ s.h))
    have := abs_nonneg y
    have := norm_nonneg m
    nlinarith
  · have : 0 ≤ K * |(residualVariance P s.h s.sd)⁻¹| * ‖P *ᵥ s.h‖ * (1 + ‖m‖ + |y|) := by positivity
    nlinarith [abs_nonneg y, norm_nonneg m]

theorem stepMean_growth {s : Step n} (hs : s.Affine) : ∃ K : ℝ, 0 ≤ K ∧ ∀ m : Fin n → ℝ, ‖stepMean s m‖ ≤ K * (1 + ‖m‖) := by
  unfold stepMean
  cases ht : s.transition with
  | none => exact ⟨1, zero_le_one, fun m => by simp⟩
  | some gq =>
    obtain ⟨g, q⟩ := gq
    obtain ⟨B, d, hg⟩ := hs g q ht
    let L := LinearMap.toContinuousLinearMap (Matrix.mulVecLin B)
    refine ⟨‖L‖ + ‖d‖, by positivity, fun m => ?_⟩
    dsimp only
    rw [hg]
    refine (norm_add_le _ _).trans ?_
    have h1 : ‖B *ᵥ m‖ ≤ ‖L‖ * ‖m‖ := L.le_opNorm m
    have := mul_nonneg (norm_nonneg d) (norm_nonneg m)
    have := norm_nonneg L
    nlinarith

theorem sq_growth {a x y K : ℝ} (ha : 0 ≤ a) (h : a ≤ K * (1 + x + y)) : a ^ 2 ≤ 3 * K ^ 2 * (1 + x ^ 2 + y ^ 2) := by
  have h1 : a ^ 2 ≤ (K * (1 + x + y)) ^ 2 := pow_le_pow_left₀ ha h 2
  have h2 : (1 + x + y) ^ 2 ≤ 3 * (1 + x ^ 2 + y ^ 2) := by nlinarith [sq_nonneg (x - y), sq_nonneg (x - 1), sq_nonneg (y - 1)]
  rw [mul_pow] at h1
  nlinarith [sq_nonneg K, mul_le_mul_of_nonneg_left h2 (sq_nonneg K)]

theorem updDensity_ge {s : Step n} (hsd : s.sd ≠ 0) {P : Matrix (Fin n) (Fin n) ℝ} (hP : P.PosSemidef) :
    ∃ C : ℝ, 0 ≤ C ∧ ∀ (m : Fin n → ℝ) (y : ℝ), Real.exp (-(C * (1 + ‖m‖ ^ 2 + |y| ^ 2))) ≤ updDensity s m P y := by
  have hv := residualVariance_pos hP s.h hsd
  obtain ⟨K, hK, h⟩ := residual_growth s
  set v := residualVariance P s.h s.sd with hvdef
  have hpi : 0 < √(2 * Real.pi * v) := Real.sqrt_pos.mpr (by positivity)
  refine ⟨|Real.log (√(2 * Real.pi * v))| + 3 * K ^ 2 / (2 * v), by positivity, fun m y => ?_⟩
  unfold updDensity
  split_ifs
  · unfold normalDensity gaussianPDFReal
    rw [Real.coe_toNNReal _ hv.le, sub_zero]
    have h1 := sq_growth (abs_nonneg _) (h m y)
    rw [sq_abs] at h1
    have h2 : (√(2 * Real.pi * v))⁻¹ = Real.exp (-Real.log (√(2 * Real.pi * v))) := by rw [Real.exp_neg, Real.exp_log hpi]
    rw [h2, ← Real.exp_add, Real.exp_le_exp]
    have h3 : (y - (m ⬝ᵥ s.h + s.c)) ^ 2 / (2 * v) ≤ 3 * K ^ 2 * (1 + ‖m‖ ^ 2 + |y| ^ 2) / (2 * v) := div_le_div_of_nonneg_right h1 (by positivity)
    have h4 := le_abs_self (Real.log (√(2 * Real.pi * v)))
    have h5 : |Real.log (√(2 * Real.pi * v))| ≤ |Real.log (√(2 * Real.pi * v))| * (1 + ‖m‖ ^ 2 + |y| ^ 2) := le_mul_of_one_le_right (abs_nonneg _) (by nlinarith [sq_nonneg ‖m‖, sq_nonneg |y|])
    have h6 : 3 * K ^ 2 * (1 + ‖m‖ ^ 2 + |y| ^ 2) / (2 * v) = 3 * K ^ 2 / (2 * v) * (1 + ‖m‖ ^ 2 + |y| ^ 2) := by ring
    rw [neg_div, add_mul, ← h6]
    linarith
  · exact Real.exp_le_one_iff.mpr (neg_nonpos.mpr (by positivity))

theorem kalmanDensity_ge {steps : List (Step n)} (hs : ∀ s ∈ steps, s.Affine) (hsd : ∀ s ∈ steps, s.sd ≠ 0) : ∀ {P : Matrix (Fin n) (Fin n) ℝ}, P.PosSemidef →
    ∃ C : ℝ, 0 ≤ C ∧ ∀ m y, Real.exp (-(C * (1 + ‖m‖ ^ 2 + ‖y‖ ^ 2))) ≤ kalmanDensity steps m P y := by
  induction steps with
  | nil =>
    intro P _
    refine ⟨0, le_refl _, fun m y => ?_⟩
    simp [kalmanDensity]
  | cons s ss ih =>
    intro P hP
    obtain ⟨C, hC, h⟩ := ih (fun s' h => hs s' (by simp [h])) (fun s' h => hsd s' (by simp [h])) (stepCov_posSemidef s (updCov_posSemidef (hsd s (by simp)) hP))
    obtain ⟨C', hC', h'⟩ := updDensity_ge (hsd s (by simp)) hP
    obtain ⟨K, hK, hk⟩ := updMean_growth s P
    obtain ⟨L, hL, hl⟩ := stepMean_growth (hs s (by simp))
    refine ⟨C' + C * (2 + 3 * (L * (1 + K)) ^ 2), by positivity, fun m y => ?_⟩
    rw [kalmanDensity_cons]
    have hy0 : |y 0| ≤ ‖y‖ := by simpa using norm_le_pi_norm y 0
    have hyt : ‖fun k : Fin ss.length => y k.succ‖ ≤ ‖y‖ := by
      refine (pi_norm_le_iff_of_nonneg (norm_nonneg y)).mpr (fun k => norm_le_pi_norm y k.succ)
    have hmean : ‖stepMean s (updMean s m P (y 0))‖ ≤ (L * (1 + K)) * (1 + ‖m‖ + ‖y‖) := by
      refine (hl _).trans ?_
      rw [mul_assoc]
      refine mul_le_mul_of_nonneg_left ?_ hL
      have h1 := hk m (y 0)
      have h2 : K * (1 + ‖m‖ + |y 0|) ≤ K * (1 + ‖m‖ + ‖y‖) := mul_le_mul_of_nonneg_left (by linarith) hK
      nlinarith [norm_nonneg m, norm_nonneg y]
    have h1 := sq_growth (norm_nonneg _) hmean
    have h2 := h (stepMean s (updMean s m P (y 0))) (fun k => y k.succ)
    have h3 := h' m (y 0)
    refine le_trans ?_ (mul_le_mul h3 h2 (Real.exp_pos _).le ((Real.exp_pos _).le.trans h3))
    rw [← Real.exp_add, Real.exp_le_exp]
    have h4 : |y 0| ^ 2 ≤ ‖y‖ ^ 2 := pow_le_pow_left₀ (abs_nonneg _) hy0 2
    have h5 : ‖fun k : Fin ss.length => y k.succ‖ ^ 2 ≤ ‖y‖ ^ 2 := pow_le_pow_left₀ (norm_nonneg _) hyt 2
    have h6 : C' * (1 + ‖m‖ ^ 2 + |y 0| ^ 2) ≤ C' * (1 + ‖m‖ ^ 2 + ‖y‖ ^ 2) := mul_le_mul_of_nonneg_left (by linarith) hC'
    have h7 : C * (1 + ‖stepMean s (updMean s m P (y 0))‖ ^ 2 + ‖fun k : Fin ss.length => y k.succ‖ ^ 2) ≤ C * ((2 + 3 * (L * (1 + K)) ^ 2) * (1 + ‖m‖ ^ 2 + ‖y‖ ^ 2)) :=
      mul_le_mul_of_nonneg_left (by nlinarith [sq_nonneg ‖m‖]) hC
    nlinarith

/-- The mean of the logarithm of a density with these bounds exists, if the data have second moments. -/
theorem integrable_log {Ω : Type} [MeasurableSpace Ω] {P : Measure Ω} [IsProbabilityMeasure P] {N : ℕ} {Y : Ω → Fin N → ℝ} (hY : Measurable Y) (hY2 : ∀ j, MemLp (fun ω => Y ω j) 2 P) {p : (Fin N → ℝ) → ℝ} (hp : Measurable p)
    {C D : ℝ} (hC : 0 ≤ C) (hge : ∀ y, Real.exp (-(C * (1 + ‖y‖ ^ 2))) ≤ p y) (hle : ∀ y, p y ≤ D) : Integrable (fun ω => Real.log (p (Y ω))) P := by
  have hsum : Integrable (fun ω => |Real.log D| + C * (1 + ∑ j, (Y ω j) ^ 2)) P :=
    (integrable_const _).add (((integrable_const _).add (integrable_finsetSum _ (fun j _ => (hY2 j).integrable_sq))).const_mul C)
  refine hsum.mono' ((Real.measurable_log.comp (hp.comp hY)).aestronglyMeasurable) (Filter.Eventually.of_forall (fun ω => ?_))
  have hpos : 0 < p (Y ω) := (Real.exp_pos _).trans_le (hge _)
  have h1 : -(C * (1 + ‖Y ω‖ ^ 2)) ≤ Real.log (p (Y ω)) := (Real.le_log_iff_exp_le hpos).mpr (hge _)
  have h2 : Real.log (p (Y ω)) ≤ Real.log D := Real.log_le_log hpos (hle _)
  have h3 : ‖Y ω‖ ^ 2 ≤ ∑ j, (Y ω j) ^ 2 := by
    have hnn : 0 ≤ ∑ j, (Y ω j) ^ 2 := Finset.sum_nonneg (fun j _ => sq_nonneg _)
    have : ‖Y ω‖ ≤ √(∑ j, (Y ω j) ^ 2) := (pi_norm_le_iff_of_nonneg (Real.sqrt_nonneg _)).mpr (fun j => by
      refine Real.le_sqrt_of_sq_le ?_
      rw [Real.norm_eq_abs, sq_abs]
      exact Finset.single_le_sum (f := fun j => (Y ω j) ^ 2) (fun j _ => sq_nonneg _) (Finset.mem_univ j))
    calc ‖Y ω‖ ^ 2 ≤ √(∑ j, (Y ω j) ^ 2) ^ 2 := pow_le_pow_left₀ (norm_nonneg _) this 2
      _ = _ := Real.sq_sqrt hnn
  have h4 := mul_le_mul_of_nonneg_left h3 hC
  have h5 : 0 ≤ C * (1 + ∑ j, (Y ω j) ^ 2) := mul_nonneg hC (add_nonneg zero_le_one (Finset.sum_nonneg (fun j _ => sq_nonneg _)))
  rw [Real.norm_eq_abs, abs_le]
  constructor
  · have := abs_nonneg (Real.log D)
    nlinarith
  · have := le_abs_self (Real.log D)
    linarith

theorem list_sum_swap {ι : Type} {n : ℕ} (l : List ι) (g : ι → Fin n → ℝ) : (l.map (fun o => ∑ i, g o i)).sum = ∑ i, (l.map (fun o => g o i)).sum := by
  induction l with
  | nil => simp
  | cons o l ih => simp [ih, Finset.sum_add_distrib]

end Skill
