import Verif.Spec.StateSpace
import Mathlib.Probability.Distributions.Gaussian.Basic
import Mathlib.MeasureTheory.Measure.CharacteristicFunction.Basic
/-
Linear images of standard normal draws are determined by their covariance matrix.
-/
namespace Skill
open Matrix MeasureTheory ProbabilityTheory Spec

instance (ι : Type) [Fintype ι] : IsProbabilityMeasure (stdNormal ι) := by
  unfold stdNormal; infer_instance

variable {κ κ' ι : Type} [Fintype κ] [Fintype κ'] [Fintype ι] [DecidableEq κ] [DecidableEq κ'] [DecidableEq ι]

/-- `z ↦ Aᵀ z` as a continuous linear map. -/
noncomputable def mulVecCLM (A : Matrix κ ι ℝ) : (κ → ℝ) →L[ℝ] (ι → ℝ) := LinearMap.toContinuousLinearMap (Matrix.mulVecLin Aᵀ)

theorem mulVecCLM_apply (A : Matrix κ ι ℝ) (z : κ → ℝ) : mulVecCLM A z = Aᵀ *ᵥ z := rfl

theorem charFunDual_stdNormal (L : StrongDual ℝ (κ → ℝ)) :
    charFunDual (stdNormal κ) L = Complex.exp (-(∑ k, (L (Pi.single k 1)) ^ 2 : ℝ) / 2) := by
  unfold stdNormal
  rw [charFunDual_pi]
  have : ∀ k, charFunDual (gaussianReal 0 1) (L.comp (.single ℝ (fun _ => ℝ) k)) = Complex.exp (-((L (Pi.single k 1)) ^ 2 : ℝ) / 2) := by
    intro k
    rw [charFunDual_eq_charFun_map_one, gaussianReal_map_continuousLinearMap, charFun_gaussianReal]
    congr 1
    simp only [map_zero, Complex.ofReal_zero, mul_zero, zero_mul, zero_sub, mul_one, ContinuousLinearMap.comp_apply, Complex.ofReal_one, one_pow]
    rw [Real.coe_toNNReal _ (sq_nonneg _), ← neg_div]
    rfl
  rw [Finset.prod_congr rfl (fun k _ => this k), ← Complex.exp_sum]
  congr 1
  push_cast
  rw [← Finset.sum_div, Finset.sum_neg_distrib]

/-- The law of Aᵀ z is determined by AᵀA. -/
theorem map_stdNormal_eq (A : Matrix κ ι ℝ) (B : Matrix κ' ι ℝ) (h : Aᵀ * A = Bᵀ * B) :
    (stdNormal κ).map (fun z => Aᵀ *ᵥ z) = (stdNormal κ').map (fun z => Bᵀ *ᵥ z) := by
  have hA : (fun z => Aᵀ *ᵥ z) = mulVecCLM A := rfl
  have hB : (fun z => Bᵀ *ᵥ z) = mulVecCLM B := rfl
  rw [hA, hB]
  apply Measure.ext_of_charFunDual
  ext L
  rw [charFunDual_map, charFunDual_map, charFunDual_stdNormal, charFunDual_stdNormal]
  have key : ∀ {κ : Type} [Fintype κ] [DecidableEq κ] (A : Matrix κ ι ℝ), ∑ k, ((L.comp (mulVecCLM A)) (Pi.single k 1)) ^ 2 =
      (fun i => L (Pi.single i 1)) ⬝ᵥ ((Aᵀ * A) *ᵥ (fun i => L (Pi.single i 1))) := by
    intro κ _ _ A
    have hL : ∀ x : ι → ℝ, L x = ∑ i, x i * L (Pi.single i 1) := by
      intro x
      conv_lhs => rw [pi_eq_sum_univ' x]
      rw [map_sum]
      refine Finset.sum_congr rfl (fun i _ => ?_)
      rw [← smul_eq_mul, ← map_smul]
    have h1 : ∀ k, (L.comp (mulVecCLM A)) (Pi.single k 1) = (A *ᵥ (fun i => L (Pi.single i 1))) k := by
      intro k
      rw [ContinuousLinearMap.comp_apply, mulVecCLM_apply, mulVec_single_one, hL]
      rfl
    simp only [h1]
    rw [← mulVec_mulVec, dotProduct_mulVec, vecMul_transpose]
    exact Finset.sum_congr rfl (fun k _ => by ring)
  rw [key A, key B, h]


section cons
variable {E : Type} [MeasurableSpace E] {k : ℕ}

theorem lintegral_pi_cons (μ : Fin (k + 1) → Measure E) [∀ i, SigmaFinite (μ i)] {F : (Fin (k + 1) → E) → ENNReal} (hF : Measurable F) :
    ∫⁻ w, F w ∂Measure.pi μ = ∫⁻ y, ∫⁻ ys, F (Fin.cons y ys) ∂Measure.pi (fun j => μ j.succ) ∂μ 0 := by
  have h := (measurePreserving_piFinSuccAbove μ 0).symm
  rw [← h.lintegral_comp hF, lintegral_prod]
  · have e : ∀ y (ys : Fin k → E), (MeasurableEquiv.piFinSuccAbove (fun _ => E) 0).symm (y, ys) = Fin.cons y ys := by
      intro y ys
      simp [MeasurableEquiv.piFinSuccAbove, Fin.insertNthEquiv, Fin.insertNth_zero]
    simp only [e, Fin.succAbove_zero]
  · exact (hF.comp (MeasurableEquiv.measurable _)).aemeasurable

end cons

theorem lintegral_stdNormal_cons {n : ℕ} {F : (Fin (n + 1) → ℝ) → ENNReal} (hF : Measurable F) :
    ∫⁻ w, F w ∂stdNormal (Fin (n + 1)) = ∫⁻ ε, ∫⁻ z, F (Fin.cons ε z) ∂stdNormal (Fin n) ∂gaussianReal 0 1 := by
  unfold stdNormal
  exact lintegral_pi_cons _ hF

/-- Sums over independent blocks of draws. -/
theorem lintegral_stdNormal_sum {F : (κ ⊕ κ' → ℝ) → ENNReal} (hF : Measurable F) :
    ∫⁻ w, F w ∂stdNormal (κ ⊕ κ') = ∫⁻ z, ∫⁻ η, F (Sum.elim z η) ∂stdNormal κ' ∂stdNormal κ := by
  unfold stdNormal
  have h := (measurePreserving_sumPiEquivProdPi (fun _ : κ ⊕ κ' => gaussianReal 0 1)).symm
  rw [← h.lintegral_comp hF, lintegral_prod]
  · rfl
  · exact (hF.comp (MeasurableEquiv.measurable _)).aemeasurable

end Skill
