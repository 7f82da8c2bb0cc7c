import Mathlib.MeasureTheory.Function.L2Space
import Mathlib.LinearAlgebra.Matrix.PosDef
/-
Distributions of latent factors with a given mean and covariance matrix.
-/
namespace Skill.Spec
open MeasureTheory Matrix

/-- `μ` is a distribution of `n` latent factors with mean `m` and covariance matrix `P`. -/
structure HasMoments {n : ℕ} (μ : Measure (Fin n → ℝ)) (m : Fin n → ℝ) (P : Matrix (Fin n) (Fin n) ℝ) : Prop where
  prob : IsProbabilityMeasure μ
  square : ∀ f, MemLp (fun x => x f) 2 μ
  mean : ∀ f, ∫ x, x f ∂μ = m f
  cov : ∀ f g, ∫ x, (x f - m f) * (x g - m g) ∂μ = P f g

end Skill.Spec
