import Mathlib.Probability.Distributions.Gaussian.Real
import Mathlib.LinearAlgebra.Matrix.PosDef
/-
Textbook formulas for the Kalman filter, written independently of the square root form of the code.
`P` is a covariance matrix, `h` the vector of loadings, `sd` the standard deviation of the
measurement error, `v` a residual.
-/
namespace Skill.Spec
open Matrix

/-- Density of N(0, s) at v (Mathlib's `gaussianPDFReal`). -/
noncomputable def normalDensity (s v : ℝ) : ℝ := ProbabilityTheory.gaussianPDFReal 0 s.toNNReal v

/-- Variance of the residual, s = h'Ph + sd². -/
def residualVariance {n : ℕ} (P : Matrix (Fin n) (Fin n) ℝ) (h : Fin n → ℝ) (sd : ℝ) : ℝ :=
  h ⬝ᵥ (P *ᵥ h) + sd ^ 2

/-- x + P h v / s -/
noncomputable def posteriorMean {n : ℕ} (x : Fin n → ℝ) (P : Matrix (Fin n) (Fin n) ℝ) (h : Fin n → ℝ) (sd v : ℝ) :
    Fin n → ℝ :=
  x + (v / residualVariance P h sd) • (P *ᵥ h)

/-- P - P h h' P / s -/
noncomputable def posteriorCov {n : ℕ} (P : Matrix (Fin n) (Fin n) ℝ) (h : Fin n → ℝ) (sd : ℝ) :
    Matrix (Fin n) (Fin n) ℝ :=
  P - (residualVariance P h sd)⁻¹ • (P * vecMulVec h h * P)

/-- What is believed about the latent factors of one individual: a mixture of normal distributions. -/
@[ext]
structure Belief (nMix n : ℕ) where
  mean : Fin nMix → Fin n → ℝ
  cov : Fin nMix → Matrix (Fin n) (Fin n) ℝ
  logWeight : Fin nMix → ℝ

/-- The covariances are positive semi-definite and the weights a probability distribution. -/
structure Belief.Proper {nMix n : ℕ} (b : Belief nMix n) : Prop where
  cov : ∀ e, (b.cov e).PosSemidef
  weights : ∑ e, Real.exp (b.logWeight e) = 1

/-- One measurement y = h'x + c + sd * ε of an individual; `y = none` if it is missing. -/
structure Measurement (n : ℕ) where
  h : Fin n → ℝ
  c : ℝ
  sd : ℝ
  y : Option ℝ

/-- Residual of mixture element `e`. -/
def Belief.residual {nMix n : ℕ} (b : Belief nMix n) (m : Measurement n) (y : ℝ) (e : Fin nMix) : ℝ :=
  y - (b.mean e ⬝ᵥ m.h + m.c)

/-- Density of the residual of mixture element `e`. -/
noncomputable def Belief.density {nMix n : ℕ} (b : Belief nMix n) (m : Measurement n) (y : ℝ) (e : Fin nMix) : ℝ :=
  normalDensity (residualVariance (b.cov e) m.h m.sd) (b.residual m y e)

/-- Likelihood of a measurement: the weighted mixture of the densities of its residuals. -/
noncomputable def Belief.likelihood {nMix n : ℕ} (b : Belief nMix n) (m : Measurement n) (y : ℝ) : ℝ :=
  ∑ e, Real.exp (b.logWeight e) * b.density m y e

/-- Bayesian updating: the usual Kalman update of each element; the weights are proportional to
prior weight times density. -/
noncomputable def Belief.update {nMix n : ℕ} (b : Belief nMix n) (m : Measurement n) : Belief nMix n :=
  match m.y with
  | none => b
  | some y =>
    { mean := fun e => posteriorMean (b.mean e) (b.cov e) m.h m.sd (b.residual m y e)
      cov := fun e => posteriorCov (b.cov e) m.h m.sd
      logWeight := fun e => Real.log (Real.exp (b.logWeight e) * b.density m y e / b.likelihood m y) }

/-- Log likelihood of a measurement; zero if it is missing. -/
noncomputable def Belief.contribution {nMix n : ℕ} (b : Belief nMix n) (m : Measurement n) : ℝ :=
  match m.y with
  | none => 0
  | some y => Real.log (b.likelihood m y)

/-- Belief after a sequence of measurements. -/
noncomputable def Belief.updates {nMix n : ℕ} (b : Belief nMix n) (ms : List (Measurement n)) : Belief nMix n :=
  ms.foldl Belief.update b

/-- Log likelihood of a sequence of measurements. -/
noncomputable def Belief.logLikelihood {nMix n : ℕ} (b : Belief nMix n) : List (Measurement n) → ℝ
  | [] => 0
  | m :: ms => b.contribution m + (b.update m).logLikelihood ms

end Skill.Spec
