import Mathlib.Data.Matrix.Mul
import Mathlib.Analysis.SpecialFunctions.Log.Basic
import Mathlib.Analysis.SpecialFunctions.Pow.Real
import Mathlib.Analysis.Real.Pi.Bounds
import Verif.Model.Py
/-
skillmodels/kalman_filters.py over the real numbers.

Arrays are functions on `Fin`: an array of shape (n_obs, n_mixtures, n_states) is a
`Fin nObs → Fin nMix → Fin n → ℝ`. Floating point rounding is not modelled. A measurement that is
not finite is `none`. Missing controls and observed factors are represented by arbitrary numbers:
what the theorems say holds for all of them.
-/
namespace Skill
open Matrix

/-- A routine for the R factor of the QR decomposition (`jnp.linalg.qr(m)[1]`) of k × n matrices.
It is not modelled; `ValidQR` is all that is assumed about it. (kalman_filters.py:5) -/
abbrev QR := ∀ k n : ℕ, Matrix (Fin k) (Fin n) ℝ → Matrix (Fin n) (Fin n) ℝ

/-- For matrices with at least as many rows as columns, R is upper triangular and RᵀR = MᵀM
(which follows from M = QR with orthonormal columns of Q). (kalman_filters.py:5, used in 84 and 228) -/
structure ValidQR (qr : QR) : Prop where
  upper : ∀ k n (m : Matrix (Fin k) (Fin n) ℝ), n ≤ k → ∀ i j, j < i → qr k n m i j = 0
  gram : ∀ k n (m : Matrix (Fin k) (Fin n) ℝ), n ≤ k → (qr k n m)ᵀ * qr k n m = mᵀ * m

/-- `jax.scipy.stats.norm.logpdf(x, loc, scale)` (used in kalman_filters.py:95). -/
noncomputable def normLogpdf (x loc scale : ℝ) : ℝ :=
  -(Real.log (2 * Real.pi * scale ^ 2) + (x - loc) ^ 2 / scale ^ 2) / 2

/-- `jax.scipy.special.logsumexp` over one axis; the shift by the maximum only avoids overflow. (used in kalman_filters.py:98) -/
noncomputable def logsumexp {n : ℕ} (x : Fin n → ℝ) : ℝ := Real.log (∑ i, Real.exp (x i))

/-- kalman_filters.py:117-133 (result). `residuals` and `residualSds` are in the debug info (NaN is
`none`). -/
structure UpdateResult (nObs nMix n : ℕ) where
  states : Fin nObs → Fin nMix → Fin n → ℝ
  upperChols : Fin nObs → Fin nMix → Matrix (Fin n) (Fin n) ℝ
  logWeights : Fin nObs → Fin nMix → ℝ
  loglikes : Fin nObs → ℝ
  residuals : Fin nObs → Fin nMix → Option ℝ
  residualSds : Fin nObs → Fin nMix → Option ℝ

/-- kalman_filters.py:79-82: the matrix `_m` of one individual and mixture element: meas_sd in the
upper left corner, zeros right of it, `_f_stars` below it and the Cholesky factor in the rest. -/
def updateMatrix {n : ℕ} (measSd : ℝ) (fStar : Fin n → ℝ) (chol : Matrix (Fin n) (Fin n) ℝ) :
    Matrix (Fin (n + 1)) (Fin (n + 1)) ℝ :=
  Matrix.of (Fin.cons (Fin.cons measSd (fun _ => 0)) (fun i => Fin.cons (fStar i) (chol i)))

/-- kalman_filters.py:13-133 `kalman_update`. -/
noncomputable def kalmanUpdate (qr : QR) {nObs nMix n nC : ℕ}
    (states : Fin nObs → Fin nMix → Fin n → ℝ)
    (upperChols : Fin nObs → Fin nMix → Matrix (Fin n) (Fin n) ℝ)
    (loadings : Fin n → ℝ) (controlParams : Fin nC → ℝ) (measSd : ℝ)
    (measurements : Fin nObs → Option ℝ) (controls : Fin nObs → Fin nC → ℝ)
    (logWeights : Fin nObs → Fin nMix → ℝ) : UpdateResult nObs nMix n :=
  -- line 56
  let notMissing : Fin nObs → Bool := fun i => (measurements i).isSome
  -- line 66
  let safeControls : Fin nObs → Fin nC → ℝ := fun i c => if notMissing i then controls i c else 0
  -- lines 68-70
  let safeExpected : Fin nObs → Fin nMix → ℝ := fun i e =>
    (∑ f, states i e f * loadings f) + ∑ c, safeControls i c * controlParams c
  -- lines 72-74
  let safeMeasurements : Fin nObs → ℝ := fun i =>
    match measurements i with
    | some y => y
    | none => (∑ e, safeExpected i e) / nMix
  -- line 76
  let residuals : Fin nObs → Fin nMix → ℝ := fun i e => safeMeasurements i - safeExpected i e
  -- line 77
  let fStars : Fin nObs → Fin nMix → Fin n → ℝ := fun i e f => ∑ g, upperChols i e f g * loadings g
  -- lines 79-84
  let r : Fin nObs → Fin nMix → Matrix (Fin (n + 1)) (Fin (n + 1)) ℝ := fun i e =>
    qr (n + 1) (n + 1) (updateMatrix measSd (fStars i e) (upperChols i e))
  -- lines 86-88
  let newChols : Fin nObs → Fin nMix → Matrix (Fin n) (Fin n) ℝ := fun i e =>
    Matrix.of (fun f g => r i e f.succ g.succ)
  let rootSigmas : Fin nObs → Fin nMix → ℝ := fun i e => r i e 0 0
  let absRootSigmas : Fin nObs → Fin nMix → ℝ := fun i e => |rootSigmas i e|
  -- lines 91-92
  let kalmanGains : Fin nObs → Fin nMix → Fin n → ℝ := fun i e f => r i e 0 f.succ / rootSigmas i e
  let newStates : Fin nObs → Fin nMix → Fin n → ℝ := fun i e f =>
    states i e f + kalmanGains i e f * residuals i e
  -- lines 95-105; with one mixture element `flatten` takes the only column
  let loglikesPerDist : Fin nObs → Fin nMix → ℝ := fun i e =>
    normLogpdf (residuals i e) 0 (absRootSigmas i e)
  let weighted : Fin nObs → Fin nMix → ℝ := fun i e => loglikesPerDist i e + logWeights i e
  let loglikes : Fin nObs → ℝ := fun i =>
    if nMix ≥ 2 then logsumexp (weighted i)
    else ∑ e, loglikesPerDist i e
  let newLogWeights : Fin nObs → Fin nMix → ℝ := fun i e =>
    if nMix ≥ 2 then weighted i e - loglikes i else logWeights i e
  -- lines 108-125
  { states := fun i => if notMissing i then newStates i else states i
    upperChols := fun i => if notMissing i then newChols i else upperChols i
    logWeights := fun i => if notMissing i then newLogWeights i else logWeights i
    loglikes := fun i => if notMissing i then loglikes i else 0
    residuals := fun i e => if notMissing i then some (residuals i e) else none
    residualSds := fun i e => if notMissing i then some (absRootSigmas i e) else none }

/-- kalman_filters.py:156 (in 141-160), the scaling factor. -/
noncomputable def sigmaScalingFactor (n : ℕ) (kappa : ℝ) : ℝ := Real.sqrt (kappa + n)

/-- kalman_filters.py:157-159 (in 141-160), the weights. -/
noncomputable def sigmaWeights (n : ℕ) (kappa : ℝ) : Fin (2 * n + 1) → ℝ := fun s =>
  if s = 0 then kappa / (n + kappa) else 0.5 * 1 / (n + kappa)

/-- kalman_filters.py:257-262: the part of the sigma points that belongs to latent factors; row 0 is
the state, row s = 1..n adds row s-1 of the scaled Cholesky factor and row s = n+1..2n subtracts
row s-n-1. -/
def latentSigmaPoints {nObs nMix n : ℕ} (states : Fin nObs → Fin nMix → Fin n → ℝ)
    (upperChols : Fin nObs → Fin nMix → Matrix (Fin n) (Fin n) ℝ) (scalingFactor : ℝ) :
    Fin nObs → Fin nMix → Fin (2 * n + 1) → Fin n → ℝ := fun i e s f =>
  states i e f
    + (if h : 1 ≤ s.val ∧ s.val < n + 1 then upperChols i e ⟨s.val - 1, by omega⟩ f * scalingFactor else 0)
    + (if h : n + 1 ≤ s.val then - (upperChols i e ⟨s.val - (n + 1), by omega⟩ f * scalingFactor) else 0)

/-- kalman_filters.py:264-266: `observed_factors.repeat(n_sigma, axis=0).reshape(n_obs, n_mixtures,
n_sigma, n_observed)`. The entry [i, e, s, c] is entry number
`((i * n_mixtures + e) * n_sigma + s) * n_observed + c` of the repeated array, which has
n_observed columns and in its row r the row r // n_sigma of observed_factors. -/
def observedSigmaPoints {nObs nObserved : ℕ} (nMix nSigma : ℕ) (observed : Fin nObs → Fin nObserved → ℝ) :
    Fin nObs → Fin nMix → Fin nSigma → Fin nObserved → ℝ := fun i e s c =>
  let k := ((i.val * nMix + e.val) * nSigma + s.val) * nObserved + c.val
  if h : k / nObserved / nSigma < nObs then
    observed ⟨k / nObserved / nSigma, h⟩ ⟨k % nObserved, Nat.mod_lt _ (Nat.lt_of_le_of_lt (Nat.zero_le _) c.isLt)⟩
  else 0

/-- The sizes of the two sides of the reshape in kalman_filters.py:264-266 agree. -/
def reshapeOk (nObs nMix nSigma nObserved : ℕ) : Bool :=
  decide ((nObs * nSigma) * nObserved = nObs * nMix * nSigma * nObserved)

/-- kalman_filters.py:233-269 `_calculate_sigma_points`; a reshape to another size is a TypeError.
The concatenation puts the observed factors after the latent factors. -/
def calculateSigmaPoints {nObs nMix n nObserved : ℕ} (states : Fin nObs → Fin nMix → Fin n → ℝ)
    (upperChols : Fin nObs → Fin nMix → Matrix (Fin n) (Fin n) ℝ) (scalingFactor : ℝ)
    (observed : Fin nObs → Fin nObserved → ℝ) :
    Py (Fin nObs → Fin nMix → Fin (2 * n + 1) → Fin (n + nObserved) → ℝ) :=
  if reshapeOk nObs nMix (2 * n + 1) nObserved then
    .ok (fun i e s => Fin.append (latentSigmaPoints states upperChols scalingFactor i e s)
      (observedSigmaPoints nMix (2 * n + 1) observed i e s))
  else .error .typeError

/-- kalman_filters.py:272-318 `transform_sigma_points`. The transition function maps the states
of all factors to the next states of the latent factors (it is applied row by row). The two rows of
the anchoring arrays belong to the current and the next period. -/
noncomputable def transformSigmaPoints {nObs nMix nSigma n nObserved : ℕ}
    (points : Fin nObs → Fin nMix → Fin nSigma → Fin (n + nObserved) → ℝ)
    (transition : (Fin (n + nObserved) → ℝ) → Fin n → ℝ)
    (scaling constants : Fin 2 → Fin (n + nObserved) → ℝ) :
    Fin nObs → Fin nMix → Fin nSigma → Fin n → ℝ := fun i e s =>
  let anchored : Fin (n + nObserved) → ℝ := fun f => points i e s f * scaling 0 f + constants 0 f
  let transformed := transition anchored
  fun f => (transformed f - constants 1 (Fin.castAdd nObserved f)) / scaling 1 (Fin.castAdd nObserved f)

/-- kalman_filters.py:217-230: the predicted states and Cholesky factors for transformed sigma points. -/
noncomputable def predictMoments (qr : QR) {nObs nMix nSigma n : ℕ} (weights : Fin nSigma → ℝ)
    (shockSds : Fin n → ℝ) (transformed : Fin nObs → Fin nMix → Fin nSigma → Fin n → ℝ) :
    (Fin nObs → Fin nMix → Fin n → ℝ) × (Fin nObs → Fin nMix → Matrix (Fin n) (Fin n) ℝ) :=
  let predicted : Fin nObs → Fin nMix → Fin n → ℝ := fun i e f => ∑ s, weights s * transformed i e s f
  let devs : Fin nObs → Fin nMix → Fin nSigma → Fin n → ℝ := fun i e s f => transformed i e s f - predicted i e f
  let qrPoints : Fin nObs → Fin nMix → Matrix (Fin (nSigma + n)) (Fin n) ℝ := fun i e =>
    Matrix.of (Fin.append (fun s f => devs i e s f * Real.sqrt (weights s)) (fun f => Matrix.diagonal shockSds f))
  (predicted, fun i e => qr (nSigma + n) n (qrPoints i e))

/-- kalman_filters.py:163-230 `kalman_predict`. -/
noncomputable def kalmanPredict (qr : QR) {nObs nMix n nObserved : ℕ} (states : Fin nObs → Fin nMix → Fin n → ℝ)
    (upperChols : Fin nObs → Fin nMix → Matrix (Fin n) (Fin n) ℝ) (scalingFactor : ℝ)
    (weights : Fin (2 * n + 1) → ℝ) (transition : (Fin (n + nObserved) → ℝ) → Fin n → ℝ)
    (shockSds : Fin n → ℝ) (scaling constants : Fin 2 → Fin (n + nObserved) → ℝ)
    (observed : Fin nObs → Fin nObserved → ℝ) :
    Py ((Fin nObs → Fin nMix → Fin n → ℝ) × (Fin nObs → Fin nMix → Matrix (Fin n) (Fin n) ℝ)) := do
  let points ← calculateSigmaPoints states upperChols scalingFactor observed
  pure (predictMoments qr weights shockSds (transformSigmaPoints points transition scaling constants))

end Skill
