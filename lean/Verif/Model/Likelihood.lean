import Verif.Model.Kalman
/-
skillmodels/likelihood_function.py (the likelihood itself) and skillmodels/clipping.py, over the reals.

Dimensions: `nT + 1` transitions, `nT + 2` periods. (With one period parsing fails, see
Model/ParseParams.lean.)
-/
namespace Skill
open Matrix

/-! ### clipping -/

/-- clipping.py:5-48 `soft_clipping`, for one element of the array. -/
noncomputable def softClipping (x : ℝ) (lower upper : Option ℝ) (lowerHardness upperHardness : ℝ) : ℝ :=
  let x := match lower with
    | none => x
    | some l => logsumexp ![lowerHardness * x, lowerHardness * l] / lowerHardness
  match upper with
  | none => x
  | some u => -logsumexp ![upperHardness * -x, upperHardness * -u] / upperHardness

/-! ### scan inputs -/

/-- likelihood_function.py:75: `((_periods - _periods.shift(-1)) == -1)`; the last entry is NaN == -1. -/
def isPredictIteration : List Nat → List Bool
  | [] => []
  | [_] => [false]
  | p :: q :: ps => decide ((p : Int) - q = -1) :: isPredictIteration (q :: ps)

/-- likelihood_function.py:81: `_periods.replace(last_period, -1)` -/
def iterationToPeriod (lastPeriod : Nat) (periods : List Nat) : List Int :=
  periods.map (fun p => if p = lastPeriod then -1 else (p : Int))

/-- `arr[t]` of jax with a traced index: negative indices count from the end, indices out of
bounds are clamped. (used in likelihood_function.py:354-360) -/
def jaxIndex (k : ℕ) (t : Int) : Fin (k + 1) :=
  let t := if t < 0 then t + (k + 1) else t
  ⟨min t.toNat k, by omega⟩

/-- likelihood_function.py:246-254: one element of `loop_args`. -/
structure LoopArgs (nObs n nC : ℕ) where
  period : Int
  loadings : Fin n → ℝ
  controlParams : Fin nC → ℝ
  measSd : ℝ
  measurements : Fin nObs → Option ℝ
  isMeasurement : Bool
  isPredict : Bool

/-- likelihood_function.py:240-244 -/
@[ext]
structure Carry (nObs nMix n : ℕ) where
  states : Fin nObs → Fin nMix → Fin n → ℝ
  upperChols : Fin nObs → Fin nMix → Matrix (Fin n) (Fin n) ℝ
  logWeights : Fin nObs → Fin nMix → ℝ

/-- The other arguments of `_scan_body` (likelihood_function.py:256-265) that depend on the period:
`pardict` (parse_params.py:127-135), `controls` and `observed_factors`. `θ` is the type of the
transition parameters of one period. -/
structure ScanFixed (nObs nT n nObserved nC : ℕ) (θ : Type) where
  controls : Fin (nT + 2) → Fin nObs → Fin nC → ℝ
  observed : Fin (nT + 2) → Fin nObs → Fin nObserved → ℝ
  transition : Fin (nT + 1) → θ
  shockSds : Fin (nT + 1) → Fin n → ℝ
  scaling : Fin (nT + 2) → Fin (n + nObserved) → ℝ
  constants : Fin (nT + 2) → Fin (n + nObserved) → ℝ
  sigmaScalingFactor : ℝ
  sigmaWeights : Fin (2 * n + 1) → ℝ
  func : θ → (Fin (n + nObserved) → ℝ) → Fin n → ℝ

/-- likelihood_function.py:381-382 (`static_out`). `logWeights` is part of the debug info. -/
structure StepOut (nObs nMix n : ℕ) where
  loglikes : Fin nObs → ℝ
  residuals : Fin nObs → Fin nMix → Option ℝ
  residualSds : Fin nObs → Fin nMix → Option ℝ
  logWeights : Fin nObs → Fin nMix → ℝ
  states : Fin nObs → Fin nMix → Fin n → ℝ

variable {nObs nMix n nT nObserved nC : ℕ} {θ : Type}

/-- likelihood_function.py:325-344 and 385-401: the update step; an anchoring update keeps states
and Cholesky factors. Returns the new carry and the result of `kalman_update`. -/
noncomputable def scanUpdate (qr : QR) (fixed : ScanFixed nObs nT n nObserved nC θ) (carry : Carry nObs nMix n)
    (a : LoopArgs nObs n nC) : Carry nObs nMix n × UpdateResult nObs nMix n :=
  let res := kalmanUpdate qr carry.states carry.upperChols a.loadings a.controlParams a.measSd
    a.measurements (fixed.controls (jaxIndex (nT + 1) a.period)) carry.logWeights
  if a.isMeasurement then ({ states := res.states, upperChols := res.upperChols, logWeights := res.logWeights }, res)
  else ({ states := carry.states, upperChols := carry.upperChols, logWeights := res.logWeights }, res)

/-- likelihood_function.py:349-373 and 404-414: the predict step with the quantities of period `t`. -/
noncomputable def scanPredict (qr : QR) (fixed : ScanFixed nObs nT n nObserved nC θ) (carry : Carry nObs nMix n)
    (t : Int) : Py (Carry nObs nMix n) := do
  let (states, upperChols) ← kalmanPredict qr carry.states carry.upperChols fixed.sigmaScalingFactor
    fixed.sigmaWeights (fixed.func (fixed.transition (jaxIndex nT t))) (fixed.shockSds (jaxIndex nT t))
    ![fixed.scaling (jaxIndex (nT + 1) t), fixed.scaling (jaxIndex (nT + 1) (t + 1))]
    ![fixed.constants (jaxIndex (nT + 1) t), fixed.constants (jaxIndex (nT + 1) (t + 1))]
    (fixed.observed (jaxIndex (nT + 1) t))
  pure { states := states, upperChols := upperChols, logWeights := carry.logWeights }

/-- likelihood_function.py:306-382 `_scan_body`. `lax.cond` traces both branches: a shape error
of the predict step is raised in any case. -/
noncomputable def scanBody (qr : QR) (fixed : ScanFixed nObs nT n nObserved nC θ) (carry : Carry nObs nMix n)
    (a : LoopArgs nObs n nC) : Py (Carry nObs nMix n × StepOut nObs nMix n) := do
  let (updated, res) := scanUpdate qr fixed carry a
  let predicted ← scanPredict qr fixed updated a.period
  let out : StepOut nObs nMix n :=
    { loglikes := res.loglikes, residuals := res.residuals, residualSds := res.residualSds
      logWeights := res.logWeights, states := updated.states }
  pure (if a.isPredict then predicted else updated, out)

/-- `lax.scan(_body, carry, loop_args)` (likelihood_function.py:267) -/
noncomputable def scan (qr : QR) (fixed : ScanFixed nObs nT n nObserved nC θ) :
    Carry nObs nMix n → List (LoopArgs nObs n nC) → Py (Carry nObs nMix n × List (StepOut nObs nMix n))
  | carry, [] => .ok (carry, [])
  | carry, a :: as => do
    let (carry', out) ← scanBody qr fixed carry a
    let (last, outs) ← scan qr fixed carry' as
    pure (last, out :: outs)

/-- The estimation options used by the likelihood (likelihood_function.py:272-278). -/
structure ClipOptions where
  lower : Option ℝ
  upper : Option ℝ
  lowerHardness : ℝ
  upperHardness : ℝ

/-- likelihood_function.py:280-303 (result). -/
structure LoglikeResult (nObs nMix n : ℕ) where
  value : ℝ
  contributions : Fin nObs → ℝ
  allContributions : List (Fin nObs → ℝ)
  outs : List (StepOut nObs nMix n)

/-- likelihood_function.py:235-303 `_log_likelihood_jax` after parsing of the parameters. -/
noncomputable def logLikelihood (qr : QR) (fixed : ScanFixed nObs nT n nObserved nC θ) (clip : ClipOptions)
    (initial : Carry nObs nMix n) (args : List (LoopArgs nObs n nC)) : Py (LoglikeResult nObs nMix n) := do
  let (_, outs) ← scan qr fixed initial args
  let loglikes := outs.map (fun o => o.loglikes)
  let clipped : List (Fin nObs → ℝ) := loglikes.map (fun row i =>
    softClipping (row i) clip.lower clip.upper clip.lowerHardness clip.upperHardness)
  pure { value := (clipped.map (fun row => ∑ i, row i)).sum
         contributions := fun i => (clipped.map (fun row => row i)).sum
         allContributions := loglikes
         outs := outs }

end Skill
