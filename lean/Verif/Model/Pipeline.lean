import Verif.Model.Simulate
import Verif.Model.ParseParams
import Verif.Model.ProcessData
import Verif.Model.Constraints
import Verif.Model.TransitionFunctions
/-
likelihood_function.py: from the model dictionary, the dataset and the parameter DataFrame to the output of the likelihood function
(the functions `loglike` and `debug_loglike` that get_maximization_inputs returns). This file only puts together the parts that are
modelled in the other files: lists (with run time lengths) become arrays with fixed axes here.

Simplifications: jit compilation does not change results; NaN is a number `nan` about which nothing is assumed (so a theorem that holds for
all `nan` says that the NaN is never used); a parameter vector without NaNs; float arithmetic is real arithmetic.
-/
namespace Skill
open Matrix
variable {β : Type}

/-! ### arrays -/

/-- A 1d array with `k` entries; another length is a shape error. (shapes of the arrays in likelihood_function.py:240-265) -/
def toArray1 (k : ℕ) (xs : List β) : Py (Fin k → β) :=
  if h : xs.length = k then .ok (fun i => xs[i.val]'(by omega)) else .error .typeError

/-- An array of shape (k, l). (likelihood_function.py:240-265) -/
def toArray2 (k l : ℕ) (xs : List (List β)) : Py (Fin k → Fin l → β) := do
  let rows ← xs.mapM (toArray1 l)
  toArray1 k rows

/-- An array of shape (k, l, p). (likelihood_function.py:240-265) -/
def toArray3 (k l p : ℕ) (xs : List (List (List β))) : Py (Fin k → Fin l → Fin p → β) := do
  let rows ← xs.mapM (toArray2 l p)
  toArray1 k rows

/-- An array of shape (k, l, p, q). (likelihood_function.py:240-265) -/
def toArray4 (k l p q : ℕ) (xs : List (List (List (List β)))) : Py (Fin k → Fin l → Fin p → Fin q → β) := do
  let rows ← xs.mapM (toArray3 l p q)
  toArray1 k rows

/-- process_data.py:146-159: missing cells of the data are NaN in the arrays of controls and observed factors. -/
def fillNaN (nan : ℝ) (xs : List (List (List (Option ℝ)))) : List (List (List ℝ)) := xs.map (fun a => a.map (fun b => b.map (fun c => c.getD nan)))

/-! ### the transition functions of a model -/

/-- What is known about the callable that is the transition function of a factor: which of its arguments are factors, and its body. (process_model.py:184-196) -/
abbrev CustomFn := List String × (Dict ℝ → List ℝ → Dict ℝ → ℝ)

/-- process_model.py:175-196: the transition function of one factor; `custom` is the callable if the model dictionary has one instead of a name. -/
def transFnOf (custom : CustomFn) : TransSpec → TransFn
  | .named name => .builtin name
  | .custom _ registered => .custom custom.1 (registered.getD []) custom.2

/-- process_model.py:172-198: the transition functions of all latent factors. -/
def transitionFns {α : Type} (custom : String → CustomFn) (m : ModelDict α) : Dict TransFn := m.factors.map (fun fs => (fs.1, transFnOf (custom fs.1) fs.2.transition))

/-- The values of the combined transition function. Errors are raised when the function is traced, see `logLikelihoodJax`. (called in kalman_filters.py:272-318) -/
noncomputable def transitionValues (n : ℕ) {k : ℕ} (allFactors : List String) (fns : Dict TransFn) (params : Dict (List ℝ)) (states : Fin k → ℝ) : Fin n → ℝ :=
  fun f => match transitionFunction allFactors fns params (List.ofFn states) with
    | .ok values => values.getD f 0
    | .error _ => 0

/-! ### the likelihood function -/

/-- likelihood_function.py:282-290, with the arrays as lists: `value`, `contributions` (one entry per individual) and `all_contributions` (index [update, individual]; only in
the output of debug_loglike). -/
structure LoglikeOutput where
  value : ℝ
  contributions : List ℝ
  allContributions : List (List ℝ)

/-- likelihood_function.py:256-265 and 349-361: the quantities of `_scan_body` that do not change in the loop. The parameters of the transition functions are indexed by the
period in line 354 (`trans_coeffs`). -/
noncomputable def scanInputs (nObs nT n nObserved nC : ℕ) (nan : ℝ) (allFactors : List String) (fns : Dict TransFn) (kappa : ℝ) (p : Parsed ℝ) (controls observed : List (List (List (Option ℝ)))) :
    Py (ScanFixed nObs nT n nObserved nC (Dict (List ℝ))) := do
  let controls ← toArray3 (nT + 2) nObs nC (fillNaN nan controls)
  let observed ← toArray3 (nT + 2) nObs nObserved (fillNaN nan observed)
  let transition ← p.transition.mapM (fun fa => do
    let arr ← toArray1 (nT + 1) fa.2
    pure (fa.1, arr))
  let shockSds ← toArray2 (nT + 1) n p.shockSds
  let scaling ← toArray2 (nT + 2) (n + nObserved) p.scalingFactors
  let constants ← toArray2 (nT + 2) (n + nObserved) p.anchoringConstants
  pure { controls := controls, observed := observed, transition := fun t => transition.map (fun fa => (fa.1, fa.2 t)), shockSds := shockSds
         scaling := scaling, constants := constants, sigmaScalingFactor := sigmaScalingFactor n kappa, sigmaWeights := sigmaWeights n kappa
         func := fun params states => transitionValues n allFactors fns params states }

/-- likelihood_function.py:240-244 -/
def initialCarry (nObs nMix n : ℕ) (p : Parsed ℝ) : Py (Carry nObs nMix n) := do
  let states ← toArray3 nObs nMix n p.states
  let upperChols ← toArray4 nObs nMix n n p.upperChols
  let logWeights ← toArray2 nObs nMix p.logWeights
  pure { states := states, upperChols := fun i e => of (upperChols i e), logWeights := logWeights }

/-- likelihood_function.py:246-254: the parameters in `loop_args`, one element per row of update_info (line 73 for the purpose). lax.scan needs arrays of the same length. -/
def loopParams (n nC : ℕ) (u : List URow) (p : Parsed ℝ) : Py (List (UpdateParams n nC)) := do
  let loadings ← toArray2 u.length n p.loadings
  let controlParams ← toArray2 u.length nC p.controls
  let measSds ← toArray1 u.length p.measSds
  pure (List.ofFn (fun k : Fin u.length => { period := (u.get k).period, var := (u.get k).var, isMeasurement := decide ((u.get k).purpose = .measurement)
                                             loadings := loadings k, controlParams := controlParams k, sd := measSds k }))

/-- likelihood_function.py:240-303 `_log_likelihood_jax` after parsing of the parameters. The transition functions are traced once, with the shapes of the arrays; their errors
depend on shapes only, so any values will do. `post` is what the caller does with the result. -/
noncomputable def logLikelihoodJax {γ : Type} (post : (nObs nMix n : ℕ) → LoglikeResult nObs nMix n → Py γ) (qr : QR) (nObs nMix nT n nObserved nC : ℕ) (nan : ℝ) (allFactors : List String) (fns : Dict TransFn)
    (kappa : ℝ) (clip : ClipOptions) (u : List URow) (p : Parsed ℝ) (measurements : List (List (Option ℝ))) (controls observed : List (List (List (Option ℝ)))) : Py γ := do
  let fixed ← scanInputs nObs nT n nObserved nC nan allFactors fns kappa p controls observed
  let carry ← initialCarry nObs nMix n p
  let rows ← loopParams n nC u p
  let data ← toArray2 u.length nObs measurements
  let _ ← transitionFunction allFactors fns (fixed.transition 0) (List.replicate (n + nObserved) 0)
  let r ← logLikelihood qr fixed clip carry (loopArgs (nT + 1) rows (List.ofFn data))
  post nObs nMix n r

/-- likelihood_function.py:272-278 -/
def clipOptions (o : EstOptions ℝ) : ClipOptions where
  lower := o.clippingLowerBound
  upper := o.clippingUpperBound
  lowerHardness := o.clippingLowerHardness
  upperHardness := o.clippingUpperHardness

/-- likelihood_function.py:52-160: what get_maximization_inputs computes before the likelihood function is called. -/
structure MaximizationInputs where
  model : Processed ℝ
  index : List Loc
  info : ParsingInfo
  data : ProcessedData ℝ
  constraints : List (Nat × Constr ℝ)
  template : List (Loc × Option ℝ)

/-- likelihood_function.py:26-172 `get_maximization_inputs`. -/
noncomputable def getMaximizationInputs (m : ModelDict ℝ) (df : LongData ℝ) : Py MaximizationInputs := do
  let pm ← processModel m
  let info ← createParsingInfo pm.paramsIndex pm.updateInfo pm.labels pm.anchoring
  let data ← processData df pm.labels pm.updateInfo pm.anchoring .estimation
  let constraints ← pm.constraints
  pure { model := pm, index := pm.paramsIndex, info := info, data := data, constraints := constraints, template := pm.paramsTemplate }

/-- likelihood_function.py:83-98 and 175-303: `_log_likelihood_jax` with the arguments that get_maximization_inputs fixes, for a vector of parameters. The number of individuals (line 235) is the common length of
the arrays of process_data. A model with fewer than two periods fails in parse_params (C64). -/
noncomputable def MaximizationInputs.evaluateVec {γ : Type} (post : (nObs nMix n : ℕ) → LoglikeResult nObs nMix n → Py γ) (qr : QR) (custom : String → CustomFn) (nan : ℝ) (m : ModelDict ℝ) (inputs : MaximizationInputs)
    (vec : List ℝ) : Py γ := do
  let nObs := (inputs.data.controls.headD []).length
  let d := inputs.model.dimensions
  let p ← parseParams Real.log vec inputs.info d inputs.model.labels nObs
  logLikelihoodJax post qr nObs d.nMixtures (d.nPeriods - 2) d.nLatentFactors d.nObservedFactors d.nControls nan inputs.model.labels.allFactors (transitionFns custom m)
    inputs.model.estimationOptions.sigmaPointsScale (clipOptions inputs.model.estimationOptions) inputs.model.updateInfo p (inputs.data.measurements.getD []) inputs.data.controls
    inputs.data.observedFactors

/-- likelihood_function.py:114-129: what `loglike(params)` and `debug_loglike(params)` have in common; `params` is the parameter DataFrame as list of (label, value). -/
noncomputable def MaximizationInputs.evaluate {γ : Type} (post : (nObs nMix n : ℕ) → LoglikeResult nObs nMix n → Py γ) (qr : QR) (custom : String → CustomFn) (nan : ℝ) (m : ModelDict ℝ) (inputs : MaximizationInputs)
    (params : List (Loc × ℝ)) : Py γ := do
  let vec ← getJnpParamsVec params inputs.index
  inputs.evaluateVec post qr custom nan m vec

/-- likelihood_function.py:282-290: the arrays of the result as lists. -/
noncomputable def LoglikeResult.output (nObs nMix n : ℕ) (r : LoglikeResult nObs nMix n) : LoglikeOutput :=
  { value := r.value, contributions := List.ofFn r.contributions, allContributions := r.allContributions.map List.ofFn }

/-- likelihood_function.py:124-129: `loglike(params)`. -/
noncomputable def MaximizationInputs.loglike (qr : QR) (custom : String → CustomFn) (nan : ℝ) (m : ModelDict ℝ) (inputs : MaximizationInputs) (params : List (Loc × ℝ)) : Py LoglikeOutput :=
  inputs.evaluate (fun nObs nMix n r => .ok (LoglikeResult.output nObs nMix n r)) qr custom nan m params

end Skill
