import Verif.Model.TransitionNames
import Mathlib.Analysis.SpecialFunctions.Log.Basic
/-
skillmodels/transition_functions.py (the functions themselves) and the combination of the functions of
all factors in process_model.py:168-232, over the real numbers. `states` and `params` are 1d arrays.

Infinite values and NaN are not modelled: log_ces with phi = 0, with all gammas 0 or with a negative
gamma is outside of what the model describes (the theorems exclude these cases).
-/
namespace Skill

/-- `jnp.dot` of two 1d arrays; different lengths are a TypeError. (transition_functions.py:41, 63-64, 146-147) -/
def jnpDot (a b : List ℝ) : Py ℝ :=
  if a.length = b.length then .ok (List.zipWith (· * ·) a b).sum else .error .typeError

/-- `params[-1]` (transition_functions.py:39, 58, 84, 142, 161) -/
def lastParam (params : List ℝ) : Py ℝ :=
  match params.getLast? with
  | some p => .ok p
  | none => .error .indexError

/-- transition_functions.py:37-41 `linear` -/
def linear (states params : List ℝ) : Py ℝ := do
  let constant ← lastParam params
  let betas := params.dropLast
  let d ← jnpDot states betas
  pure (d + constant)

/-- transition_functions.py:65-66: the loop over interactions. -/
def addInteractions (states : List ℝ) (res : ℝ) : List (ℝ × Nat × Nat) → Py ℝ
  | [] => .ok res
  | (p, a, b) :: rest => do
    let x ← pyIndex states a
    let y ← pyIndex states b
    addInteractions states (res + p * x * y) rest

/-- transition_functions.py:49-68 `translog` -/
def translog (states params : List ℝ) : Py ℝ := do
  let nfac := states.length
  let constant ← lastParam params
  let linBeta := params.take nfac
  let squareBeta := (params.take (2 * nfac)).drop nfac
  let interBeta := params.dropLast.drop (2 * nfac)
  let res ← jnpDot states linBeta
  let sq ← jnpDot (states.map (fun x => x ^ 2)) squareBeta
  let res ← addInteractions states (res + sq) (interBeta.zip (combinations2 (List.range nfac)))
  pure (res + constant)

/-- transition_functions.py:131, `jnp.clip(x, -1e12, 1e12)` of one number. -/
noncomputable def clipState (x : ℝ) : ℝ := min (max x (-1e12)) 1e12

/-- transition_functions.py:119-132 `robust_translog` -/
noncomputable def robustTranslog (states params : List ℝ) : Py ℝ := translog (states.map clipState) params

/-- transition_functions.py:139-149 `linear_and_squares` -/
def linearAndSquares (states params : List ℝ) : Py ℝ := do
  let nfac := states.length
  let constant ← lastParam params
  let linBeta := params.take nfac
  let squareBeta := (params.take (2 * nfac)).drop nfac
  let res ← jnpDot states linBeta
  let sq ← jnpDot (states.map (fun x => x ^ 2)) squareBeta
  pure (res + sq + constant)

/-- exp(jnp.log(gamma) + x); jnp.log(0) is -inf and exp(-inf) is 0. (transition_functions.py:93, 170) -/
noncomputable def expLogWeight (gamma x : ℝ) : ℝ := if gamma = 0 then 0 else Real.exp (Real.log gamma + x)

/-- `logsumexp(jnp.log(gammas) + xs)` (transition_functions.py:93,170); arrays of different lengths are a TypeError
(broadcasting of arrays of length one is not modelled). -/
noncomputable def weightedLogsumexp (gammas xs : List ℝ) : Py ℝ :=
  if gammas.length = xs.length then .ok (Real.log (List.zipWith expLogWeight gammas xs).sum) else .error .typeError

/-- transition_functions.py:82-95 `log_ces` -/
noncomputable def logCes (states params : List ℝ) : Py ℝ := do
  let phi ← lastParam params
  let gammas := params.dropLast
  let scalingFactor := 1 / phi
  let unscaled ← weightedLogsumexp gammas (states.map (fun x => x * phi))
  pure (unscaled * scalingFactor)

/-- transition_functions.py:158-172 `log_ces_general` -/
noncomputable def logCesGeneral (states params : List ℝ) : Py ℝ := do
  let n := states.length
  let tfp ← lastParam params
  let gammas := params.take n
  let sigmas := (params.take (2 * n)).drop n
  if states.length = sigmas.length then
    let unscaled ← weightedLogsumexp gammas (List.zipWith (· * ·) states sigmas)
    pure (unscaled * tfp)
  else .error .typeError

/-! ### the combined transition function -/

/-- A transition function: the name of a built-in, or a custom function with the factors among its
arguments, its registered parameter names and its body (a function of the values of these factors,
of the whole state vector and of the dictionary of parameters). (process_model.py:175-196) -/
inductive TransFn
  | builtin (name : String)
  | custom (args names : List String) (body : Dict ℝ → List ℝ → Dict ℝ → ℝ)

/-- process_model.py:206-210: the value of one factor. A name that is no factor is an argument that the
combined function does not get (TypeError). -/
def extractFactor (allFactors : List String) (states : List ℝ) (name : String) : Py ℝ :=
  if name ∈ allFactors then pyIndex states (allFactors.idxOf name) else .error .typeError

/-- process_model.py:175-203 and decorators.py:6-53: the function `__next_{factor}__` applied to params
(a dictionary factor -> parameters) and states. The function `constant` gets the factor itself. -/
noncomputable def nextFactor (allFactors : List String) (params : Dict (List ℝ)) (states : List ℝ) (factor : String) (fn : TransFn) : Py ℝ := do
  let p ← Dict.getItem params factor
  match fn with
  | .builtin name =>
    if name = "linear" then linear states p
    else if name = "translog" then translog states p
    else if name = "log_ces" then logCes states p
    else if name = "constant" then extractFactor allFactors states factor
    else if name = "robust_translog" then robustTranslog states p
    else if name = "linear_and_squares" then linearAndSquares states p
    else if name = "log_ces_general" then logCesGeneral states p
    else .error .attributeError
  | .custom args names body => do
    let values ← args.mapM (fun a => do
      let v ← extractFactor allFactors states a
      pure (a, v))
    pure (body values states (names.zip p))

/-- process_model.py:212-218: the combined function applied to one row of states; `fns` has the functions of the latent
factors in their order. -/
noncomputable def transitionFunction (allFactors : List String) (fns : Dict TransFn) (params : Dict (List ℝ)) (states : List ℝ) : Py (List ℝ) :=
  fns.mapM (fun (factor, fn) => nextFactor allFactors params states factor fn)

end Skill
