import Mathlib.Analysis.Calculus.Deriv.Basic
import Verif.Model.Pipeline
/-
likelihood_function.py: the functions `gradient`, `jacobian` and `loglike_and_gradient` that get_maximization_inputs returns.

How jax differentiates a program is not modelled: `ValidAD` is all that is assumed about jax.grad, jax.jacrev and jax.jacfwd. They are assumed to return partial derivatives wherever the function is differentiable; the
theorems are about parameter values at which every step of the program is differentiable.
-/
namespace Skill

/-- A routine for derivatives of real valued functions of a 1d array with `k` entries. (jax.grad in likelihood_function.py:110, jax.jacrev or jax.jacfwd in line 111) -/
abbrev AD := (k : ℕ) → ((Fin k → ℝ) → ℝ) → (Fin k → ℝ) → Fin k → ℝ

/-- The routine returns the partial derivatives of functions that are differentiable. (used in likelihood_function.py:110-111) -/
structure ValidAD (ad : AD) : Prop where
  partials : ∀ k f x, DifferentiableAt ℝ f x → ∀ i : Fin k, HasDerivAt (fun s => f (Function.update x i s)) (ad k f x i) (x i)

/-- The routines of jax. (likelihood_function.py:110-111) -/
structure JaxDerivatives where
  grad : AD
  jacrev : AD
  jacfwd : AD

/-- likelihood_function.py:111: `getattr(jax, jacobian_type)`. Simplification: other attributes of jax than these functions (jax.jacobian is jax.jacrev) are treated like attributes that do not exist. -/
def JaxDerivatives.getattr (d : JaxDerivatives) (name : String) : Py AD :=
  if name = "grad" then .ok d.grad
  else if name = "jacrev" ∨ name = "jacobian" then .ok d.jacrev
  else if name = "jacfwd" then .ok d.jacfwd
  else .error .attributeError

/-- likelihood_function.py:26-172 `get_maximization_inputs` with the argument `jacobian_type`: the inputs of all functions and the routine for the function `jacobian`. Simplification: if also `get_constraints` fails (line 149), the
code raises the exception of line 111. -/
noncomputable def getMaximizationInputsWith (d : JaxDerivatives) (m : ModelDict ℝ) (df : LongData ℝ) (jacobianType : String := "jacrev") : Py (MaximizationInputs × AD) := do
  let inputs ← getMaximizationInputs m df
  let jac ← d.getattr jacobianType
  pure (inputs, jac)

/-- likelihood_function.py:303: the first return value of `_log_likelihood_jax`, as a function of the vector of parameters. Exceptions are raised when the function is traced, see `differentiate`. -/
noncomputable def MaximizationInputs.valueAt (qr : QR) (custom : String → CustomFn) (nan : ℝ) (m : ModelDict ℝ) (inputs : MaximizationInputs) (vec : List ℝ) : ℝ :=
  match inputs.evaluateVec (fun nObs nMix n r => .ok (LoglikeResult.output nObs nMix n r)) qr custom nan m vec with
  | .ok out => out.value
  | .error _ => 0

/-- likelihood_function.py:110-111: `jax.grad(_loglike, has_aux=True)` and `jax.jacrev(_loglike, has_aux=True)`: derivatives of the first return value of `_log_likelihood_jax` (the scalar) and its second return value. The function
is traced with the vector of parameters, so its exceptions are raised. -/
noncomputable def MaximizationInputs.differentiate (ad : AD) (qr : QR) (custom : String → CustomFn) (nan : ℝ) (m : ModelDict ℝ) (inputs : MaximizationInputs) (vec : List ℝ) : Py (List ℝ × LoglikeOutput) := do
  let out ← inputs.evaluateVec (fun nObs nMix n r => .ok (LoglikeResult.output nObs nMix n r)) qr custom nan m vec
  pure (List.ofFn (ad vec.length (fun x => inputs.valueAt qr custom nan m (List.ofFn x)) vec.get), out)

/-- likelihood_function.py:131-134: `gradient(params)`. -/
noncomputable def MaximizationInputs.gradient (d : JaxDerivatives) (qr : QR) (custom : String → CustomFn) (nan : ℝ) (m : ModelDict ℝ) (inputs : MaximizationInputs) (params : List (Loc × ℝ)) : Py (List ℝ) := do
  let vec ← getJnpParamsVec params inputs.index
  let r ← inputs.differentiate d.grad qr custom nan m vec
  pure r.1

/-- likelihood_function.py:136-139: `jacobian(params)`. -/
noncomputable def MaximizationInputs.jacobian (jac : AD) (qr : QR) (custom : String → CustomFn) (nan : ℝ) (m : ModelDict ℝ) (inputs : MaximizationInputs) (params : List (Loc × ℝ)) : Py (List ℝ) := do
  let vec ← getJnpParamsVec params inputs.index
  let r ← inputs.differentiate jac qr custom nan m vec
  pure r.1

/-- likelihood_function.py:141-147: `loglike_and_gradient(params)`. -/
noncomputable def MaximizationInputs.loglikeAndGradient (d : JaxDerivatives) (qr : QR) (custom : String → CustomFn) (nan : ℝ) (m : ModelDict ℝ) (inputs : MaximizationInputs) (params : List (Loc × ℝ)) :
    Py (LoglikeOutput × List ℝ) := do
  let vec ← getJnpParamsVec params inputs.index
  let r ← inputs.differentiate d.grad qr custom nan m vec
  pure (r.2, r.1)

end Skill
