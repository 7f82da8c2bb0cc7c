import Verif.Model.TransitionFunctions
import Mathlib.Algebra.BigOperators.Fin
/-
The transition functions by name: `factors` are the names of all factors, `x f` the value of factor f
and `v name` the value of the parameter called `name`.
-/
namespace Skill.Spec

variable (factors : List String) (x v : String → ℝ)

/-- Σ v[f] * x[f] -/
def linearTerms : ℝ := (factors.map (fun f => v f * x f)).sum
/-- Σ v[f ** 2] * x[f]² -/
def squareTerms : ℝ := (factors.map (fun f => v (f ++ " ** 2") * x f ^ 2)).sum
/-- Σ v[a * b] * x[a] * x[b] over all pairs where a is listed before b -/
def interactionTerms : ℝ := ∑ i : Fin factors.length, ∑ j : Fin factors.length,
  if i < j then v (factors.get i ++ " * " ++ factors.get j) * x (factors.get i) * x (factors.get j) else 0

def linearValue : ℝ := linearTerms factors x v + v "constant"
def translogValue : ℝ := linearTerms factors x v + squareTerms factors x v + interactionTerms factors x v + v "constant"
def linearAndSquaresValue : ℝ := linearTerms factors x v + squareTerms factors x v + v "constant"
/-- log(Σ v[f] * exp(phi * x[f])) / phi -/
noncomputable def logCesValue : ℝ := Real.log (factors.map (fun f => v f * Real.exp (v "phi" * x f))).sum / v "phi"
/-- tfp * log(Σ v[f] * exp(v[sigma_f] * x[f])) -/
noncomputable def logCesGeneralValue : ℝ := v "tfp" * Real.log (factors.map (fun f => v f * Real.exp (v ("sigma_" ++ f) * x f))).sum

/-- The names of the parameters of a transition function. -/
def paramNamesOf (factors : List String) : TransFn → List String
  | .builtin name => (builtinParamNames name).elim [] (fun g => g factors)
  | .custom _ names _ => names

/-- The next value of `factor`. -/
noncomputable def nextValue (factors : List String) (x v : String → ℝ) (factor : String) : TransFn → ℝ
  | .builtin name =>
    if name = "linear" then linearValue factors x v
    else if name = "translog" then translogValue factors x v
    else if name = "log_ces" then logCesValue factors x v
    else if name = "constant" then x factor
    else if name = "robust_translog" then translogValue factors (fun f => min (max (x f) (-10 ^ 12)) (10 ^ 12)) v
    else if name = "linear_and_squares" then linearAndSquaresValue factors x v
    else if name = "log_ces_general" then logCesGeneralValue factors x v
    else 0
  | .custom args names body => body (args.map (fun a => (a, x a))) (factors.map x) (names.map (fun p => (p, v p)))

/-- The function can be used: a built-in (with non-negative weights in case of the CES functions) or a
custom function whose arguments are factors. -/
def TransFn.Usable (factors : List String) (v : String → ℝ) : TransFn → Prop
  | .builtin name => (builtinParamNames name).isSome ∧ (name = "log_ces" ∨ name = "log_ces_general" → ∀ f ∈ factors, 0 ≤ v f)
  | .custom args _ _ => ∀ a ∈ args, a ∈ factors

end Skill.Spec
