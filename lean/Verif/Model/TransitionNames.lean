import Verif.Model.Py
/-
skillmodels/transition_functions.py: the functions that generate parameter names.
-/
namespace Skill

/-- itertools.combinations(xs, 2): all pairs (xs[i], xs[j]) with i < j in lexicographic order of
positions (used in transition_functions.py:65,76). -/
def combinations2 {β : Type _} : List β → List (β × β)
  | [] => []
  | x :: xs => xs.map (fun y => (x, y)) ++ combinations2 xs

/-- transition_functions.py:44-46 -/
def paramsLinear (factors : List String) : List String := factors ++ ["constant"]

/-- transition_functions.py:71-79 -/
def paramsTranslog (factors : List String) : List String :=
  factors ++ factors.map (fun f => f ++ " ** 2")
    ++ (combinations2 factors).map (fun ab => ab.1 ++ " * " ++ ab.2) ++ ["constant"]

/-- transition_functions.py:98-100 -/
def paramsLogCes (factors : List String) : List String := factors ++ ["phi"]

/-- transition_functions.py:114-116 -/
def paramsConstant (_factors : List String) : List String := []

/-- transition_functions.py:135-136 -/
def paramsRobustTranslog (factors : List String) : List String := paramsTranslog factors

/-- transition_functions.py:152-155 -/
def paramsLinearAndSquares (factors : List String) : List String :=
  factors ++ factors.map (fun f => f ++ " ** 2") ++ ["constant"]

/-- transition_functions.py:175-177 -/
def paramsLogCesGeneral (factors : List String) : List String :=
  factors ++ factors.map (fun f => "sigma_" ++ f) ++ ["tfp"]

/-- `getattr(tf, spec)` together with `getattr(tf, f"params_{spec}")` (process_model.py:178,182):
both attributes exist exactly for these seven names. `none` is the AttributeError. -/
def builtinParamNames (spec : String) : Option (List String → List String) :=
  if spec = "linear" then some paramsLinear
  else if spec = "translog" then some paramsTranslog
  else if spec = "log_ces" then some paramsLogCes
  else if spec = "constant" then some paramsConstant
  else if spec = "robust_translog" then some paramsRobustTranslog
  else if spec = "linear_and_squares" then some paramsLinearAndSquares
  else if spec = "log_ces_general" then some paramsLogCesGeneral
  else none

end Skill
