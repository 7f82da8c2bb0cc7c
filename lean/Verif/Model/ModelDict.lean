import Verif.Model.Py
/-
The user-provided model specification (docs/source/how_to_guides/model_specs.rst,
tests/model2.yaml). `α` is the type of numbers.

Simplifications: names are strings; the sections have the documented types (the `isinstance` checks
of check_model.py for wrongly typed sections therefore never fire on this type).
-/
namespace Skill

/-- Value of `transition_function` of a factor: the name of a built-in, or a Python callable with
attribute `__name__` (`none` if it has none) and attribute `__registered_params__` (`none` if not
set by the `register_params` decorator); skillmodels/process_model.py:176-196. -/
inductive TransSpec
  | named (name : String)
  | custom (fname : Option String) (registered : Option (List String))
  deriving DecidableEq, Repr

/-- `factors[f]["normalizations"]`. Other keys are never read (process_model.py:296-300). -/
structure NormSpec (α : Type) where
  loadings : Option (List (Dict α)) := none
  intercepts : Option (List (Dict α)) := none
  deriving DecidableEq, Repr

/-- `model_dict["factors"][f]`. (read in process_model.py:59-110, 175-196, 258-302) -/
structure FactorSpec (α : Type) where
  measurements : List (List String)
  transition : TransSpec
  normalizations : Option (NormSpec α) := none
  deriving DecidableEq, Repr

/-- `model_dict["anchoring"]`. (read in process_model.py:140-165) -/
structure AnchoringSpec where
  outcomes : Option (Dict String) := none
  freeControls : Option Bool := none
  freeConstant : Option Bool := none
  freeLoadings : Option Bool := none
  ignoreConstant : Option Bool := none
  deriving DecidableEq, Repr

/-- `model_dict["estimation_options"]`; for the clipping bounds the outer option says whether the
key is present and the inner one is Python's `None`. (read in process_model.py:113-137) -/
structure EstSpec (α : Type) where
  nMixtures : Option Nat := none
  sigmaPointsScale : Option α := none
  robustBounds : Option Bool := none
  boundsDistance : Option α := none
  clippingLowerBound : Option (Option α) := none
  clippingUpperBound : Option (Option α) := none
  clippingLowerHardness : Option α := none
  clippingUpperHardness : Option α := none
  deriving DecidableEq, Repr

/-- The model specification dictionary. (argument model_dict of process_model.py:16-56) -/
structure ModelDict (α : Type) where
  factors : Dict (FactorSpec α)
  observedFactors : Option (List String) := none
  controls : Option (List String) := none
  stagemap : Option (List Int) := none
  anchoring : Option AnchoringSpec := none
  estimationOptions : Option (EstSpec α) := none
  deriving DecidableEq, Repr

end Skill
