import Verif.Model.RawModel
import Verif.Spec.Consistent
/-
Model specifications that consist of the documented types.
-/
namespace Skill.Spec

/-- The value of the key in the dictionary `m` is `v`. -/
def Has (m : PyVal) (key : String) (v : PyVal) : Prop :=
  ∃ before after, m = .dict (before ++ (.str key, v) :: after) ∧ ∀ kv ∈ before, kv.1 ≠ .str key

/-- If the dictionary has the key, its value satisfies `P`. -/
def Optional (m : PyVal) (key : String) (P : PyVal → Prop) : Prop := ∀ v, Has m key v → P v

/-- The value is a dictionary. -/
def IsPyDict (v : PyVal) : Prop := ∃ kvs, v = .dict kvs

/-- The value is True or False. -/
def IsBool (v : PyVal) : Prop := v = .atom (.bool true) ∨ v = .atom (.bool false)

/-- Names of variables are strings, integers (True and False count as integers) or tuples. -/
def IsName (v : PyVal) : Prop := (∃ s, v = .atom (.str s)) ∨ (∃ z, v = .atom (.int z)) ∨ IsBool v ∨ ∃ xs, v = .tuple xs

/-- Strings, tuples, lists and dictionaries have a length and elements. -/
def HasElements (v : PyVal) : Prop := (∃ s, v = .atom (.str s)) ∨ (∃ xs, v = .tuple xs) ∨ (∃ xs, v = .list xs) ∨ IsPyDict v

/-- The number that a value is. -/
inductive IsNumber : Atom → Rat → Prop
  | int (z : Int) : IsNumber (.int z) z
  | float (x : Rat) : IsNumber (.float x) x
  | true : IsNumber (.bool true) 1
  | false : IsNumber (.bool false) 0

/-- Two names are equal in Python: 1, 1.0 and True are the same. -/
def SameName (a b : Atom) : Prop := a = b ∨ ∃ x, IsNumber a x ∧ IsNumber b x

/-- Zero: 0, 0.0 or False. -/
def IsZero (v : PyVal) : Prop := ∃ a, v = .atom a ∧ IsNumber a 0

/-- A list of dictionaries, one per period, whose keys are measurements of the same period. -/
def Normalizations (measurements : List (List PyVal)) (v : PyVal) : Prop :=
  ∃ ds : List (List (Atom × PyVal)), v = .list (ds.map .dict) ∧
    ∀ (t : Nat) (d : List (Atom × PyVal)), ds[t]? = some d → ∀ kv ∈ d, ∃ period, measurements[t]? = some period ∧ ∃ a, PyVal.atom a ∈ period ∧ SameName a kv.1

/-- No loading is normalized to zero. -/
def NotZero (v : PyVal) : Prop := ∀ ds, v = .list ds → ∀ d, PyVal.dict d ∈ ds → ∀ kv ∈ d, ¬ IsZero kv.2

/-- The section of a factor: measurements are lists (one per period) of names; normalizations are lists of dictionaries. -/
structure FactorOk (s : PyVal) : Prop where
  ok : ∃ measurements : List (List PyVal), Has s "measurements" (.list (measurements.map .list)) ∧
    (∀ period ∈ measurements, ∀ meas ∈ period, IsName meas) ∧
    Optional s "normalizations" (fun norm => IsPyDict norm ∧
      Optional norm "loadings" (fun v => Normalizations measurements v ∧ NotZero v) ∧
      Optional norm "intercepts" (Normalizations measurements))

/-- `n` is the largest number of periods of a factor. -/
def MaxPeriods (factors : List (Atom × PyVal)) (n : Nat) : Prop :=
  (∃ kv ∈ factors, ∃ ms, Has kv.2 "measurements" (.list ms) ∧ ms.length = n) ∧
  ∀ kv ∈ factors, ∀ ms, Has kv.2 "measurements" (.list ms) → ms.length ≤ n

/-- The anchoring section: a dictionary of outcome names, and flags. -/
structure AnchoringOk (v : PyVal) : Prop where
  outcomes : Optional v "outcomes" (fun o => ∃ kvs, o = .dict kvs ∧ ∀ kv ∈ kvs, IsName kv.2)
  freeControls : Optional v "free_controls" IsBool
  freeConstant : Optional v "free_constant" IsBool
  freeLoadings : Optional v "free_loadings" IsBool

/-- A list or tuple of these integers or floats. -/
def Numbers (v : PyVal) (xs : List Rat) : Prop :=
  ∃ entries, (v = .list entries ∨ v = .tuple entries) ∧
    List.Forall₂ (fun (e : PyVal) (x : Rat) => (∃ z : Int, e = .atom (.int z) ∧ x = z) ∨ e = .atom (.float x)) entries xs

/-- A model specification in which all sections have the documented types (anchoring and stagemap sections of other types than dictionaries and lists or tuples of numbers are not described here). -/
structure WellFormed (m : PyVal) : Prop where
  factors : ∃ fs n, Has m "factors" (.dict fs) ∧ fs ≠ [] ∧ (∀ kv ∈ fs, FactorOk kv.2) ∧ MaxPeriods fs n ∧
    ((∀ v, ¬ Has m "stagemap" v) → 1 ≤ n) ∧
    (∀ v xs, Has m "stagemap" v → Numbers v xs → ∃ sm : List Int, xs = sm.map (fun (z : Int) => (z : Rat)) ∧ ValidStagemap sm n)
  observedFactors : Optional m "observed_factors" HasElements
  controls : Optional m "controls" HasElements
  estimationOptions : ∃ kvs, Has m "estimation_options" (.dict kvs)
  anchoring : ∀ kvs, Has m "anchoring" (.dict kvs) → AnchoringOk (.dict kvs)

/-! ### The typed specifications as Python values -/

/-- A key that is left out if there is no value. -/
def optEntry {β : Type} (key : String) (f : β → PyVal) : Option β → List (Atom × PyVal)
  | none => []
  | some v => [(.str key, f v)]

/-- A string. -/
def pyStr (s : String) : PyVal := .atom (.str s)

/-- A list of strings. -/
def pyStrs (l : List String) : PyVal := .list (l.map pyStr)

/-- A list of dictionaries from names to numbers. -/
def pyNorms (l : List (Dict Rat)) : PyVal := .list (l.map (fun d => .dict (d.map (fun kv => (.str kv.1, .atom (.float kv.2))))))

/-- The section of a factor. -/
def pyFactor (s : FactorSpec Rat) : PyVal :=
  .dict ([(.str "measurements", .list (s.measurements.map pyStrs)),
      (.str "transition_function", match s.transition with
        | .named name => pyStr name
        | .custom _ _ => .other "function")]
    ++ optEntry "normalizations" (fun n => .dict (optEntry "loadings" pyNorms n.loadings ++ optEntry "intercepts" pyNorms n.intercepts)) s.normalizations)

/-- The anchoring section. -/
def pyAnchoring (a : AnchoringSpec) : PyVal :=
  .dict (optEntry "outcomes" (fun o => .dict (o.map (fun kv => (.str kv.1, pyStr kv.2)))) a.outcomes
    ++ optEntry "free_controls" (fun b => .atom (.bool b)) a.freeControls ++ optEntry "free_constant" (fun b => .atom (.bool b)) a.freeConstant
    ++ optEntry "free_loadings" (fun b => .atom (.bool b)) a.freeLoadings ++ optEntry "ignore_constant_when_anchoring" (fun b => .atom (.bool b)) a.ignoreConstant)

/-- A number or None. -/
def pyOptNumber : Option Rat → PyVal
  | none => .atom .none
  | some x => .atom (.float x)

/-- The section with the estimation options. -/
def pyOptions (o : EstSpec Rat) : PyVal :=
  .dict (optEntry "n_mixtures" (fun (k : Nat) => .atom (.int k)) o.nMixtures ++ optEntry "sigma_points_scale" (fun x => .atom (.float x)) o.sigmaPointsScale
    ++ optEntry "robust_bounds" (fun b => .atom (.bool b)) o.robustBounds ++ optEntry "bounds_distance" (fun x => .atom (.float x)) o.boundsDistance
    ++ optEntry "clipping_lower_bound" pyOptNumber o.clippingLowerBound ++ optEntry "clipping_upper_bound" pyOptNumber o.clippingUpperBound
    ++ optEntry "clipping_lower_hardness" (fun x => .atom (.float x)) o.clippingLowerHardness ++ optEntry "clipping_upper_hardness" (fun x => .atom (.float x)) o.clippingUpperHardness)

/-- The Python dictionary of a typed model specification. -/
def pyModel (m : ModelDict Rat) : PyVal :=
  .dict ([(.str "factors", .dict (m.factors.map (fun kv => (.str kv.1, pyFactor kv.2))))]
    ++ optEntry "observed_factors" pyStrs m.observedFactors ++ optEntry "controls" pyStrs m.controls
    ++ optEntry "stagemap" (fun l => .list (l.map (fun z => .atom (.int z)))) m.stagemap ++ optEntry "anchoring" pyAnchoring m.anchoring
    ++ optEntry "estimation_options" pyOptions m.estimationOptions)

end Skill.Spec
