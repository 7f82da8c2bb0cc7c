import Verif.Model.ProcessModel
import Mathlib.Data.Rat.Defs
import Mathlib.Data.List.Infix
/-
The first part of process_model.py:16-56 (get_dimensions, _get_labels, _process_anchoring and check_model.py) for model specifications of any type: the user can pass (for example, from a yaml file) a string where a
list is expected. The other files of the model start from the typed `ModelDict`.

Simplifications: floats are rational numbers (no nan and no infinity); keys of dictionaries are no tuples; objects that are not None, booleans, numbers, strings, tuples, lists or dictionaries (for example functions) have no length
and cannot be subscripted, iterated over or searched; what numpy does with a stagemap that is not a list or tuple of numbers is the argument `odd` (np.unique in process_model.py:105 and check_model.py:41-54), about which nothing is assumed.
-/
namespace Skill

/-- Python values that can be keys of the dictionaries. (for the argument model_dict of process_model.py:16) -/
inductive Atom
  | none
  | bool (b : Bool)
  | int (z : Int)
  | float (x : Rat)
  | str (s : String)
  deriving DecidableEq

/-- Python values. `other` are functions and other objects. (for the argument model_dict of process_model.py:16) -/
inductive PyVal
  | atom (a : Atom)
  | tuple (xs : List PyVal)
  | list (xs : List PyVal)
  | dict (kvs : List (Atom × PyVal))
  | other (name : String)

/-- The number that a value is; True is 1 and False is 0. (for `==` in check_model.py:138) -/
def Atom.num : Atom → Option Rat
  | .bool b => some (if b then 1 else 0)
  | .int z => some z
  | .float x => some x
  | _ => Option.none

/-- `a == b`. (for the keys of dictionaries and for `in` in check_model.py:124) -/
def Atom.pyEq (a b : Atom) : Bool :=
  match a.num, b.num with
  | some x, some y => decide (x = y)
  | Option.none, Option.none => decide (a = b)
  | _, _ => false

/-- The value of a key of a dictionary. (for the subscripts in process_model.py:59-165) -/
def lookupKey (kvs : List (Atom × PyVal)) (key : Atom) : Option PyVal := (kvs.find? (fun kv => kv.1.pyEq key)).map Prod.snd

/-- `v[key]` with a string. (for model_dict["factors"] in process_model.py:71) -/
def PyVal.getItem (v : PyVal) (key : String) : Py PyVal :=
  match v with
  | .dict kvs => (lookupKey kvs (.str key)).elim (.error .keyError) .ok
  | _ => .error .typeError

/-- `v.get(key, default)`. (for process_model.py:75-78) -/
def PyVal.get (v : PyVal) (key : String) (default : PyVal) : Py PyVal :=
  match v with
  | .dict kvs => .ok ((lookupKey kvs (.str key)).getD default)
  | _ => .error .attributeError

/-- `v.items()`. (for process_model.py:71, check_model.py:137) -/
def PyVal.items (v : PyVal) : Py (List (Atom × PyVal)) :=
  match v with
  | .dict kvs => .ok kvs
  | _ => .error .attributeError

/-- `len(v)`. (for process_model.py:71-77) -/
def PyVal.len (v : PyVal) : Py Nat :=
  match v with
  | .atom (.str s) => .ok s.toList.length
  | .tuple xs => .ok xs.length
  | .list xs => .ok xs.length
  | .dict kvs => .ok kvs.length
  | _ => .error .typeError

/-- `list(v)`: the characters of a string, the elements of a tuple or list, the keys of a dictionary. (for process_model.py:100-102 and 163) -/
def PyVal.toList (v : PyVal) : Py (List PyVal) :=
  match v with
  | .atom (.str s) => .ok (s.toList.map (fun c => .atom (.str (String.singleton c))))
  | .tuple xs => .ok xs
  | .list xs => .ok xs
  | .dict kvs => .ok (kvs.map (fun kv => .atom kv.1))
  | _ => .error .typeError

/-- `v[i]` with an integer. (for check_model.py:124) -/
def PyVal.index (v : PyVal) (i : Nat) : Py PyVal :=
  match v with
  | .atom (.str s) => (pyIndex s.toList i).map (fun c => .atom (.str (String.singleton c)))
  | .tuple xs => pyIndex xs i
  | .list xs => pyIndex xs i
  | .dict kvs => (lookupKey kvs (.int i)).elim (.error .keyError) .ok
  | _ => .error .typeError

/-- `a == v` for a key `a`: tuples, lists, dictionaries and other objects are different from all keys. (for check_model.py:124) -/
def PyVal.eqAtom (a : Atom) : PyVal → Bool
  | .atom b => b.pyEq a
  | _ => false

/-- `a in v`; for strings the search for a part of the string. (for check_model.py:124) -/
def PyVal.contains (v : PyVal) (a : Atom) : Py Bool :=
  match v with
  | .atom (.str s) => match a with
    | .str t => .ok (decide (t.toList <:+: s.toList))
    | _ => .error .typeError
  | .tuple xs => .ok (xs.any (PyVal.eqAtom a))
  | .list xs => .ok (xs.any (PyVal.eqAtom a))
  | .dict kvs => .ok (kvs.any (fun kv => kv.1.pyEq a))
  | _ => .error .typeError

/-- `isinstance(v, (int, str, tuple))`; booleans are integers. (check_model.py:65 and 88) -/
def PyVal.isName : PyVal → Bool
  | .atom (.str _) => true
  | .atom (.int _) => true
  | .atom (.bool _) => true
  | .tuple _ => true
  | _ => false

/-- `isinstance(v, bool)`. (check_model.py:59-74) -/
def PyVal.isBool : PyVal → Bool
  | .atom (.bool _) => true
  | _ => false

/-- `isinstance(v, list)`. (check_model.py:79) -/
def PyVal.isList : PyVal → Bool
  | .list _ => true
  | _ => false

/-- process_model.py:59-81 `get_dimensions`; the entries that are used by check_model, and the number of mixture elements. -/
structure RawDimensions where
  nPeriods : Nat
  nControls : Nat
  nMixtures : PyVal

/-- process_model.py:59-81 `get_dimensions` -/
def rawDimensions (m : PyVal) : Py RawDimensions := do
  let factors ← m.getItem "factors"
  let items ← factors.items
  let allNPeriods ← items.mapM (fun kv => do
    let measurements ← kv.2.getItem "measurements"
    measurements.len)
  let observed ← m.get "observed_factors" (.list [])
  let _ ← observed.len
  let nPeriods ← pyMax allNPeriods
  let controls ← m.get "controls" (.list [])
  let nControls ← controls.len
  let options ← m.getItem "estimation_options"
  let nMixtures ← options.get "n_mixtures" (.atom (.int 1))
  pure { nPeriods := nPeriods, nControls := nControls + 1, nMixtures := nMixtures }

/-- Insert into a strictly increasing list. (for `sorted(np.unique(stagemap))` in process_model.py:105) -/
def insertUniqRat (x : Rat) : List Rat → List Rat
  | [] => [x]
  | y :: ys => if x < y then x :: y :: ys else if x = y then y :: ys else y :: insertUniqRat x ys

/-- The integer or float that a value is. Differences of arrays of booleans are not defined in numpy. (for the stagemap in process_model.py:97-105) -/
def PyVal.number : PyVal → Option Rat
  | .atom (.int z) => some z
  | .atom (.float x) => some x
  | _ => Option.none

/-- The entries of a stagemap that is a list or tuple of integers and floats. (for process_model.py:97-105) -/
def PyVal.numbers : PyVal → Option (List Rat)
  | .list xs => xs.mapM PyVal.number
  | .tuple xs => xs.mapM PyVal.number
  | _ => Option.none

/-- process_model.py:84-110 `_get_labels`, without the stages. -/
structure RawLabels where
  latentFactors : List PyVal
  observedFactors : List PyVal
  controls : List PyVal
  stagemap : PyVal

/-- process_model.py:84-110 `_get_labels`, without the stages (they are computed by `rawStagemap`). -/
def rawLabels (m : PyVal) (d : RawDimensions) : Py RawLabels := do
  let stagemap ← m.get "stagemap" (.list ((List.range (d.nPeriods - 1)).map (fun (i : Nat) => .atom (.int i))))
  let factors ← m.getItem "factors"
  let latent ← factors.toList
  let observed ← (← m.get "observed_factors" (.list [])).toList
  let controls ← (← m.get "controls" (.list [])).toList
  pure { latentFactors := latent, observedFactors := observed, controls := .atom (.str "constant") :: controls, stagemap := stagemap }

/-- process_model.py:105 and check_model.py:41-54 `_check_stagemap`: the report for the stagemap. -/
def rawStagemap (odd : PyVal → Nat → Py (List String)) (stagemap : PyVal) (nPeriods : Nat) : Py (List String) :=
  match stagemap.numbers with
  | some sm =>
    let stages := sm.foldr insertUniqRat []
    .ok ((if (sm.length : Int) ≠ (nPeriods : Int) - 1 then ["stagemap length"] else [])
      ++ (if stages ≠ (List.range stages.length).map (fun (i : Nat) => (i : Rat)) then ["stages"] else [])
      ++ (if ¬ ((List.zipWith (fun a b => a - b) (sm.drop 1) sm.dropLast).all (fun x => decide (x = 0 ∨ x = 1))) then ["stagemap steps"] else []))
  | none => odd stagemap nPeriods

/-- process_model.py:140-165 `_process_anchoring`: the entries that check_model looks at. -/
structure RawAnchoring where
  outcomes : PyVal
  freeControls : PyVal
  freeConstant : PyVal
  freeLoadings : PyVal

/-- The argument of `dict.update`: a dictionary, or something that consists of pairs. Later pairs win, so they come first here. Pairs whose key is a tuple or another object are left out, and all tuples count as hashable. (for process_model.py:161) -/
def PyVal.pairs (v : PyVal) : Py (List (Atom × PyVal)) :=
  match v with
  | .dict kvs => .ok kvs
  | v => do
    let elements ← v.toList
    let pairs ← elements.mapM (fun x => do
      let entries ← x.toList
      match entries with
      | [.atom a, y] => pure [(a, y)]
      | [.tuple _, _] => pure []
      | [.other _, _] => pure []
      | [_, _] => .error .typeError
      | _ => .error .valueError)
    pure pairs.flatten.reverse

/-- process_model.py:140-165 `_process_anchoring` -/
def rawAnchoring (m : PyVal) : Py RawAnchoring :=
  match m with
  | .dict kvs =>
    match lookupKey kvs (.str "anchoring") with
    | none => pure { outcomes := .dict [], freeControls := .atom (.bool false), freeConstant := .atom (.bool false), freeLoadings := .atom (.bool false) }
    | some user => do
      let pairs ← user.pairs
      let entry := fun (key : String) (default : PyVal) => (lookupKey pairs (.str key)).getD default
      let outcomes := entry "outcomes" (.dict [])
      let _ ← outcomes.toList
      pure { outcomes := outcomes, freeControls := entry "free_controls" (.atom (.bool false)), freeConstant := entry "free_constant" (.atom (.bool false))
             freeLoadings := entry "free_loadings" (.atom (.bool false)) }
  | _ => .error .typeError

/-- check_model.py:57-75 `_check_anchoring` -/
def rawCheckAnchoring (a : RawAnchoring) : List String :=
  (match a.outcomes with
    | .dict kvs => kvs.flatMap (fun kv => if kv.2.isName then [] else ["outcomes variables"])
    | _ => ["outcomes"])
  ++ (if a.freeControls.isBool then [] else ["free_controls"])
  ++ (if a.freeConstant.isBool then [] else ["free_constant"])
  ++ (if a.freeLoadings.isBool then [] else ["free_loadings"])

/-- The elements of a list. (check_model.py:88) -/
def PyVal.elements : PyVal → List PyVal
  | .list xs => xs
  | _ => []

/-- check_model.py:78-94 `_check_measurements` for one factor, with `_is_list_of` of check_model.py:146-161. -/
def rawCheckMeasurements (candidate : PyVal) : List String :=
  match candidate with
  | .list xs =>
    if xs.all PyVal.isList then
      (xs.flatMap PyVal.elements).flatMap (fun meas => if meas.isName then [] else ["measurement name"])
    else ["measurements"]
  | _ => ["measurements"]

/-- The text of a key in a report. (check_model.py:125-129) -/
def Atom.text : Atom → String
  | .str s => s
  | _ => ""

/-- check_model.py:120-131 `_check_normalized_variables_are_present` -/
def rawCheckPresent (normDicts : List (List (Atom × PyVal))) (measurements : PyVal) : Py (List String) := do
  let reports ← normDicts.zipIdx.mapM (fun x =>
    x.1.mapM (fun kv => do
      let meas ← measurements.index x.2
      let found ← meas.contains kv.1
      pure (if found then [] else ["not a measurement: " ++ kv.1.text])))
  pure (reports.map List.flatten).flatten

/-- check_model.py:134-143 `_check_loadings_are_not_normalized_to_zero` -/
def rawCheckNotZero (normDicts : List (List (Atom × PyVal))) : List String :=
  normDicts.flatMap (fun nd => nd.flatMap (fun kv => if kv.2.eqAtom (.int 0) then ["normalized to 0: " ++ kv.1.text] else []))

/-- The entries of a dictionary. (check_model.py:161) -/
def PyVal.entries : PyVal → Option (List (Atom × PyVal))
  | .dict kvs => some kvs
  | _ => Option.none

/-- The dictionaries in a list of dictionaries; none if it is no list of dictionaries. (check_model.py:104-109) -/
def PyVal.normDicts : PyVal → Option (List (List (Atom × PyVal)))
  | .list xs => xs.mapM PyVal.entries
  | _ => Option.none

/-- check_model.py:97-117 `_check_normalizations` for one factor. -/
def rawCheckNormalizations (spec : PyVal) : Py (List String) := do
  let norminfo ← spec.get "normalizations" (.dict [])
  let loadings ← norminfo.get "loadings" (.list [])
  let r1 ← match loadings.normDicts with
    | none => pure ["normalizations"]
    | some ds => do
      let r ← rawCheckPresent ds (← spec.getItem "measurements")
      pure (r ++ rawCheckNotZero ds)
  let intercepts ← norminfo.get "intercepts" (.list [])
  let r2 ← match intercepts.normDicts with
    | none => pure ["normalizations"]
    | some ds => do
      let r ← rawCheckPresent ds (← spec.getItem "measurements")
      pure r
  pure (r1 ++ r2)

/-- check_model.py:4-38 `check_model` -/
def rawCheckModel (odd : PyVal → Nat → Py (List String)) (m : PyVal) (l : RawLabels) (d : RawDimensions) (a : RawAnchoring) : Py Unit := do
  let r1 ← rawStagemap odd l.stagemap d.nPeriods
  let r2 := rawCheckAnchoring a
  let factors ← m.getItem "factors"
  let items ← factors.items
  let r3 ← items.mapM (fun kv => do
    let measurements ← kv.2.getItem "measurements"
    pure (rawCheckMeasurements measurements))
  let r4 ← items.mapM (fun kv => rawCheckNormalizations kv.2)
  if r1 ++ r2 ++ r3.flatten ++ r4.flatten ≠ [] then .error .valueError else .ok ()

/-- process_model.py:40-43: the part of process_model before the transition functions are looked up; returns the labels. -/
def rawProcess (odd : PyVal → Nat → Py (List String)) (m : PyVal) : Py RawLabels := do
  let d ← rawDimensions m
  let l ← rawLabels m d
  let a ← rawAnchoring m
  rawCheckModel odd m l d a
  pure l

end Skill
