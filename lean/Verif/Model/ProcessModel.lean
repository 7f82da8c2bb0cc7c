import Verif.Model.ModelDict
import Verif.Model.TransitionNames
/-
skillmodels/process_model.py and skillmodels/check_model.py
-/
namespace Skill
variable {α : Type}

/-- process_model.py:59-81 (result) -/
structure Dimensions where
  nLatentFactors : Nat
  nObservedFactors : Nat
  nPeriods : Nat
  nControls : Nat
  nMixtures : Nat
  nAllFactors : Nat
  deriving DecidableEq, Repr

/-- `max(xs)` of Python, ValueError on the empty list (process_model.py:75). -/
def pyMax : List Nat → Py Nat
  | [] => .error .valueError
  | x :: xs => .ok (xs.foldl max x)

/-- process_model.py:59-81 `get_dimensions`. The missing key "estimation_options" is a KeyError
(line 78); an empty "factors" section a ValueError (line 75). -/
def getDimensions (m : ModelDict α) : Py Dimensions := do
  let allNPeriods := m.factors.map (fun fs => fs.2.measurements.length)
  let nLatent := m.factors.length
  let nObserved := (m.observedFactors.getD []).length
  let nPeriods ← pyMax allNPeriods
  let nControls := (m.controls.getD []).length + 1
  let opts ← match m.estimationOptions with
    | some o => .ok o
    | none => .error .keyError
  pure { nLatentFactors := nLatent
         nObservedFactors := nObserved
         nPeriods := nPeriods
         nControls := nControls
         nMixtures := opts.nMixtures.getD 1
         nAllFactors := nLatent + nObserved }

/-- process_model.py:84-110 (result), plus "transition_names" added in line 45. -/
structure Labels where
  latentFactors : List String
  observedFactors : List String
  controls : List String
  periods : List Nat
  stagemap : List Int
  stages : List Int
  allFactors : List String
  transitionNames : List String
  deriving DecidableEq, Repr

/-- Insert into a strictly increasing list. (for `sortedUnique`, process_model.py:105) -/
def insertUniq (x : Int) : List Int → List Int
  | [] => [x]
  | y :: ys => if x < y then x :: y :: ys else if x = y then y :: ys else y :: insertUniq x ys

/-- `sorted(np.unique(xs))` (process_model.py:105): the distinct entries in increasing order. -/
def npUnique (xs : List Int) : List Int := xs.foldr insertUniq []

/-- process_model.py:84-110 `_get_labels`; `transitionNames` is filled later (line 45). -/
def getLabels (m : ModelDict α) (d : Dimensions) : Labels :=
  let stagemap := m.stagemap.getD ((List.range (d.nPeriods - 1)).map Int.ofNat)
  let latent := Dict.keys m.factors
  let observed := m.observedFactors.getD []
  { latentFactors := latent
    observedFactors := observed
    controls := "constant" :: m.controls.getD []
    periods := List.range d.nPeriods
    stagemap := stagemap
    stages := npUnique stagemap
    allFactors := latent ++ observed
    transitionNames := [] }

/-- process_model.py:113-137 (result). -/
structure EstOptions (α : Type) where
  sigmaPointsScale : α
  robustBounds : Bool
  boundsDistance : α
  clippingLowerBound : Option α
  clippingUpperBound : Option α
  clippingLowerHardness : α
  clippingUpperHardness : α
  nMixtures : Option Nat
  deriving DecidableEq, Repr

/-- process_model.py:113-137 `_process_estimation_options`. `default_options.update(user)` is
field-wise "user value if present, else default". -/
def processEstimationOptions [OfScientific α] [Neg α] [Zero α] [One α] [OfNat α 2]
    (m : ModelDict α) : EstOptions α :=
  let u : EstSpec α := m.estimationOptions.getD {}
  let robust := u.robustBounds.getD true
  let dist := u.boundsDistance.getD 1e-3
  { sigmaPointsScale := u.sigmaPointsScale.getD 2
    robustBounds := robust
    boundsDistance := if !robust then 0 else dist
    clippingLowerBound := u.clippingLowerBound.getD (some (-1e250))
    clippingUpperBound := u.clippingUpperBound.getD none
    clippingLowerHardness := u.clippingLowerHardness.getD 1
    clippingUpperHardness := u.clippingUpperHardness.getD 1
    nMixtures := u.nMixtures }

/-- process_model.py:140-165 (result). -/
structure AnchInfo where
  anchoring : Bool
  outcomes : Dict String
  factors : List String
  freeControls : Bool
  freeConstant : Bool
  freeLoadings : Bool
  ignoreConstant : Bool
  deriving DecidableEq, Repr

/-- process_model.py:140-165 `_process_anchoring`. -/
def processAnchoring (m : ModelDict α) : AnchInfo :=
  match m.anchoring with
  | none => { anchoring := false, outcomes := [], factors := [], freeControls := false,
              freeConstant := false, freeLoadings := false, ignoreConstant := false }
  | some a =>
    let outcomes := a.outcomes.getD []
    { anchoring := true
      outcomes := outcomes
      factors := Dict.keys outcomes
      freeControls := a.freeControls.getD false
      freeConstant := a.freeConstant.getD false
      freeLoadings := a.freeLoadings.getD false
      ignoreConstant := a.ignoreConstant.getD false }

/-! ### check_model.py -/

/-- check_model.py:41-54 `_check_stagemap`; the report is a list with one token per complaint. -/
def checkStagemap (stagemap stages : List Int) (nPeriods : Nat) : List String :=
  (if (stagemap.length : Int) ≠ (nPeriods : Int) - 1 then ["stagemap length"] else [])
  ++ (if stages ≠ (List.range stages.length).map Int.ofNat then ["stages"] else [])
  ++ (if ¬ ((List.zipWith (fun a b => a - b) (stagemap.drop 1) stagemap.dropLast).all
        (fun x => decide (x = 0 ∨ x = 1))) then ["stagemap steps"] else [])

/-- check_model.py:120-131 `_check_normalized_variables_are_present`. Line 124 indexes the list of
measurements, which raises an IndexError if the dict of a period beyond it is not empty. -/
def checkNormalizedVariablesArePresent (norm : List (Dict α)) (measurements : List (List String)) :
    Py (List String) := do
  let reports ← norm.zipIdx.mapM (fun (nd, period) =>
    nd.mapM (fun (var, _) => do
      let meas ← pyIndex measurements period
      pure (if meas.contains var then [] else ["not a measurement: " ++ var])))
  pure (reports.map List.flatten).flatten

/-- check_model.py:134-143 `_check_loadings_are_not_normalized_to_zero`. -/
def checkLoadingsNotZero [Zero α] [DecidableEq α] (norm : List (Dict α)) : List String :=
  norm.flatMap (fun nd => nd.flatMap (fun (var, val) =>
    if val = 0 then ["normalized to 0: " ++ var] else []))

/-- check_model.py:97-117 `_check_normalizations` (type checks always succeed on `ModelDict`). -/
def checkNormalizations [Zero α] [DecidableEq α] (m : ModelDict α) : Py (List String) := do
  let reports ← m.factors.mapM (fun (_, spec) => do
    let norminfo := spec.normalizations.getD {}
    let load := norminfo.loadings.getD []
    let r1 ← checkNormalizedVariablesArePresent load spec.measurements
    let r2 := checkLoadingsNotZero load
    let inter := norminfo.intercepts.getD []
    let r3 ← checkNormalizedVariablesArePresent inter spec.measurements
    pure (r1 ++ r2 ++ r3))
  pure reports.flatten

/-- check_model.py:4-38 `check_model`. `_check_anchoring` and `_check_measurements` (lines 57-94)
contain only type checks, which always succeed on the typed `ModelDict`. -/
def checkModel [Zero α] [DecidableEq α] (m : ModelDict α) (l : Labels) (d : Dimensions) :
    Py Unit := do
  let r1 := checkStagemap l.stagemap l.stages d.nPeriods
  let r2 ← checkNormalizations m
  let report := r1 ++ r2
  if report ≠ [] then .error .valueError else .ok ()

/-! ### transition info -/

/-- process_model.py:168-232 `_get_transition_info`, the entries "param_names" and
"function_names" (the functions themselves are modelled in Model/TransitionFunctions.lean). -/
structure TransInfo where
  paramNames : Dict (List String)
  functionNames : Dict String
  deriving DecidableEq, Repr

/-- process_model.py:175-198: names of one factor (parameter names, `__name__`). -/
def transitionNamesOf (allFactors : List String) : TransSpec → Py (List String × String)
  | .named s =>
    match builtinParamNames s with
    | some names => .ok (names allFactors, s)
    | none => .error .attributeError
  | .custom none _ => .error .attributeError
  | .custom (some _) none => .error .attributeError
  | .custom (some n) (some ps) => .ok (ps, n)

/-- process_model.py:168-232. Simplification: factors are not called "states", "params" or "__next_x__" (these are nodes of the graph in lines 201-216), and factors with the
transition function constant have names that are Python identifiers (line 180). -/
def getTransitionInfo (m : ModelDict α) (l : Labels) : Py TransInfo := do
  let infos ← m.factors.mapM (fun (f, spec) => do
    let r ← transitionNamesOf l.allFactors spec.transition
    pure (f, r))
  pure { paramNames := infos.map (fun x => (x.1, x.2.1))
         functionNames := infos.map (fun x => (x.1, x.2.2)) }

/-! ### update info -/

/-- process_model.py:305-318 `fill_list`. -/
def fillList {β : Type _} (short : List β) (fill : β) (length : Nat) : Py (List β) :=
  if short.length ≤ length then .ok (short ++ List.replicate (length - short.length) fill)
  else .error .assertionError

/-- Column "purpose" of update_info. (process_model.py:264, 269) -/
inductive Purpose
  | measurement | anchoring
  deriving DecidableEq, Repr

/-- One row of update_info: index (period, variable), the factor columns that are True, purpose. (process_model.py:235-275) -/
structure URow where
  period : Nat
  var : String
  trueCols : List String
  purpose : Purpose
  deriving DecidableEq, Repr

/-- process_model.py:263-264 / 268-269: the two statements
`uinfo.loc[(period, var), factor] = True; uinfo.loc[(period, var), "purpose"] = purp`.
An existing row is changed in place, a missing one is appended at the end. -/
def setRow (rows : List URow) (period : Nat) (var factor : String) (purp : Purpose) : List URow :=
  match rows with
  | [] => [⟨period, var, [factor], purp⟩]
  | r :: rs =>
    if r.period = period ∧ r.var = var then
      { r with trueCols := if factor ∈ r.trueCols then r.trueCols else r.trueCols ++ [factor]
               purpose := purp } :: rs
    else r :: setRow rs period var factor purp

/-- One assignment of the loop in process_model.py:260-269. -/
structure UAssign where
  period : Nat
  var : String
  factor : String
  purpose : Purpose

/-- process_model.py:267 `f"{outcome}_{factor}"`. -/
def anchoringName (outcome factor : String) : String := outcome ++ "_" ++ factor

/-- process_model.py:260-269: the assignments in the order the nested loops execute them. -/
def updateAssignments (periods : List Nat) (measurements : Dict (List (List String)))
    (outcomes : Dict String) : List UAssign :=
  periods.flatMap (fun period =>
    measurements.flatMap (fun (factor, ms) =>
      (ms.getD period []).map (fun meas => ⟨period, meas, factor, .measurement⟩))
    ++ outcomes.map (fun (factor, outcome) =>
      ⟨period, anchoringName outcome factor, factor, .anchoring⟩))

/-- process_model.py:235-275 `_get_update_info`. `fillna(False)` and `astype(bool)` are implicit:
a factor column is True iff the factor is in `trueCols`. The list index `measurements[f][period]`
never fails because fill_list returns lists of length n_periods (line 256-258). Simplification: no factor is called "purpose" (a column of the DataFrame). -/
def getUpdateInfo (m : ModelDict α) (d : Dimensions) (l : Labels) (a : AnchInfo) :
    Py (List URow) := do
  let measurements ← m.factors.mapM (fun (f, spec) => do
    let filled ← fillList spec.measurements [] d.nPeriods
    pure (f, filled))
  pure ((updateAssignments l.periods measurements a.outcomes).foldl
    (fun rows s => setRow rows s.period s.var s.factor s.purpose) [])

/-- process_model.py:278-302 (result, per factor). -/
structure NormInfo (α : Type) where
  loadings : List (Dict α)
  intercepts : List (Dict α)
  deriving DecidableEq, Repr

/-- process_model.py:278-302 `_process_normalizations`. -/
def processNormalizations (m : ModelDict α) (d : Dimensions) : Py (Dict (NormInfo α)) :=
  m.factors.mapM (fun (f, spec) => do
    let norminfo := spec.normalizations.getD {}
    let loadings ← fillList (norminfo.loadings.getD []) [] d.nPeriods
    let intercepts ← fillList (norminfo.intercepts.getD []) [] d.nPeriods
    pure (f, { loadings := loadings, intercepts := intercepts }))

/-- process_model.py:47-55. -/
structure Processed (α : Type) where
  dimensions : Dimensions
  labels : Labels
  anchoring : AnchInfo
  estimationOptions : EstOptions α
  transitionInfo : TransInfo
  updateInfo : List URow
  normalizations : Dict (NormInfo α)
  deriving DecidableEq, Repr

/-- process_model.py:16-56 `process_model`. -/
def processModel [OfScientific α] [Neg α] [Zero α] [One α] [OfNat α 2] [DecidableEq α]
    (m : ModelDict α) : Py (Processed α) := do
  let dims ← getDimensions m
  let labels := getLabels m dims
  let anchoring := processAnchoring m
  checkModel m labels dims
  let tinfo ← getTransitionInfo m labels
  let labels := { labels with transitionNames := tinfo.functionNames.map Prod.snd }
  let updateInfo ← getUpdateInfo m dims labels anchoring
  let normalizations ← processNormalizations m dims
  pure { dimensions := dims, labels := labels, anchoring := anchoring,
         estimationOptions := processEstimationOptions m, transitionInfo := tinfo,
         updateInfo := updateInfo, normalizations := normalizations }

/-- process_model.py:321-326 `get_period_measurements`. -/
def getPeriodMeasurements (u : List URow) (period : Nat) : List String :=
  (u.filter (fun r => r.period = period)).map URow.var

end Skill
