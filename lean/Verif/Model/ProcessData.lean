import Verif.Model.ProcessModel
import Mathlib.Logic.Function.Basic
/-
skillmodels/process_data.py. `V` is the type of data values, `none` is NaN. Ids and periods in the
user's data are integers (simplification: any sortable values work the same way).
-/
namespace Skill
variable {V : Type}

/-- One row of the user's long dataset: index (id, period) and the cells by column name. (argument df of process_data.py:10) -/
structure LongRow (V : Type) where
  id : Int
  period : Int
  cell : String → Option V

/-- A long dataset. pandas stores the values of the index levels separately from the rows
(`df.index.levels`); a level can contain values that no row has, e.g. after selecting rows. (argument df of process_data.py:10) -/
structure LongData (V : Type) where
  columns : List String
  idLevel : List Int
  periodLevel : List Int
  rows : List (LongRow V)

/-- One row of the processed DataFrame with index (id, period). The columns __old_id__ and __old_period__
are only used in a warning and not modelled. (process_data.py:63-77) -/
structure DataRow (V : Type) where
  id : Nat
  period : Nat
  cell : String → Option V

/-- The processed DataFrame. (process_data.py:79) -/
structure DataFrame (V : Type) where
  columns : List String
  rows : List (DataRow V)

/-- Position of a value in the sorted level (process_data.py:63,70): levels made by set_index or sort_index are sorted,
set_levels replaces the k-th value of a level by k. -/
def levelCode (level : List Int) (x : Int) : Nat := (level.filter (fun y => decide (y < x))).length

/-- process_data.py:50-79 `pre_process_data`. Reindexing raises a ValueError if an index tuple occurs twice. Line 73 (sorted unique codes) is the
list of codes that some row has, in increasing order. -/
def preProcessData (df : LongData V) (periods : List Nat) : Py (DataFrame V) :=
  let coded := df.rows.map (fun r => (levelCode df.idLevel r.id, levelCode df.periodLevel r.period, r.cell))
  if (coded.map (fun r => (r.1, r.2.1))).Nodup then
    let ids := (List.range df.idLevel.length).filter (fun i => coded.any (fun r => r.1 == i))
    .ok { columns := df.columns
          rows := ids.flatMap (fun i => periods.map (fun t =>
            { id := i
              period := t
              cell := match coded.find? (fun r => r.1 == i && r.2.1 == t) with
                | some r => r.2.2
                | none => fun _ => none })) }
  else .error .valueError

/-- `df[new] = values of each row`; a new column is added at the end. (process_data.py:33, 86) -/
def assignColumn (df : DataFrame V) (new : String) (value : DataRow V → Option V) : DataFrame V :=
  { columns := if new ∈ df.columns then df.columns else df.columns ++ [new]
    rows := df.rows.map (fun r => { r with cell := Function.update r.cell new (value r) }) }

/-- process_data.py:82-87 `_add_copies_of_anchoring_outcome` -/
def addCopiesOfAnchoringOutcome (df : DataFrame V) (a : AnchInfo) : Py (DataFrame V) :=
  a.factors.foldlM (fun df factor => do
    let outcome ← Dict.getItem a.outcomes factor
    if outcome ∈ df.columns then pure (assignColumn df (anchoringName outcome factor) (fun r => r.cell outcome))
    else .error .keyError) df

/-- `df.query(f"period == {period}")` (process_data.py:93, 124, 142, 149, 156) -/
def periodData (df : DataFrame V) (period : Nat) : List (DataRow V) := df.rows.filter (fun r => r.period == period)

/-- "estimation" or anything else (argument purpose of process_data.py:10) -/
inductive DataPurpose
  | estimation | simulation
  deriving DecidableEq, Repr

/-- `len(column.dropna().unique()) == 1`: a value occurs and all other non-missing values are equal to it. (process_data.py:102) -/
def hasNoVariance [DecidableEq V] (values : List (Option V)) : Bool :=
  match values.filterMap id with
  | [] => false
  | x :: xs => xs.all (fun y => decide (y = x))

/-- process_data.py:91-111: the list of problematic (period, variable). -/
def dataReport [DecidableEq V] (df : DataFrame V) (u : List URow) (l : Labels) (purpose : DataPurpose) : List (Nat × String) :=
  l.periods.flatMap (fun period =>
    let data := periodData df period
    (l.controls.filter (fun c => decide (c ∉ df.columns) || data.all (fun r => (r.cell c).isNone))).map (fun c => (period, c))
    ++ (if purpose = .estimation then
        ((getPeriodMeasurements u period).filter (fun v => decide (v ∉ df.columns) || hasNoVariance (data.map (fun r => r.cell v)))).map (fun v => (period, v))
      else [])
    ++ (l.observedFactors.filter (fun f => decide (f ∉ df.columns) || data.any (fun r => (r.cell f).isNone))).map (fun f => (period, f)))

/-- process_data.py:90-116 `_check_data` -/
def checkData [DecidableEq V] (df : DataFrame V) (u : List URow) (l : Labels) (purpose : DataPurpose) : Py Unit :=
  if dataReport df u l purpose = [] then .ok () else .error .valueError

/-- process_data.py:127: a control is missing although a measurement is observed. -/
def isProblem (controls measurements : List String) (r : DataRow V) : Bool :=
  controls.any (fun c => (r.cell c).isNone) && measurements.any (fun v => (r.cell v).isSome)

/-- process_data.py:119-136 `_handle_controls_with_missings`: line 135 sets the complete row to NaN. A missing column is a KeyError
(lines 125-126). -/
def handleControlsWithMissings (df : DataFrame V) (controls : List String) (u : List URow) : Py (DataFrame V) :=
  if u.all (fun row => (controls ++ getPeriodMeasurements u row.period).all (fun c => decide (c ∈ df.columns))) then
    .ok { df with rows := df.rows.map (fun r =>
      if u.any (fun row => row.period == r.period) && isProblem controls (getPeriodMeasurements u r.period) r then
        { r with cell := fun _ => none }
      else r) }
  else .error .keyError

/-- One column of the rows of a period; KeyError if it does not exist. (process_data.py:142, 149, 156) -/
def columnOf (df : DataFrame V) (period : Nat) (c : String) : Py (List (Option V)) :=
  if c ∈ df.columns then .ok ((periodData df period).map (fun r => r.cell c)) else .error .keyError

/-- process_data.py:139-143 `_generate_measurements_array`; index [update, individual]. -/
def generateMeasurementsArray (df : DataFrame V) (u : List URow) : Py (List (List (Option V))) :=
  u.mapM (fun row => columnOf df row.period row.var)

/-- process_data.py:38-39: only for the estimation. -/
def measurementsFor (purpose : DataPurpose) (df : DataFrame V) (u : List URow) : Py (Option (List (List (Option V)))) :=
  if purpose = .estimation then (generateMeasurementsArray df u).map some else .ok none

/-- process_data.py:146-150, 153-159: index [period, individual, variable]. -/
def generateArray (df : DataFrame V) (periods : List Nat) (vars : List String) : Py (List (List (List (Option V)))) :=
  periods.mapM (fun period =>
    if vars.all (fun c => decide (c ∈ df.columns)) then .ok ((periodData df period).map (fun r => vars.map r.cell))
    else .error .keyError)

/-- process_data.py:10-47 (result); `measurements` is none if the purpose is not estimation. -/
structure ProcessedData (V : Type) where
  measurements : Option (List (List (Option V)))
  controls : List (List (List (Option V)))
  observedFactors : List (List (List (Option V)))

/-- process_data.py:10-47 `process_data`. Line 36 computes the number of individuals, which the lists of the model carry with them
(it fails for a model without periods, which process_model does not accept). -/
def processData [DecidableEq V] [One V] (df : LongData V) (l : Labels) (u : List URow) (a : AnchInfo) (purpose : DataPurpose) : Py (ProcessedData V) := do
  let df ← preProcessData df l.periods
  let df := assignColumn df "constant" (fun _ => some 1)
  let df ← addCopiesOfAnchoringOutcome df a
  checkData df u l purpose
  let df ← handleControlsWithMissings df l.controls u
  let meas ← measurementsFor purpose df u
  let controls ← generateArray df l.periods l.controls
  let observed ← generateArray df l.periods l.observedFactors
  pure { measurements := meas, controls := controls, observedFactors := observed }

end Skill
