import Verif.Model.ProcessData
import Verif.Model.ParamsIndex
import Mathlib.Analysis.SpecialFunctions.Pow.Real
/-
skillmodels/correlation_heatmap.py, over the reals.

Not modelled: colors, fonts and layout of the figure, annotations.
-/
namespace Skill

/-! ### the heatmap -/

/-- A DataFrame of correlations: labels of rows and columns and the cells (row by row, `none` is NaN). (correlation_heatmap.py:86-111) -/
structure CorrTable where
  rows : List String
  cols : List String
  cells : List (List (Option ℝ))

/-- correlation_heatmap.py:234-242 `_get_mask`, entry [i, j]. -/
def maskEntry (showUpper showDiagonal : Bool) (i j : Nat) : Bool :=
  if j < i then true else if i < j then showUpper else showDiagonal

/-- `round` in correlation_heatmap.py:223, numpy's rint: the nearest integer, the even one if two are equally near. -/
noncomputable def rint (x : ℝ) : ℤ :=
  if x - ⌊x⌋ < 1 / 2 then ⌊x⌋ else if 1 / 2 < x - ⌊x⌋ then ⌊x⌋ + 1 else if ⌊x⌋ % 2 = 0 then ⌊x⌋ else ⌊x⌋ + 1

/-- correlation_heatmap.py:223: `x.round(digits)` of numpy and pandas for digits ≥ 0. -/
noncomputable def roundDigits (digits : Nat) (x : ℝ) : ℝ := rint (x * 10 ^ digits) / 10 ^ digits

/-- correlation_heatmap.py:226-230: selection of rows and columns with a boolean array: the entries at the positions where the mask is True. -/
def boolSelect {β : Type} : List Bool → List β → List β
  | b :: bs, x :: xs => if b then x :: boolSelect bs xs else boolSelect bs xs
  | _, _ => []

/-- correlation_heatmap.py:222-223: `corr.where(mask).round(rounding)`. -/
noncomputable def maskCells (rounding : Nat) (showUpper showDiagonal : Bool) (cells : List (List (Option ℝ))) : List (List (Option ℝ)) :=
  cells.mapIdx (fun i row => row.mapIdx (fun j x => if maskEntry showUpper showDiagonal i j then x.map (roundDigits rounding) else none))

/-- correlation_heatmap.py:218-231 `_process_corr_data_for_plotting`. In lines 225 and 228 the mask can be ignored: cells outside the mask are NaN after line 223. -/
noncomputable def processCorrDataForPlotting (corr : CorrTable) (rounding : Nat) (showUpper showDiagonal trim : Bool) : CorrTable :=
  let cells := maskCells rounding showUpper showDiagonal corr.cells
  if trim then
    let keeprows := cells.map (fun row => row.any Option.isSome)
    let cells := boolSelect keeprows cells
    let keepcols := (List.range corr.cols.length).map (fun j => cells.any (fun row => (row.getD j none).isSome))
    { rows := boolSelect keeprows corr.rows, cols := boolSelect keepcols corr.cols, cells := cells.map (boolSelect keepcols) }
  else { corr with cells := cells }

/-- correlation_heatmap.py:724: `np.abs(corr.to_numpy())[np.tril_indices_from(corr, k=-1)]`, row by row. -/
def lowerCells (corr : CorrTable) : List (Option ℝ) := (corr.cells.mapIdx (fun i row => row.take i)).flatten

/-- correlation_heatmap.py:723-724: the default of `zmax`. The maximum of an empty array raises a ValueError, the maximum of an array with NaN is NaN. -/
noncomputable def defaultZmax (corr : CorrTable) : Py (Option ℝ) :=
  match lowerCells corr with
  | [] => .error .valueError
  | x :: xs => .ok (xs.foldl (fun a b => do
      let a ← a
      let b ← b
      pure (max a |b|)) (x.map (|·|)))

/-- correlation_heatmap.py:86-91, 103-109 and 723-724: table and upper end of the color scale in plot_correlation_heatmap; `zmax` is the argument of the user. -/
noncomputable def plotCorrelationHeatmap (corr : CorrTable) (rounding : Nat) (showUpper showDiagonal trim : Bool) (zmax : Option ℝ) : Py (CorrTable × Option ℝ) := do
  let table := processCorrDataForPlotting corr rounding showUpper showDiagonal trim
  let z ← match zmax with
    | some z => pure (some z)
    | none => defaultZmax table
  pure (table, z)

/-! ### factors and periods -/

/-- correlation_heatmap.py:572-592, the argument `factors`: None, the name of a factor or a list of names. -/
inductive FactorsArg
  | all
  | name (factor : String)
  | names (factors : List String)

/-- correlation_heatmap.py:595-601, the argument `periods`: None, one period or a list. Simplification: periods are natural numbers. -/
inductive PeriodsArg
  | all
  | single (period : Nat)
  | list (periods : List Nat)

/-- correlation_heatmap.py:572-592 `_process_factors`; the empty string and the empty list are falsy. -/
def processFactors (labels : Labels) : FactorsArg → Py (List String × List String)
  | .all => .ok (labels.latentFactors, labels.observedFactors)
  | .name factor =>
    if factor = "" then .ok (labels.latentFactors, labels.observedFactors)
    else if factor ∈ labels.latentFactors then .ok ([factor], [])
    else if factor ∈ labels.observedFactors then .ok ([], [factor])
    else .error .unboundLocalError
  | .names factors =>
    if factors = [] then .ok (labels.latentFactors, labels.observedFactors)
    else .ok (factors.filter (fun f => decide (f ∈ labels.latentFactors)),
      factors.filter (fun f => decide (f ∉ labels.latentFactors) && decide (f ∈ labels.observedFactors)))

/-- correlation_heatmap.py:595-601 `_process_periods` -/
def processPeriods (dimensions : Dimensions) : PeriodsArg → List Nat
  | .all => List.range dimensions.nPeriods
  | .single p => [p]
  | .list ps => ps

/-! ### the data -/

/-- Values of the DataFrames in correlation_heatmap.py:245-569: a number of a float column. `infinite` is inf, -inf or a NaN that results from adding them. -/
inductive FVal
  | num (x : ℝ)
  | nan
  | infinite

/-- correlation_heatmap.py:305, 403, 524: a value of the user's data (after pre_process_data). -/
def FVal.ofCell : Option ℝ → FVal
  | some x => .num x
  | none => .nan

/-- correlation_heatmap.py:245-569: a DataFrame with one row for each individual, as list of (column name, values). -/
abbrev Frame := List (String × List FVal)

/-- correlation_heatmap.py:300-302, 400-402, 518-520: names that pandas accepts as a column in a query. Simplification: only ASCII letters, digits and underscores; the names of the other columns and of the index are errors, too. -/
def queryName (name : String) : Bool :=
  match name.toList with
  | [] => false
  | c :: cs => (c.isAlpha || c == '_') && cs.all (fun d => d.isAlphanum || d == '_') &&
      !(["and", "or", "not", "in", "is", "if", "else", "True", "False", "None", "as", "assert", "async", "await", "break", "class", "continue", "def", "del", "elif", "except", "finally",
        "for", "from", "global", "import", "lambda", "nonlocal", "pass", "raise", "return", "try", "while", "with", "yield", "purpose", "variable", "index", "level_0", "period"].contains name)

/-- correlation_heatmap.py:296, 397, 508: `update_info.loc[period].reset_index()` -/
def periodInfo (u : List URow) (period : Nat) : Py (List URow) :=
  match u.filter (fun r => decide (r.period = period)) with
  | [] => .error .keyError
  | rows => .ok rows

/-- correlation_heatmap.py:300-302, 400-402, 518-520: the query for the measurements of a factor. -/
def factorMeasurements (info : List URow) (factor : String) : Py (List String) :=
  if queryName factor then .ok ((info.filter (fun r => decide (factor ∈ r.trueCols) && decide (r.purpose = .measurement))).map URow.var)
  else .error .syntaxError

/-- correlation_heatmap.py:305, 403, 411, 524, 533: one column of `data.query("period==...")`. -/
def periodColumn (data : DataFrame ℝ) (period : Nat) (name : String) : Py (List FVal) :=
  if name ∈ data.columns then .ok ((data.rows.filter (fun r => decide (r.period = period))).map (fun r => FVal.ofCell (r.cell name)))
  else .error .keyError

/-- correlation_heatmap.py:305, 411, 533: a column with its name. -/
def namedColumn (data : DataFrame ℝ) (period : Nat) (name : String) : Py (String × List FVal) := do
  let values ← periodColumn data period name
  pure (name, values)

/-- correlation_heatmap.py:277-306 `_get_measurement_data_for_single_period` -/
def measurementDataSingle (data : DataFrame ℝ) (u : List URow) (latent observed : List String) (period : Nat) : Py Frame := do
  let info ← periodInfo u period
  let measurements ← latent.mapM (factorMeasurements info)
  (measurements.flatten ++ observed).mapM (namedColumn data period)

/-- correlation_heatmap.py:334, 442, 565: `df.add_suffix(f", {period}")` -/
def addSuffix (period : Nat) (frame : Frame) : Frame := frame.map (fun c => (c.1 ++ ", " ++ toString period, c.2))

/-- correlation_heatmap.py:265-274 and 328-338, and in the same way 365-375, 436-446, 474-484 and 559-569: one period or several. All frames have a row for each individual, in the same order. -/
def frameOfPeriods (single : Nat → Py Frame) : List Nat → Py Frame
  | [] => .error .valueError
  | [p] => single p
  | ps => do
    let frames ← ps.mapM (fun p => do
      let frame ← single p
      pure (addSuffix p frame))
    pure frames.flatten

/-! ### scores -/

/-- correlation_heatmap.py:406-407, 529: the numbers in a column, as used by `mean` and `std`. -/
def FVal.numbers (xs : List FVal) : List ℝ := xs.filterMap (fun
  | .num x => some x
  | _ => none)

/-- correlation_heatmap.py:407, 529: `mean` with skipna: NaN if there are no numbers, not finite with an infinite value. -/
noncomputable def FVal.mean (xs : List FVal) : FVal :=
  if xs.any (fun x => match x with | .infinite => true | _ => false) then .infinite
  else match FVal.numbers xs with
    | [] => .nan
    | ys => .num (ys.sum / ys.length)

/-- correlation_heatmap.py:407, 529: `df.mean(axis=1)` for columns with `k` entries each. -/
noncomputable def rowMeans (k : Nat) (columns : List (List FVal)) : List FVal := (List.range k).map (fun i => FVal.mean (columns.map (fun c => c.getD i .nan)))

/-- correlation_heatmap.py:406, 527: `x / y` of floats for a finite `y`. -/
noncomputable def FVal.div : FVal → ℝ → FVal
  | .num x, y => open Classical in if y = 0 then (if x = 0 then .nan else .infinite) else .num (x / y)
  | x, _ => x

/-- correlation_heatmap.py:406, 527: `x - y` of floats for a finite `y`. -/
def FVal.sub : FVal → ℝ → FVal
  | .num x, y => .num (x - y)
  | x, _ => x

/-- correlation_heatmap.py:406: `(df - df.mean()) / df.std()` for one column of data (there are no infinite values). The standard deviation of fewer than two values is NaN. -/
noncomputable def standardize (xs : List FVal) : List FVal :=
  let ys := FVal.numbers xs
  let mean := ys.sum / ys.length
  let sd := Real.sqrt ((ys.map (fun y => (y - mean) ^ 2)).sum / (ys.length - 1))
  xs.map (fun x => if ys.length < 2 then .nan else (x.sub mean).div sd)

/-- correlation_heatmap.py:403, 524: number of rows of the selected period. -/
def periodLength (data : DataFrame ℝ) (period : Nat) : Nat := (data.rows.filter (fun r => decide (r.period = period))).length

/-- correlation_heatmap.py:413, 535: `pd.concat(to_concat, axis=1)`; without columns it raises a ValueError. -/
def concatColumns (columns : Frame) : Py Frame :=
  match columns with
  | [] => .error .valueError
  | cs => .ok cs

/-- correlation_heatmap.py:378-414 `_get_quasi_factor_scores_data_for_single_period` -/
noncomputable def quasiScoresSingle (data : DataFrame ℝ) (u : List URow) (latent observed : List String) (period : Nat) : Py Frame := do
  let info ← periodInfo u period
  let scores ← latent.mapM (fun factor => do
    let measurements ← factorMeasurements info factor
    let columns ← measurements.mapM (periodColumn data period)
    pure (factor, rowMeans (periodLength data period) (columns.map standardize)))
  let obs ← observed.mapM (namedColumn data period)
  concatColumns (scores ++ obs)

/-- correlation_heatmap.py:527: `sr.loc[key]` for a Series, here as list of (key, value). -/
def seriesLoc {κ : Type} [DecidableEq κ] (series : List (κ × ℝ)) (key : κ) : Py ℝ :=
  match series.find? (fun kv => decide (kv.1 = key)) with
  | some kv => .ok kv.2
  | none => .error .keyError

/-- correlation_heatmap.py:509-510: the loadings of a period with index (name1, name2). -/
def periodLoadings (params : List (Loc × ℝ)) (period : Nat) : List ((String × String) × ℝ) :=
  (params.filter (fun lx => decide (lx.1.cat = .loadings) && decide (lx.1.period = period))).map (fun lx => ((lx.1.name1, lx.1.name2), lx.2))

/-- correlation_heatmap.py:511-513: the intercepts of a period with index name1. -/
def periodIntercepts (params : List (Loc × ℝ)) (period : Nat) : List (String × ℝ) :=
  (params.filter (fun lx => decide (lx.1.cat = .controls) && decide (lx.1.period = period) && decide (lx.1.name2 = "constant"))).map (fun lx => (lx.1.name1, lx.2))

/-- correlation_heatmap.py:514-515: measurements with several nonzero loadings. -/
noncomputable def leaveOut (loadings : List ((String × String) × ℝ)) (measurement : String) : Bool :=
  open Classical in decide (1 < (loadings.filter (fun kv => decide (kv.1.1 = measurement) && decide (kv.2 ≠ 0))).length)

/-- correlation_heatmap.py:487-536 `_get_factor_scores_data_for_single_period` -/
noncomputable def scoresSingle (data : DataFrame ℝ) (params : List (Loc × ℝ)) (u : List URow) (latent observed : List String) (period : Nat) : Py Frame := do
  let info ← periodInfo u period
  let loadings := periodLoadings params period
  let intercepts := periodIntercepts params period
  if loadings = [] || params.all (fun lx => decide (¬(lx.1.cat = .controls ∧ lx.1.period = period))) then .error .keyError
  else do
    let scores ← latent.mapM (fun factor => do
      let measurements ← factorMeasurements info factor
      let columns ← (measurements.filter (fun m => !leaveOut loadings m)).mapM (fun m => do
        let values ← periodColumn data period m
        let intercept ← seriesLoc intercepts m
        let loading ← seriesLoc loadings (m, factor)
        pure (values.map (fun x => (x.sub intercept).div loading)))
      pure (factor, rowMeans (periodLength data period) columns))
    let obs ← observed.mapM (namedColumn data period)
    concatColumns (scores ++ obs)

/-! ### correlations -/

/-- correlation_heatmap.py:142, 178, 214, `df.corr()` of pandas: pairs of values of two columns that are both finite. -/
def finitePairs (xs ys : List FVal) : List (ℝ × ℝ) := (xs.zip ys).filterMap (fun
  | (.num x, .num y) => some (x, y)
  | _ => none)

/-- correlation_heatmap.py:142, 178, 214: `df.corr()` of pandas for two columns: the correlation over the rows in which both are finite, NaN if a variance is zero. -/
noncomputable def pearson (xs ys : List FVal) : Option ℝ :=
  let pairs := finitePairs xs ys
  let mx := (pairs.map Prod.fst).sum / pairs.length
  let my := (pairs.map Prod.snd).sum / pairs.length
  let sxx := (pairs.map (fun p => (p.1 - mx) ^ 2)).sum
  let syy := (pairs.map (fun p => (p.2 - my) ^ 2)).sum
  let sxy := (pairs.map (fun p => (p.1 - mx) * (p.2 - my))).sum
  let divisor := Real.sqrt (sxx * syy)
  open Classical in if divisor = 0 then none else some (sxy / divisor)

/-- correlation_heatmap.py:142, 178, 214: `df.corr()` -/
noncomputable def corrOf (frame : Frame) : CorrTable where
  rows := frame.map Prod.fst
  cols := frame.map Prod.fst
  cells := frame.map (fun c => frame.map (fun d => pearson c.2 d.2))

/-- correlation_heatmap.py:114-143 `get_measurements_corr` -/
noncomputable def getMeasurementsCorr {α : Type} [OfScientific α] [Neg α] [Zero α] [One α] [OfNat α 2] [DecidableEq α] (df : LongData ℝ) (m : ModelDict α) (factors : FactorsArg) (periods : PeriodsArg) :
    Py CorrTable := do
  let pm ← processModel m
  let periods := processPeriods pm.dimensions periods
  let data ← preProcessData df periods
  let (latent, observed) ← processFactors pm.labels factors
  let frame ← frameOfPeriods (measurementDataSingle data pm.updateInfo latent observed) periods
  pure (corrOf frame)

/-- correlation_heatmap.py:146-179 `get_quasi_scores_corr` -/
noncomputable def getQuasiScoresCorr {α : Type} [OfScientific α] [Neg α] [Zero α] [One α] [OfNat α 2] [DecidableEq α] (df : LongData ℝ) (m : ModelDict α) (factors : FactorsArg) (periods : PeriodsArg) :
    Py CorrTable := do
  let pm ← processModel m
  let periods := processPeriods pm.dimensions periods
  let data ← preProcessData df periods
  let (latent, observed) ← processFactors pm.labels factors
  let frame ← frameOfPeriods (quasiScoresSingle data pm.updateInfo latent observed) periods
  pure (corrOf frame)

/-- correlation_heatmap.py:182-215 `get_scores_corr`. A category without parameters is a KeyError in `params.loc[["controls", "loadings"]]`. -/
noncomputable def getScoresCorr {α : Type} [OfScientific α] [Neg α] [Zero α] [One α] [OfNat α 2] [DecidableEq α] (df : LongData ℝ) (params : List (Loc × ℝ)) (m : ModelDict α) (factors : FactorsArg)
    (periods : PeriodsArg) : Py CorrTable := do
  let pm ← processModel m
  let periods := processPeriods pm.dimensions periods
  let data ← preProcessData df periods
  let (latent, observed) ← processFactors pm.labels factors
  if params.all (fun lx => decide (lx.1.cat ≠ .controls)) || params.all (fun lx => decide (lx.1.cat ≠ .loadings)) then .error .keyError
  else do
    let frame ← frameOfPeriods (scoresSingle data params pm.updateInfo latent observed) periods
    pure (corrOf frame)

end Skill
