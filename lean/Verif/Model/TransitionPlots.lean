import Verif.Model.Pipeline
import Verif.Model.DebugData
import Mathlib.Data.List.Sort
/-
skillmodels/visualize_transition_equations.py. A plot is the list of its traces (a trace is a list of points) together with the titles of its axes; colors, fonts and sizes are not modelled.

Simplifications: a plotly figure with subplots is the list of its cells; missing values that enter the computation of a curve are a number `nan` about which nothing is assumed;
`period` is not negative.
-/
namespace Skill

/-! ### combine_transition_plots -/

/-- The arguments column_order and row_order: None, a name, or a list of names. (arguments of visualize_transition_equations.py:482-498) -/
inductive OrderArg
  | none
  | name (s : String)
  | names (xs : List String)

/-- visualize_transition_equations.py:485-488 and 492-495: the loop that collects the names that were not seen before. -/
def firstSeen (xs : List String) : List String := xs.foldl (fun acc x => if x ∈ acc then acc else acc ++ [x]) []

/-- visualize_transition_equations.py:482-498 `_process_orders`; `keys` are the keys of plots_dict. -/
def processOrders (columns rows : OrderArg) (keys : List (String × String)) : List String × List String :=
  let columns := match columns with
    | .none => firstSeen (keys.map Prod.fst)
    | .name s => [s]
    | .names xs => xs
  let rows := match rows with
    | .none => firstSeen (keys.map Prod.snd)
    | .name s => [s]
    | .names xs => xs
  (columns, rows)

/-- visualize_transition_equations.py:470-479 `_process_factor_mapping_trans` -/
def processFactorMapping (mapper : Option (Dict String)) (outputs inputs : List String) : Dict String :=
  let all := inputs ++ outputs
  match mapper with
  | none => all.map (fun f => (f, f))
  | some mapper => all.foldl (fun d f => if (Dict.get? d f).isSome then d else d ++ [(f, f)]) mapper

/-- One subplot of the figure: row and column (counted from 0), traces and titles of the axes. (visualize_transition_equations.py:88-111) -/
structure PlotCell (τ : Type) where
  row : Nat
  col : Nat
  traces : List τ
  xTitle : String
  yTitle : Option String

/-- visualize_transition_equations.py:88-111: one iteration of the loop. `hideLegend` is `d.update({"showlegend": False})`. -/
def combineCell {τ : Type} (hideLegend : τ → τ) (plots : List ((String × String) × List τ)) (mapping : Dict String) (x : (String × String) × Nat × Nat) : Py (PlotCell τ) := do
  let output := x.1.1
  let input := x.1.2
  let row := x.2.1
  let col := x.2.2
  let subfig := (plots.lookup (input, output)).getD []
  let traces := if ¬(row = 0 ∧ col = 0) then subfig.map hideLegend else subfig
  let xTitle ← Dict.getItem mapping input
  let yTitle ← if col = 0 then (do
      let y ← Dict.getItem mapping output
      pure (some y)) else pure none
  pure { row := row, col := col, traces := traces, xTitle := xTitle, yTitle := yTitle }

/-- utils_plotting.py:56 and visualize_transition_equations.py:83: without columns get_make_subplot_kwargs divides by zero, without rows make_subplots raises a ValueError. -/
def emptyOrderError (columns : List String) : PyErr := if columns = [] then .zeroDivisionError else .valueError

/-- visualize_transition_equations.py:22-117 `combine_transition_plots`. `plots` is plots_dict with the traces of each plot (`lookup` is `plots_dict[...]`). -/
def combineTransitionPlots {τ : Type} (hideLegend : τ → τ) (plots : List ((String × String) × List τ)) (columnOrder rowOrder : OrderArg) (mapper : Option (Dict String)) : Py (List (PlotCell τ)) := do
  let (columns, rows) := processOrders columnOrder rowOrder (plots.map Prod.fst)
  if columns = [] ∨ rows = [] then .error (emptyOrderError columns)
  else
    let mapping := processFactorMapping mapper rows columns
    ((rows.product columns).zip ((List.range rows.length).product (List.range columns.length))).mapM (combineCell hideLegend plots mapping)

/-! ### get_transition_plots -/

/-- A row of the DataFrame with states (process_debug_data.py:139-141): the columns id, period and one column per factor. -/
structure StateRow where
  id : Nat
  period : Nat
  values : String → Option ℝ

/-- visualize_transition_equations.py:372-383: the values in a row of states after the merge with the values of observed factors, where `observed` is the array of the period. The DataFrame in lines 372-376
has one row per individual with id 0, 1, 2, …; `how="left"` leaves values missing in the other periods. -/
def mergedValue (observedFactors : List String) (period : Nat) (observed : List (List (Option ℝ))) (r : StateRow) (f : String) : Option ℝ :=
  if f ∈ observedFactors then
    (if r.period = period then ((observed[r.id]?).bind (fun row => row[observedFactors.idxOf f]?)).join else none)
  else r.values f

/-- visualize_transition_equations.py:355-386 `_get_states_data`: the values of observed factors in the period are added to the states. -/
noncomputable def getStatesData (pm : Processed ℝ) (period : Nat) (data : Option (LongData ℝ)) (states : List StateRow) : Py (List StateRow) :=
  if pm.labels.observedFactors = [] then .ok states
  else match data with
  | none => .error .valueError
  | some data => do
    let d ← processData data pm.labels pm.updateInfo pm.anchoring .estimation
    let observed ← pyIndex d.observedFactors period
    pure (states.map (fun r => { r with values := mergedValue pm.labels.observedFactors period observed r }))

/-- visualize_transition_equations.py:316-320 `_get_state_ranges`: the table with axis limits of one factor. -/
noncomputable def stateRangeTable (stateRanges : Option (Dict (List (Nat × ℝ × ℝ)))) (statesData : List StateRow) (factor : String) : Py (List (Nat × ℝ × ℝ)) :=
  match stateRanges with
  | some ranges => Dict.getItem ranges factor
  | none => .ok (createStateRange (statesData.filterMap (fun r => (r.values factor).map (fun v => (r.period, v)))))

/-- visualize_transition_equations.py:403-404, 450-451: the axis limits for one factor and period. The tables are indexed by period. Simplification: if the values of the factor in the period are all missing then
the limits are NaN (here a KeyError). -/
noncomputable def inputRange (stateRanges : Option (Dict (List (Nat × ℝ × ℝ)))) (statesData : List StateRow) (factor : String) (period : Nat) : Py (ℝ × ℝ) := do
  let table ← stateRangeTable stateRanges statesData factor
  (table.lookup period).elim (.error .keyError) .ok

/-- `np.linspace(a, b, n)` (visualize_transition_equations.py:408, 456) -/
noncomputable def linspace (a b : ℝ) (n : Nat) : List ℝ := (List.range n).map (fun (i : ℕ) => a + i * ((b - a) / ((n : ℝ) - 1)))

/-- `Series.quantile(q)` of a column with the given values that are not missing: linear interpolation between the sorted values. (visualize_transition_equations.py:409) -/
noncomputable def pandasQuantile (nan : ℝ) (xs : List ℝ) (q : ℝ) : ℝ :=
  if xs = [] then nan
  else
    let sorted := xs.insertionSort (· ≤ ·)
    let h := ((xs.length : ℝ) - 1) * q
    let i := ⌊h⌋₊
    let lower := sorted.getD i 0
    let upper := sorted.getD (i + 1) lower
    lower + (h - i) * (upper - lower)

/-- visualize_transition_equations.py:424-430 `_process_quantiles_of_other_factors`: None, a number or a list. -/
inductive QuantileArg
  | none
  | number (q : ℝ)
  | numbers (qs : List ℝ)

/-- visualize_transition_equations.py:424-430 -/
def processQuantiles : QuantileArg → Option (List ℝ)
  | .none => Option.none
  | .number q => some [q]
  | .numbers qs => some qs

/-- visualize_transition_equations.py:408-413 and 456-460: the transition function on a grid of values of the input factor; the other factors have the values `others`. -/
noncomputable def curve (fn : TransFn) (params : List ℝ) (allFactors : List String) (input output : String) (grid : List ℝ) (others : String → ℝ) : Py (List (ℝ × ℝ)) :=
  grid.mapM (fun x => do
    let y ← nextFactor allFactors [(output, params)] (allFactors.map (fun f => if f = input then x else others f)) output fn
    pure (x, y))

/-- The values in a column of the period's data, without missing values (visualize_transition_equations.py:402, 446). -/
def periodValues (statesData : List StateRow) (period : Nat) (factor : String) : List ℝ :=
  (statesData.filter (fun r => r.period == period)).filterMap (fun r => r.values factor)

/-- visualize_transition_equations.py:389-421 `_prepare_data_for_one_plot_fixed_quantile_2d`: the rows (quantile, input, output). `DataFrame.quantile` raises a ValueError if the number is not in [0, 1];
`pd.concat` of an empty list is a ValueError. -/
noncomputable def fixedQuantileData (nan : ℝ) (statesData : List StateRow) (range : ℝ × ℝ) (period : Nat) (input output : String) (quantiles : List ℝ) (nPoints : Nat) (fn : TransFn)
    (params : List ℝ) (allFactors : List String) : Py (List (ℝ × ℝ × ℝ)) := do
  let blocks ← quantiles.mapM (fun q => do
    if 0 ≤ q ∧ q ≤ 1 then
      let points ← curve fn params allFactors input output (linspace range.1 range.2 nPoints) (fun f => pandasQuantile nan (periodValues statesData period f) q)
      pure (points.map (fun xy => (q, xy)))
    else .error .valueError)
  if blocks = [] then .error .valueError else pure blocks.flatten

/-- The distinct numbers of a list in increasing order (the keys of a groupby). (visualize_transition_equations.py:466) -/
noncomputable def groupKeys (xs : List ℝ) : List ℝ := (xs.dedup).insertionSort (· ≤ ·)

/-- visualize_transition_equations.py:433-467 `_prepare_data_for_one_plot_average_2d`. `draws` are the positions of the rows that `sample(n=n_draws)` selects (without replacement; a ValueError if there are not
enough rows). -/
noncomputable def averageData (nan : ℝ) (statesData : List StateRow) (range : ℝ × ℝ) (period : Nat) (input output : String) (nPoints nDraws : Nat) (draws : List Nat) (fn : TransFn)
    (params : List ℝ) (allFactors : List String) : Py (List (ℝ × ℝ)) := do
  let periodData := statesData.filter (fun r => r.period == period)
  if periodData.length < nDraws then .error .valueError
  else do
    let blocks ← draws.mapM (fun k => do
      let draw ← pyIndex periodData k
      curve fn params allFactors input output (linspace range.1 range.2 nPoints) (fun f => (draw.values f).getD nan))
    if blocks = [] then .error .valueError
    else
      let points := blocks.flatten
      pure ((groupKeys (points.map Prod.fst)).map (fun x =>
        let ys := (points.filter (fun p => decide (p.1 = x))).map Prod.snd
        (x, ys.sum / ys.length)))

/-- A plot: traces and the titles of the axes (visualize_transition_equations.py:301-309). -/
structure TransitionPlot where
  traces : List (List (ℝ × ℝ))
  xTitle : String
  yTitle : String

/-- `px.line` with `color="quantile"` (visualize_transition_equations.py:294-307): one trace for each value of the color, in the order in which they occur. -/
noncomputable def tracesByQuantile (rows : List (ℝ × ℝ × ℝ)) : List (List (ℝ × ℝ)) :=
  let colors := (rows.map Prod.fst).foldl (fun acc q => if q ∈ acc then acc else acc ++ [q]) []
  colors.map (fun q => (rows.filter (fun r => decide (r.1 = q))).map Prod.snd)

/-- visualize_transition_equations.py:266-307: the traces of one plot; `draws` are the sampled rows if `quantiles_of_other_factors` is None. -/
noncomputable def plotTraces (nan : ℝ) (draws : List Nat) (statesData : List StateRow) (range : ℝ × ℝ) (period nPoints nDraws : Nat) (input output : String) (fn : TransFn) (params : List ℝ)
    (allFactors : List String) (quantiles : Option (List ℝ)) : Py (List (List (ℝ × ℝ))) :=
  match quantiles with
  | some qs => do
    let rows ← fixedQuantileData nan statesData range period input output qs nPoints fn params allFactors
    pure (if 1 < qs.length then tracesByQuantile rows else [rows.map Prod.snd])
  | none => do
    let points ← averageData nan statesData range period input output nPoints nDraws draws fn params allFactors
    pure [points]

/-- visualize_transition_equations.py:259-310: the plot of one combination of input and output factor. -/
noncomputable def oneTransitionPlot (nan : ℝ) (sample : String → String → List Nat) (fns : Dict TransFn) (allFactors : List String) (transition : Dict (List (List ℝ)))
    (stateRanges : Option (Dict (List (Nat × ℝ × ℝ)))) (statesData : List StateRow) (quantiles : Option (List ℝ)) (period nPoints nDraws : Nat) (output input : String) : Py TransitionPlot := do
  let fn ← Dict.getItem fns output
  let arr ← Dict.getItem transition output
  let params ← pyIndex arr period
  let range ← inputRange stateRanges statesData input period
  let traces ← plotTraces nan (sample input output) statesData range period nPoints nDraws input output fn params allFactors quantiles
  pure { traces := traces, xTitle := input, yTitle := output }

/-- visualize_transition_equations.py:342-352 `_set_index_params`: a ValueError if there are duplicates in the index, NaN for labels without a value. -/
def setIndexParams (nan : ℝ) (params : List (Loc × ℝ)) (index : List Loc) : Py (List ℝ) :=
  if (params.map Prod.fst).Nodup then .ok (index.map (fun l => (params.lookup l).getD nan)) else .error .valueError

/-- visualize_transition_equations.py:165-168 -/
def checkPlotPeriod (periods : List Nat) (period : Nat) : Py Unit := do
  match periods.getLast? with
  | none => .error .indexError
  | some last => if last ≤ period then .error .valueError else .ok ()

/-- visualize_transition_equations.py:120-190 and 193-313 `get_transition_plots`. `states` are the anchored states of get_filtered_states (lines 172-174), `params` the parameter DataFrame and `sample` the random
choice of rows in line 449. -/
noncomputable def getTransitionPlots (nan : ℝ) (sample : String → String → List Nat) (custom : String → CustomFn) (m : ModelDict ℝ) (params : List (Loc × ℝ)) (data : Option (LongData ℝ))
    (states : List StateRow) (period : Nat) (stateRanges : Option (Dict (List (Nat × ℝ × ℝ)))) (quantilesArg : QuantileArg) (nPoints nDraws : Nat) :
    Py (List ((String × String) × TransitionPlot)) := do
  let quantiles := processQuantiles quantilesArg
  let pm ← processModel m
  checkPlotPeriod pm.labels.periods period
  let statesData ← getStatesData pm period data states
  let values ← setIndexParams nan params pm.paramsIndex
  let parsed ← pm.parse Real.log values 1
  (pm.labels.latentFactors.product pm.labels.allFactors).mapM (fun oi => do
    let plot ← oneTransitionPlot nan sample (transitionFns custom m) pm.labels.allFactors parsed.transition stateRanges statesData quantiles period nPoints nDraws oi.1 oi.2
    pure ((oi.2, oi.1), plot))

end Skill
