import Verif.Model.TransitionPlots
import Mathlib.Analysis.SpecialFunctions.Pow.Real
import Mathlib.Analysis.Real.Pi.Bounds
/-
skillmodels/visualize_factor_distributions.py. Only the data that is shown and the titles of the axes are modelled, not colors, line widths and layout options.

Simplifications: the names of scenarios are strings (if states is a list then the names are the positions); a column that exists in the states and in the data is taken from the data (in the code it
exists twice then).
-/
namespace Skill

/-! ### the data of the plots -/

/-- A DataFrame with states: the names of its factor columns and its rows. (argument states of visualize_factor_distributions.py:475) -/
structure PlotStatesFrame where
  columns : List String
  rows : List StateRow

/-- The argument states: a DataFrame, or one DataFrame for each scenario. (visualize_factor_distributions.py:476-491) -/
inductive PlotStatesArg
  | frame (df : PlotStatesFrame)
  | scenarios (dfs : List (String × PlotStatesFrame))

/-- visualize_factor_distributions.py:615-622 `_get_factors` -/
def getPlotFactors (labels : Labels) (factors : Option (List String)) (observedFactors : Bool) : List String :=
  match factors with
  | some fs => fs
  | none => if observedFactors then labels.allFactors else labels.latentFactors

/-- The result of `_get_data_observed_factors`: one column (without a usable name if several columns were concatenated) with the period of each row. (visualize_factor_distributions.py:213, 493-496) -/
structure ObservedStates where
  column : Option String
  rows : List (Int × Option ℝ)

/-- visualize_factor_distributions.py:625-635 `_get_data_observed_factors`. `pd.concat` stacks the columns; the result has a name only if all columns have the same name. -/
def getDataObservedFactors (data : LongData ℝ) (factors : List String) : Option ObservedStates :=
  match factors.filter (fun f => decide (f ∈ data.columns)) with
  | [] => none
  | f :: fs => some { column := if ∀ g ∈ fs, g = f then some f else none, rows := (f :: fs).flatMap (fun g => data.rows.map (fun r => (r.period, r.cell g))) }

/-- A row of the data that is plotted; the scenario is missing in rows that exist only in the data on observed factors. (visualize_factor_distributions.py:475-497) -/
structure PlotRow where
  scenario : Option String
  value : String → Option ℝ

/-- The DataFrame that is plotted. (result of visualize_factor_distributions.py:475-497) -/
structure PlotFrame where
  columns : List String
  rows : List PlotRow

/-- visualize_factor_distributions.py:476-493: the rows of states in the period. `pd.concat` of an empty list is a ValueError; a missing column is a KeyError. -/
def plotStatesFrame (states : PlotStatesArg) (period : Nat) (factors : List String) : Py PlotFrame :=
  match states with
  | .frame df =>
    let columns := factors.filter (fun f => decide (f ∈ df.columns))
    if columns = [] then .error .valueError
    else .ok { columns := columns, rows := (df.rows.filter (fun r => r.period == period)).map (fun r => { scenario := some "none", value := r.values }) }
  | .scenarios dfs => do
    let parts ← dfs.mapM (fun nd =>
      if ∀ f ∈ factors, f ∈ nd.2.columns then
        (.ok ((nd.2.rows.filter (fun r => r.period == period)).map (fun r => ({ scenario := some nd.1, value := r.values } : PlotRow))) : Py (List PlotRow))
      else .error .keyError)
    if parts = [] then .error .valueError else .ok { columns := factors, rows := parts.flatten }

/-- visualize_factor_distributions.py:494-496: the column of observed factors is put beside the states, row by row. -/
def besideObserved (frame : PlotFrame) (observed : ObservedStates) (period : Nat) : PlotFrame :=
  let values := (observed.rows.filter (fun pv => pv.1 == (period : Int))).map Prod.snd
  { columns := frame.columns ++ observed.column.toList,
    rows := (List.range (max frame.rows.length values.length)).map (fun k =>
      { scenario := (frame.rows[k]?).bind (fun r => r.scenario),
        value := fun f => if observed.column = some f then (values[k]?).join else (frame.rows[k]?).bind (fun r => r.value f) }) }

/-- visualize_factor_distributions.py:475-497 `_process_data` -/
def processPlotData (states : PlotStatesArg) (period : Nat) (factors : List String) (observed : Option ObservedStates) : Py PlotFrame := do
  let frame ← plotStatesFrame states period factors
  match observed with
  | none => pure frame
  | some o => pure (besideObserved frame o period)

/-- `df["scenario"].unique()` (visualize_factor_distributions.py:215, 336) -/
def plotScenarios (frame : PlotFrame) : List (Option String) :=
  (frame.rows.map (fun r => r.scenario)).foldl (fun acc s => if s ∈ acc then acc else acc ++ [s]) []

/-- The rows of a scenario; no row equals the missing scenario. (visualize_factor_distributions.py:230, 339) -/
def scenarioRows (frame : PlotFrame) (s : Option String) : List PlotRow := frame.rows.filter (fun r => s.isSome && decide (r.scenario = s))

/-! ### kernel densities -/

/-- The sample covariance matrix as (variance of x, covariance, variance of y). (part of `gaussian_kde`, visualize_factor_distributions.py:535) -/
noncomputable def sampleCov (ps : List (ℝ × ℝ)) : ℝ × ℝ × ℝ :=
  let n : ℝ := ps.length
  let mx := (ps.map (fun p => p.1)).sum / n
  let my := (ps.map (fun p => p.2)).sum / n
  ((ps.map (fun p => (p.1 - mx) * (p.1 - mx))).sum / (n - 1), (ps.map (fun p => (p.1 - mx) * (p.2 - my))).sum / (n - 1), (ps.map (fun p => (p.2 - my) * (p.2 - my))).sum / (n - 1))

/-- `scipy.stats.gaussian_kde` for two dimensions, with the default bandwidth n^(-1/6); an exception (none) if the covariance matrix is not positive definite. (visualize_factor_distributions.py:535) -/
noncomputable def gaussianKde (ps : List (ℝ × ℝ)) : Option (ℝ → ℝ → ℝ) :=
  let n : ℝ := ps.length
  let factor := n ^ (-(1 : ℝ) / 6)
  let a := (sampleCov ps).1 * factor ^ 2
  let b := (sampleCov ps).2.1 * factor ^ 2
  let d := (sampleCov ps).2.2 * factor ^ 2
  let det := a * d - b * b
  open Classical in
  if 0 < det then
    some (fun x y => (ps.map (fun p => Real.exp (-((d * (x - p.1) * (x - p.1) - 2 * b * (x - p.1) * (y - p.2) + a * (y - p.2) * (y - p.2)) / det) / 2))).sum / (2 * Real.pi * Real.sqrt det) / n)
  else none

/-- The output of `_calculate_kde_for_3d`: the first column of xx, the first row of yy, and zz (xx and yy are constant in the other direction). (visualize_factor_distributions.py:533-537) -/
structure KdeGrid where
  xs : List ℝ
  ys : List ℝ
  zz : List (List ℝ)

/-- visualize_factor_distributions.py:525-537 `_calculate_kde_for_3d`; none is an exception (a missing column, a missing value, or a failure of gaussian_kde). `zz[i][j]` is the density at (xs[i], ys[j]):
`np.mgrid` varies x in the first direction. -/
noncomputable def calculateKde (columns : List String) (rows : List PlotRow) (pair : String × String) (nPoints : Nat) : Option KdeGrid := do
  if pair.1 ∈ columns ∧ pair.2 ∈ columns then
    let ps ← rows.mapM (fun r => do
      let x ← r.value pair.1
      let y ← r.value pair.2
      some (x, y))
    let kernel ← gaussianKde ps
    let xs := linspace (listMin (ps.map Prod.fst)) (listMax (ps.map Prod.fst)) nPoints
    let ys := linspace (listMin (ps.map Prod.snd)) (listMax (ps.map Prod.snd)) nPoints
    some { xs := xs, ys := ys, zz := xs.map (fun x => ys.map (fun y => kernel x y)) }
  else none

/-- The pairs of different factors (visualize_factor_distributions.py:328-333, 438-443). The order of `list(set(pairs))` is not specified; here it is the order of first occurrence. -/
def factorPairs (factors : List String) : List (String × String) :=
  ((factors.product factors).filter (fun p => decide (p.1 ≠ p.2))).dedup

/-! ### the plots -/

/-- A trace `go.Contour(x, y, z)`. (visualize_factor_distributions.py:341-346) -/
structure ContourTrace where
  x : List ℝ
  y : List ℝ
  z : List (List ℝ)

/-- A trace `go.Surface(x, y, z)`. (visualize_factor_distributions.py:448-455) -/
structure SurfaceTrace where
  x : List (List ℝ)
  y : List (List ℝ)
  z : List (List ℝ)

/-- A plot with traces of type τ and the titles of the axes. (visualize_factor_distributions.py:356-357, 463-469) -/
structure DensityPlot (τ : Type) where
  traces : List τ
  xTitle : String
  yTitle : String

/-- visualize_factor_distributions.py:147-244 `univariate_densities`. `distplot` is `ff.create_distplot` (none if it raises an exception) with the values of each scenario. `states` are the filtered states if
the user gives none (lines 205-208). -/
def univariateDensities {δ : Type} (distplot : List (Option String × List (Option ℝ)) → Option δ) (labels : Labels) (data : LongData ℝ) (states : PlotStatesArg) (period : Nat) (factors : Option (List String))
    (observedFactors : Bool) : Py (List (String × DensityPlot δ)) := do
  let fs := getPlotFactors labels factors observedFactors
  let df ← processPlotData states period fs (getDataObservedFactors data fs)
  fs.mapM (fun f =>
    if f ∈ df.columns then
      .ok (f, { traces := (distplot ((plotScenarios df).map (fun s => (s, (scenarioRows df s).map (fun r => r.value f))))).toList, xTitle := f, yTitle := "Density" })
    else .error .keyError)

/-- visualize_factor_distributions.py:337-348: the contour of one scenario with its position; none if there is an exception. `nColors` is the number of colors in the color scale (an IndexError if there are more
scenarios). -/
noncomputable def contourOf (df : PlotFrame) (nPoints nColors : Nat) (pair : String × String) (scenario : Option String × Nat) : Option ContourTrace :=
  (calculateKde df.columns (scenarioRows df scenario.1) pair nPoints).bind (fun g => if scenario.2 < nColors then some { x := g.xs, y := g.ys, z := g.zz } else none)

/-- visualize_factor_distributions.py:334-359: the contour plot of one pair. A trace that fails is left out. -/
noncomputable def contourPlot (df : PlotFrame) (nPoints nColors : Nat) (pair : String × String) : DensityPlot ContourTrace where
  traces := (plotScenarios df).zipIdx.filterMap (contourOf df nPoints nColors pair)
  xTitle := pair.1
  yTitle := pair.2

/-- visualize_factor_distributions.py:247-361 `bivariate_density_contours` -/
noncomputable def bivariateDensityContours (labels : Labels) (data : LongData ℝ) (states : PlotStatesArg) (period : Nat) (factors : Option (List String)) (observedFactors : Bool) (nPoints nColors : Nat) :
    Py (List ((String × String) × DensityPlot ContourTrace)) := do
  let fs := getPlotFactors labels factors observedFactors
  let df ← processPlotData states period fs (getDataObservedFactors data fs)
  pure ((factorPairs fs).map (fun pair => (pair, contourPlot df nPoints nColors pair)))

/-- visualize_factor_distributions.py:445-471: the surface plot of one pair. -/
noncomputable def surfacePlot (df : PlotFrame) (nPoints : Nat) (pair : String × String) : DensityPlot SurfaceTrace where
  traces := ((calculateKde df.columns df.rows pair nPoints).map (fun g =>
    { x := g.xs.map (fun x => g.ys.map (fun _ => x)), y := g.xs.map (fun _ => g.ys), z := g.zz })).toList
  xTitle := pair.1
  yTitle := pair.2

/-- visualize_factor_distributions.py:364-472 `bivariate_density_surfaces` -/
noncomputable def bivariateDensitySurfaces (labels : Labels) (data : LongData ℝ) (states : PlotStatesArg) (period : Nat) (factors : Option (List String)) (observedFactors : Bool) (nPoints : Nat) :
    Py (List ((String × String) × DensityPlot SurfaceTrace)) :=
  match states with
  | .scenarios _ => .error .valueError
  | .frame _ => do
    let fs := getPlotFactors labels factors observedFactors
    let df ← processPlotData states period fs (getDataObservedFactors data fs)
    pure ((factorPairs fs).map (fun pair => (pair, surfacePlot df nPoints pair)))

/-! ### combine_distribution_plots -/

/-- A plot in a dictionary: its traces and titles. (arguments of visualize_factor_distributions.py:18-144) -/
structure DistPlot (τ : Type) where
  traces : List τ
  xTitle : String
  yTitle : String

/-- A cell of the combined figure. The titles are set only if there is a trace. (visualize_factor_distributions.py:102-143) -/
structure DistCell (τ : Type) where
  row : Nat
  col : Nat
  traces : List τ
  xTitle : Option String
  yTitle : Option String

/-- visualize_factor_distributions.py:593-601 `_process_factor_mapping_dist` -/
def processFactorMappingDist (mapper : Option (Dict String)) (factors : List String) : Dict String :=
  match mapper with
  | none => factors.map (fun f => (f, f))
  | some mapper => factors.foldl (fun d f => if (Dict.get? d f).isSome then d else d ++ [(f, f)]) mapper

/-- visualize_factor_distributions.py:604-612 `_get_ordered_factors` -/
def getOrderedFactors (order : OrderArg) (factors : List String) : List String :=
  match order with
  | .none => factors
  | .name s => [s]
  | .names xs => xs

/-- `d[key]` of a dictionary with pairs as keys (visualize_factor_distributions.py:105, 131) -/
def pairItem {β : Type} (d : List ((String × String) × β)) (key : String × String) : Py β :=
  (d.lookup key).elim (.error .keyError) .ok

/-- visualize_factor_distributions.py:105-119: a cell below the diagonal -/
def contourCell {τ : Type} (hideLegend : τ → τ) (contours : List ((String × String) × DistPlot τ)) (names : Dict String) (row col : Nat) (fac1 fac2 : String) : Py (DistCell τ) := do
  let plot ← pairItem contours (fac1, fac2)
  if plot.traces = [] then pure { row := row, col := col, traces := [], xTitle := none, yTitle := none }
  else do
    let x ← Dict.getItem names plot.xTitle
    let y ← Dict.getItem names plot.yTitle
    pure { row := row, col := col, traces := plot.traces.map hideLegend, xTitle := some x, yTitle := some y }

/-- visualize_factor_distributions.py:121-127: a cell on the diagonal -/
def kdeCell {τ : Type} (hideLegend : τ → τ) (kdes : Dict (DistPlot τ)) (names : Dict String) (row col : Nat) (fac1 : String) : Py (DistCell τ) := do
  let plot ← Dict.getItem kdes fac1
  if plot.traces = [] then pure { row := row, col := col, traces := [], xTitle := none, yTitle := none }
  else do
    let x ← Dict.getItem names fac1
    pure { row := row, col := col, traces := if row = 0 then plot.traces else plot.traces.map hideLegend, xTitle := some x, yTitle := some "Density" }

/-- visualize_factor_distributions.py:130-143: a cell above the diagonal; `plot.data[0]` is the only trace that is shown -/
def surfaceCell {τ : Type} (surfaces : Option (List ((String × String) × DistPlot τ))) (row col : Nat) (fac1 fac2 : String) : Py (DistCell τ) :=
  match surfaces with
  | none => .ok { row := row, col := col, traces := [], xTitle := none, yTitle := none }
  | some surfaces => do
    let plot ← pairItem surfaces (fac1, fac2)
    let trace ← pyIndex plot.traces 0
    pure { row := row, col := col, traces := [trace], xTitle := some "", yTitle := some "" }

/-- visualize_factor_distributions.py:102-143: the cell in row `row` and column `col` -/
def distributionCell {τ : Type} (hideLegend : τ → τ) (kdes : Dict (DistPlot τ)) (contours : List ((String × String) × DistPlot τ)) (surfaces : Option (List ((String × String) × DistPlot τ))) (names : Dict String)
    (x : (String × Nat) × (String × Nat)) : Py (DistCell τ) :=
  if x.1.2 < x.2.2 then contourCell hideLegend contours names x.2.2 x.1.2 x.1.1 x.2.1
  else if x.2.2 = x.1.2 then kdeCell hideLegend kdes names x.2.2 x.1.2 x.1.1
  else surfaceCell surfaces x.2.2 x.1.2 x.1.1 x.2.1

/-- visualize_factor_distributions.py:18-144 `combine_distribution_plots`. With an empty order get_make_subplot_kwargs divides by zero. -/
def combineDistributionPlots {τ : Type} (hideLegend : τ → τ) (kdes : Dict (DistPlot τ)) (contours : List ((String × String) × DistPlot τ)) (surfaces : Option (List ((String × String) × DistPlot τ)))
    (order : OrderArg) (mapper : Option (Dict String)) : Py (List (DistCell τ)) :=
  let factors := kdes.map Prod.fst
  let names := processFactorMappingDist mapper factors
  let ordered := getOrderedFactors order factors
  if ordered = [] then .error .zeroDivisionError
  else (ordered.zipIdx.product ordered.zipIdx).mapM (distributionCell hideLegend kdes contours surfaces names)

end Skill
