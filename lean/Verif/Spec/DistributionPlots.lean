import Verif.Model.DistributionPlots
import Verif.Spec.TransitionPlots
import Mathlib.LinearAlgebra.Matrix.NonsingularInverse
/- What plots of the distribution of factors should show. -/
namespace Skill.Spec
open Matrix
variable {τ : Type}

/-! ### plotly -/

/-- plotly: a contour trace shows the number `z[i][j]` at the point `(x[j], y[i])` (the rows of z belong to y and the columns belong to x). -/
def ContourShows (trace : ContourTrace) (px py v : ℝ) : Prop :=
  ∃ i j, trace.x[j]? = some px ∧ trace.y[i]? = some py ∧ entry2 trace.z i j = some v

/-- plotly: a surface trace shows the points `(x[i][j], y[i][j], z[i][j])`. -/
def SurfaceShows (trace : SurfaceTrace) (px py v : ℝ) : Prop :=
  ∃ i j, entry2 trace.x i j = some px ∧ entry2 trace.y i j = some py ∧ entry2 trace.z i j = some v

/-! ### kernel density estimates -/

/-- The sample mean. -/
noncomputable def pointMean (ps : List (Fin 2 → ℝ)) : Fin 2 → ℝ := (1 / (ps.length : ℝ)) • ps.sum

/-- The sample covariance matrix. -/
noncomputable def pointCovariance (ps : List (Fin 2 → ℝ)) : Matrix (Fin 2) (Fin 2) ℝ :=
  (1 / ((ps.length : ℝ) - 1)) • (ps.map (fun p => vecMulVec (p - pointMean ps) (p - pointMean ps))).sum

/-- The covariance matrix of the kernel: Scott's rule in two dimensions. -/
noncomputable def bandwidth (ps : List (Fin 2 → ℝ)) : Matrix (Fin 2) (Fin 2) ℝ := ((ps.length : ℝ) ^ (-(1 : ℝ) / 6)) ^ 2 • pointCovariance ps

/-- The density of the normal distribution in the plane. -/
noncomputable def planeDensity (mean : Fin 2 → ℝ) (cov : Matrix (Fin 2) (Fin 2) ℝ) (x : Fin 2 → ℝ) : ℝ :=
  Real.exp (-((x - mean) ⬝ᵥ (cov⁻¹ *ᵥ (x - mean))) / 2) / Real.sqrt (((2 * Real.pi) • cov).det)

/-- The kernel density estimate: the average of normal densities around the points of the sample. -/
noncomputable def kernelDensity (ps : List (Fin 2 → ℝ)) (x : Fin 2 → ℝ) : ℝ := (ps.map (fun p => planeDensity p (bandwidth ps) x)).sum / ps.length

/-- The points of the sample are not on one line. -/
def NotDegenerate (ps : List (Fin 2 → ℝ)) : Prop := 0 < (pointCovariance ps).det

/-- The values of two factors in a period. -/
def SampleIs (rows : List StateRow) (t : Nat) (pair : String × String) (ps : List (Fin 2 → ℝ)) : Prop :=
  List.Forall₂ (fun r p => r.values pair.1 = some (p 0) ∧ r.values pair.2 = some (p 1)) (rows.filter (fun r => decide (r.period = t))) ps

/-- The numbers of a grid: evenly spaced between the smallest and largest value. -/
def GridOf (vals : List ℝ) (n : Nat) (grid : List ℝ) : Prop :=
  grid.length = n ∧ ∃ lo hi, IsLeast {x | x ∈ vals} lo ∧ IsGreatest {x | x ∈ vals} hi ∧ EvenlySpaced grid lo hi

/-- The factors that are plotted. -/
def PlottedFactors {α : Type} (m : ModelDict α) (arg : Option (List String)) (observedFactors : Bool) (fs : List String) : Prop :=
  arg = some fs ∨ (arg = none ∧ fs = if observedFactors then allFactors m else m.factors.map Prod.fst)

/-- The scenarios: a single DataFrame is a scenario with the name "none". -/
def scenariosOf : PlotStatesArg → List (String × PlotStatesFrame)
  | .frame df => [("none", df)]
  | .scenarios dfs => dfs

/-- The surface plot shows exactly the density estimate on the grid. -/
def SurfaceOf (plot : DensityPlot SurfaceTrace) (ps : List (Fin 2 → ℝ)) (n : Nat) : Prop :=
  ∃ trace xs ys, plot.traces = [trace] ∧ GridOf (ps.map (fun p => p 0)) n xs ∧ GridOf (ps.map (fun p => p 1)) n ys ∧
    ∀ px py v, SurfaceShows trace px py v ↔ px ∈ xs ∧ py ∈ ys ∧ v = kernelDensity ps ![px, py]

/-! ### observed factors -/

/-- The value of a factor for the individual and period of a row of states: observed factors are in the data. -/
def JointValue (data : LongData ℝ) (ids pers : List Int) (observed : String) (r : StateRow) (f : String) (v : ℝ) : Prop :=
  (f ≠ observed → r.values f = some v) ∧ (f = observed → ∃ row, RowOf data ids pers r.id r.period (some row) ∧ row.cell f = some v)

/-- The values of two factors in a period. -/
def JointSample (data : LongData ℝ) (ids pers : List Int) (observed : String) (rows : List StateRow) (t : Nat) (pair : String × String) (ps : List (Fin 2 → ℝ)) : Prop :=
  List.Forall₂ (fun r p => JointValue data ids pers observed r pair.1 (p 0) ∧ JointValue data ids pers observed r pair.2 (p 1)) (rows.filter (fun r => decide (r.period = t))) ps

/-- The rows of the data with the label `t` belong to the same individuals, in the same order, as the rows of the states in period `t`. -/
def InOrder (data : LongData ℝ) (ids pers : List Int) (rows : List StateRow) (t : Nat) : Prop :=
  List.Forall₂ (fun r row => RowOf data ids pers r.id t (some row)) (rows.filter (fun r => decide (r.period = t))) (data.rows.filter (fun row => decide (row.period = (t : Int))))

/-! ### the combined figure -/

/-- The factors in rows and columns. -/
def DistOrder (order : OrderArg) (factors names : List String) : Prop :=
  (order = .none → names = factors) ∧ (∀ s, order = .name s → names = [s]) ∧ (∀ xs, order = .names xs → names = xs)

/-- The figure has exactly one cell for each row and column. -/
def IsSquare (cells : List (DistCell τ)) (n : Nat) : Prop :=
  (cells.map (fun c => (c.row, c.col))).Nodup ∧ ∀ r c, (∃ cell ∈ cells, cell.row = r ∧ cell.col = c) ↔ r < n ∧ c < n

/-- A title: the name in the mapping of the user if there is one; a factor with a density plot has its own name otherwise. -/
def TitleIs (mapper : Option (Dict String)) (factors : List String) (f title : String) : Prop :=
  (∃ d, mapper = some d ∧ Dict.get? d f = some title) ∨ ((∀ d, mapper = some d → Dict.get? d f = none) ∧ f ∈ factors ∧ title = f)

/-- What the cell in the column of `fac1` and the row of `fac2` shows: below the diagonal the contour plot of the two factors, without legend; on the diagonal the density of the factor, with legend only in
the first cell; above the diagonal the surface plot if there are surface plots. Cells without traces have no titles. -/
structure DistCellIs (hideLegend : τ → τ) (kdes : Dict (DistPlot τ)) (contours : List ((String × String) × DistPlot τ)) (surfaces : Option (List ((String × String) × DistPlot τ))) (mapper : Option (Dict String))
    (fac1 fac2 : String) (cell : DistCell τ) : Prop where
  below : cell.col < cell.row → ∃ plot, contours.lookup (fac1, fac2) = some plot ∧ cell.traces = plot.traces.map hideLegend ∧
    (plot.traces = [] → cell.xTitle = none ∧ cell.yTitle = none) ∧
    (plot.traces ≠ [] → ∃ x y, cell.xTitle = some x ∧ cell.yTitle = some y ∧ TitleIs mapper (kdes.map Prod.fst) plot.xTitle x ∧ TitleIs mapper (kdes.map Prod.fst) plot.yTitle y)
  diagonal : cell.col = cell.row → ∃ plot, Dict.get? kdes fac1 = some plot ∧ cell.traces = (if cell.row = 0 then plot.traces else plot.traces.map hideLegend) ∧
    (plot.traces = [] → cell.xTitle = none ∧ cell.yTitle = none) ∧
    (plot.traces ≠ [] → cell.yTitle = some "Density" ∧ ∃ x, cell.xTitle = some x ∧ TitleIs mapper (kdes.map Prod.fst) fac1 x)
  above : cell.row < cell.col → (surfaces = none → cell.traces = [] ∧ cell.xTitle = none ∧ cell.yTitle = none) ∧
    ∀ d, surfaces = some d → ∃ plot trace, d.lookup (fac1, fac2) = some plot ∧ plot.traces.head? = some trace ∧ cell.traces = [trace] ∧ cell.xTitle = some "" ∧ cell.yTitle = some ""

end Skill.Spec
