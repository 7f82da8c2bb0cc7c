import Verif.Model.PlotKwargs
import Verif.Spec.Correlation
/-
Keyword arguments of figures: what the user passes wins over what the function uses by default.
-/
namespace Skill.Spec

/-- The value of a key: the last argument that has it wins. -/
def firstOf {β : Type} (a b : Option β) : Option β := match a with
  | some x => some x
  | none => b

/-- The value of a key in an optional dictionary of the user. -/
def userValue (user : Option (Dict Kw)) (k : String) : Option Kw := (user.getD []).get? k

/-- Keys of Python dicts are distinct. -/
def IsDict (user : Option (Dict Kw)) : Prop := ((user.getD []).map Prod.fst).Nodup

/-- The layout of figures without layout_kwargs: 300 pixels for each row and column of subplots, title and legend as the user wants them. -/
noncomputable def defaultLayout (legendKwargs titleKwargs : Option (Dict Kw)) (showlegend : Bool) (columns rows : Option (List String)) (k : String) : Option Kw :=
  if k = "template" then some (.str "simple_white")
  else if k = "xaxis_showgrid" ∨ k = "yaxis_showgrid" then some (.bool false)
  else if k = "legend" then some (.dict (legendKwargs.getD []))
  else if k = "title" then some (.dict (titleKwargs.getD []))
  else if k = "showlegend" then some (.bool showlegend)
  else if k = "height" then rows.map (fun rows => .num (300 * rows.length))
  else if k = "width" then columns.map (fun columns => .num (300 * columns.length))
  else none

/-- The default space between columns and rows of subplots, as a fraction of the figure. -/
noncomputable def columnSpace (sharey : Bool) (ncols : Nat) : ℝ := if sharey then 1 / (6 * ncols) else 1 / (3 * ncols)
noncomputable def rowSpace (nrows : Nat) : ℝ := 1 / (4 * (nrows - 1))

/-- The arguments of make_subplots, except "specs", if the user does not pass make_subplot_kwargs. -/
noncomputable def defaultSubplots (sharex sharey : Bool) (ncols nrows : Nat) (k : String) : Option Kw :=
  if k = "rows" then some (.num nrows)
  else if k = "cols" then some (.num ncols)
  else if k = "start_cell" then some (.str "top-left")
  else if k = "print_grid" then some (.bool false)
  else if k = "shared_yaxes" then some (.bool sharey)
  else if k = "shared_xaxes" then some (.bool sharex)
  else if k = "horizontal_spacing" then some (.num (columnSpace sharey ncols))
  else if k = "vertical_spacing" then (if 1 < nrows then some (.num (rowSpace nrows)) else none)
  else none

/-- `specs` is a table of `nrows` times `ncols` subplots, and those above the diagonal (and only those) are three-dimensional. -/
def ScenesAboveDiagonal (nrows ncols : Nat) (specs : Option Kw) : Prop :=
  ∃ rows : List (List Kw), specs = some (.list (rows.map .list)) ∧ rows.length = nrows ∧ ∀ (i : Nat) (row : List Kw), rows[i]? = some row → row.length = ncols ∧
    ∀ (j : Nat) (cell : Kw), row[j]? = some cell → cell = if i < j then .dict [("type", .str "scene")] else .dict []

/-- The arguments of go.Heatmap, if the user does not pass heatmap_kwargs: the color scale ends at `zmax`, and by default it is symmetric around zero. -/
noncomputable def defaultHeatmap (colorscale : String) (showColorBar : Bool) (zmax : Option ℝ) (zmin zmid : Option ℝ) (k : String) : Option Kw :=
  if k = "colorscale" then some (.str colorscale)
  else if k = "showscale" then some (.bool showColorBar)
  else if k = "zmax" then some (match zmax with
    | some z => .num z
    | none => .nan)
  else if k = "zmin" then some (match zmin with
    | some z => .num z
    | none => match zmax with
      | some z => .num (-z)
      | none => .nan)
  else if k = "zmid" then some (.num (zmid.getD 0))
  else none

/-- The arguments of create_distplot without distplot_kwargs. -/
def defaultDistplot (showCurve showHist showRug : Bool) (curveType : String) (binSize : ℝ) (scenarios : List String) (colors : Kw) (k : String) : Option Kw :=
  if k = "show_curve" then some (.bool showCurve)
  else if k = "show_hist" then some (.bool showHist)
  else if k = "show_rug" then some (.bool showRug)
  else if k = "curve_type" then some (.str curveType)
  else if k = "bin_size" then some (.num binSize)
  else if k = "group_labels" then some (.list (scenarios.map .str))
  else if k = "colors" then some colors
  else none

/-- The properties of contours without contour_kwargs. -/
def defaultContour (showlabels : Bool) (coloring : Option String) (colorscale : String) (showscale : Bool) (k : String) : Option Kw :=
  if k = "contours_coloring" then some (.str (match coloring with
    | some c => c
    | none => "none"))
  else if k = "contours_showlabels" then some (.bool showlabels)
  else if k = "colorscale" then some (.str colorscale)
  else if k = "showscale" then some (.bool showscale)
  else none

/-- The layout of contour plots without layout_kwargs. -/
def defaultPlotLayout (k : String) : Option Kw :=
  if k = "template" then some (.str "simple_white") else if k = "xaxis_showgrid" ∨ k = "yaxis_showgrid" then some (.bool false) else none

/-- The three axes `scene` of a three-dimensional plot have grids and lines as the user wants; the titles are removed (only) if the user does not want labels. -/
def SceneAxes (showgrids showaxlines showlabels : Bool) (scene : Kw) : Prop :=
  ∃ d : Dict Kw, scene = .dict d ∧ (∀ ax, ax ∈ d.map Prod.fst ↔ ax = "xaxis" ∨ ax = "yaxis" ∨ ax = "zaxis") ∧
    ∀ ax axis, d.get? ax = some axis → ∃ a : Dict Kw, axis = .dict a ∧ a.get? "showgrid" = some (.bool showgrids) ∧ a.get? "showline" = some (.bool showaxlines) ∧
      (showlabels = false → a.get? "title" = some (.str "")) ∧ (showlabels = true → a.get? "title" = none)

/-- `x` is the entry of the table in the row and the column with these labels. -/
def EntryAt (t : CorrTable) (row col : String) (x : Option ℝ) : Prop := ∃ i j, t.rows[i]? = some row ∧ t.cols[j]? = some col ∧ entry2 t.cells i j = some x

/-- The value for the x-axis or the y-axis of an argument of the axes: a pair or a dictionary with the keys "x" and "y". -/
def AxesArg (arg x y : Kw) : Prop := (∃ rest, arg = .list (x :: y :: rest)) ∨ ∃ d : Dict Kw, arg = .dict d ∧ d.get? "x" = some x ∧ d.get? "y" = some y

/-- The arguments of update_layout, except "annotations", if the user does not pass layout_kwargs. -/
def defaultHeatmapLayout (sizeX sizeY angleX angleY colorX colorY : Kw) (k : String) : Option Kw :=
  if k = "xaxis_showgrid" ∨ k = "yaxis_showgrid" then some (.bool false)
  else if k = "template" then some (.str "simple_white")
  else if k = "yaxis_autorange" then some (.str "reversed")
  else if k = "xaxis" then some (.dict [("tickangle", angleX), ("tickfont", .dict [("color", colorX), ("size", sizeX)])])
  else if k = "yaxis" then some (.dict [("tickangle", angleY), ("tickfont", .dict [("color", colorY), ("size", sizeY)])])
  else none

/-- The annotation `a` is in the cell of this row and column and has the value of the cell as its text, nothing if the cell is empty. -/
structure Annotates (text : ℝ → String) (size color angle : Kw) (a : Kw) (row col : String) (x : Option ℝ) : Prop where
  exists_dict : ∃ d : Dict Kw, a = .dict d ∧ d.get? "x" = some (.str col) ∧ d.get? "y" = some (.str row) ∧
    d.get? "text" = some (.str (match x with
      | some y => text y
      | none => "")) ∧
    d.get? "font" = some (.dict [("color", color), ("size", size)]) ∧ d.get? "textangle" = some angle ∧
    d.get? "xref" = some (.str "x1") ∧ d.get? "yref" = some (.str "y1") ∧ d.get? "showarrow" = some (.bool false)

/-- There is one annotation for each cell of the table (labels are unique). -/
structure AnnotatesAll (text : ℝ → String) (size color angle : Kw) (t : CorrTable) (annotations : List Kw) : Prop where
  number : annotations.length = t.rows.length * t.cols.length
  each_cell : ∀ row col x, EntryAt t row col x → ∃ a ∈ annotations, Annotates text size color angle a row col x
  each_annotation : ∀ a ∈ annotations, ∃ row col x, EntryAt t row col x ∧ Annotates text size color angle a row col x

end Skill.Spec
