import Verif.Model.CorrelationHeatmap
/-
skillmodels/utils_plotting.py and the keyword arguments of plot_correlation_heatmap in correlation_heatmap.py: what is passed to plotly.
-/
namespace Skill

/-- Values of keyword arguments of plotly functions. Integers are numbers; numpy's NaN is `nan`. (utils_plotting.py:17-24, 49-57) -/
inductive Kw where
  | pyNone
  | bool (b : Bool)
  | num (x : ℝ)
  | nan
  | str (s : String)
  | dict (d : List (String × Kw))
  | list (l : List Kw)

/-- `d[k] = v` for a dictionary: the value is replaced, or the key is added at the end. (utils_plotting.py:26-30) -/
def Dict.setItem {β : Type} (d : Dict β) (k : String) (v : β) : Dict β :=
  if k ∈ d.map Prod.fst then d.map (fun kv => if kv.1 = k then (k, v) else kv) else d ++ [(k, v)]

/-- `d.update(other)` for dictionaries. (utils_plotting.py:32-34) -/
def Dict.update {β : Type} (d other : Dict β) : Dict β := other.foldl (fun d kv => Dict.setItem d kv.1 kv.2) d

/-- utils_plotting.py:29-34: `if d:` for an optional dictionary is false for None and for empty dictionaries. -/
def truthy {β : Type} (d : Option (Dict β)) : Option (Dict β) := d.filter (fun d => !d.isEmpty)

/-- `if v is not None: d[k] = v`, for the code in utils_plotting.py:25-28. -/
def Dict.setOption {β : Type} (d : Dict β) (k : String) : Option β → Dict β
  | some v => Dict.setItem d k v
  | none => d

/-- `if other is not None: d.update(other)`, utils_plotting.py:69-70. -/
def Dict.updateOption {β : Type} (d : Dict β) : Option (Dict β) → Dict β
  | some other => Dict.update d other
  | none => d

/-- `if other: d.update(other)`, utils_plotting.py:33-34 and correlation_heatmap.py:653-654, 736-737. -/
def Dict.updateWith {β : Type} (d : Dict β) (other : Option (Dict β)) : Dict β := Dict.updateOption d (truthy other)

/-- utils_plotting.py:4-35 `get_layout_kwargs`. -/
noncomputable def getLayoutKwargs (layoutKwargs legendKwargs titleKwargs : Option (Dict Kw)) (showlegend : Bool) (columns rows : Option (List String)) : Dict Kw :=
  let d : Dict Kw := [("template", .str "simple_white"), ("xaxis_showgrid", .bool false), ("yaxis_showgrid", .bool false), ("legend", .dict []), ("title", .dict []), ("showlegend", .bool showlegend)]
  let d := d.setOption "height" (rows.map (fun rows => .num (300 * rows.length)))
  let d := d.setOption "width" (columns.map (fun columns => .num (300 * columns.length)))
  let d := d.setOption "title" ((truthy titleKwargs).map .dict)
  let d := d.setOption "legend" ((truthy legendKwargs).map (fun legend => .dict (Dict.update [] legend)))
  Dict.updateWith d layoutKwargs

/-- utils_plotting.py:62-68: the types of the subplots: three-dimensional above the diagonal. -/
def sceneSpecs (nrows ncols : Nat) : List (List Kw) :=
  (List.range nrows).map (fun i => (List.range ncols).map (fun j => if i < j then .dict [("type", .str "scene")] else .dict []))

/-- utils_plotting.py:38-71 `get_make_subplot_kwargs`. Division by zero in line 56 if there are no columns. -/
noncomputable def getMakeSubplotKwargs (sharex sharey : Bool) (columnOrder rowOrder : List String) (makeSubplotKwargs : Option (Dict Kw)) (addScenes : Bool) : Py (Dict Kw) :=
  let nrows := rowOrder.length
  let ncols := columnOrder.length
  if ncols = 0 then .error .zeroDivisionError
  else
    let spacing : ℝ := 1 / (ncols * 6)
    let d : Dict Kw := [("rows", .num nrows), ("cols", .num ncols), ("start_cell", .str "top-left"), ("print_grid", .bool false), ("shared_yaxes", .bool sharey), ("shared_xaxes", .bool sharex),
      ("horizontal_spacing", .num spacing)]
    let d := if 1 < nrows then Dict.setItem d "vertical_spacing" (.num ((1 / (nrows - 1)) / 4)) else d
    let d := if !sharey then Dict.setItem d "horizontal_spacing" (.num (2 * spacing)) else d
    let d := if addScenes then Dict.setItem d "specs" (.list ((sceneSpecs nrows ncols).map .list)) else d
    .ok (Dict.updateOption d makeSubplotKwargs)

/-! ### plots of distributions -/

/-- visualize_factor_distributions.py:500-522 `_process_distplot_kwargs`; `colors` is `getattr(px.colors.qualitative, colorscale)`. -/
def processDistplotKwargs (showCurve showHist showRug : Bool) (curveType : String) (binSize : ℝ) (scenarios : List String) (colors : Kw) (user : Option (Dict Kw)) : Dict Kw :=
  Dict.updateWith [("show_hist", .bool showHist), ("show_rug", .bool showRug), ("show_curve", .bool showCurve), ("curve_type", .str curveType), ("bin_size", .num binSize),
    ("group_labels", .list (scenarios.map .str)), ("colors", colors)] user

/-- visualize_factor_distributions.py:540-559 `_process_contour_kwargs` -/
def processContourKwargs (user : Option (Dict Kw)) (showlabels : Bool) (coloring : Option String) (colorscale : String) (showscale : Bool) : Dict Kw :=
  Dict.updateWith [("contours_coloring", .str (coloring.getD "none")), ("contours_showlabels", .bool showlabels), ("colorscale", .str colorscale), ("showscale", .bool showscale)] user

/-- visualize_factor_distributions.py:562-571 `_process_layout_kwargs` -/
def processLayoutKwargs (user : Option (Dict Kw)) : Dict Kw :=
  Dict.updateWith [("template", .str "simple_white"), ("xaxis_showgrid", .bool false), ("yaxis_showgrid", .bool false)] user

/-- visualize_factor_distributions.py:574-590 `_process_layout_kwargs_3d` -/
def processLayoutKwargs3d (user : Option (Dict Kw)) (showgrids showaxlines showlabels : Bool) : Dict Kw :=
  let axis : Kw := .dict ([("showgrid", .bool showgrids), ("showline", .bool showaxlines)] ++ if showlabels then [] else [("title", .str "")])
  Dict.updateWith [("template", .str "none"), ("scene", .dict (["x", "y", "z"].map (fun ax => (ax ++ "axis", axis))))] user

/-! ### correlation heatmaps -/

/-- A value that may be NaN. (correlation_heatmap.py:732-734) -/
def Kw.ofOption : Option ℝ → Kw
  | some x => .num x
  | none => .nan

/-- correlation_heatmap.py:723-724: `zmax`, as in `plotCorrelationHeatmap`. -/
noncomputable def heatmapZmax (corr : CorrTable) : Option ℝ → Py (Option ℝ)
  | some z => .ok (some z)
  | none => defaultZmax corr

/-- correlation_heatmap.py:705-738 `_get_heatmap_kwargs`; `zmin = -zmax` is NaN if zmax is. -/
noncomputable def getHeatmapKwargs (corr : CorrTable) (heatmapKwargs : Option (Dict Kw)) (colorscale : String) (showColorBar : Bool) (zmax zmin zmid : Option ℝ) : Py (Dict Kw) := do
  let zmax ← heatmapZmax corr zmax
  let zmin := match zmin with
    | some z => some z
    | none => zmax.map (fun z => -z)
  let zmid := zmid.getD 0
  pure (Dict.updateWith [("colorscale", .str colorscale), ("showscale", .bool showColorBar), ("zmin", .ofOption zmin), ("zmax", .ofOption zmax), ("zmid", .num zmid)] heatmapKwargs)

/-- correlation_heatmap.py:677-702 `_get_annotations`, the text and the position (column, row) of the annotations; `text` is Python's `str` for numbers (without "nan" in it).
Simplification: `df.loc[m, n]` is the first cell with these labels; with repeated labels it would be a Series or a DataFrame. -/
def getAnnotations (text : ℝ → String) (df : CorrTable) (annotate : Bool) : Option (List (String × String × String)) :=
  if annotate then
    some (df.cols.reverse.flatMap (fun n => df.rows.reverse.map (fun m =>
      (match ((df.cells.getD (df.rows.idxOf m) []).getD (df.cols.idxOf n) none) with
        | some x => text x
        | none => "", n, m))))
  else none

/-- correlation_heatmap.py:741-744 `_process_axes_tick_args`: a pair or a dictionary; with fewer than two entries an IndexError, without the keys "x" and "y" a KeyError (lines 666-673). -/
def axisArg : Kw → Py (Kw × Kw)
  | .list (x :: y :: _) => .ok (x, y)
  | .list _ => .error .indexError
  | .dict d => do
    let x ← Dict.getItem d "x"
    let y ← Dict.getItem d "y"
    pure (x, y)
  | _ => .error .typeError

/-- correlation_heatmap.py:658-674 `_get_axes_ticks_kwargs`. -/
def getAxesTicksKwargs (fontsize angle color : Kw) : Py (Dict Kw) := do
  let s ← axisArg fontsize
  let a ← axisArg angle
  let c ← axisArg color
  pure [("xaxis", .dict [("tickangle", a.1), ("tickfont", .dict [("color", c.1), ("size", s.1)])]), ("yaxis", .dict [("tickangle", a.2), ("tickfont", .dict [("color", c.2), ("size", s.2)])])]

/-- correlation_heatmap.py:687-699: an annotation. -/
def annotationKw (font : Kw × Kw × Kw) (a : String × String × String) : Kw :=
  .dict [("text", .str a.1), ("x", .str a.2.1), ("y", .str a.2.2), ("xref", .str "x1"), ("yref", .str "y1"), ("showarrow", .bool false), ("font", .dict [("color", font.2.1), ("size", font.1)]), ("textangle", font.2.2)]

/-- correlation_heatmap.py:604-655 `_get_layout_kwargs`; `font` are size, color and angle of annotations. -/
def heatmapLayoutKwargs (text : ℝ → String) (corr : CorrTable) (layoutKwargs : Option (Dict Kw)) (annotate : Bool) (font : Kw × Kw × Kw) (tickFontsize tickAngle tickColor : Kw) : Py (Dict Kw) := do
  let d : Dict Kw := [("xaxis_showgrid", .bool false), ("yaxis_showgrid", .bool false), ("template", .str "simple_white"), ("yaxis_autorange", .str "reversed")]
  let d := Dict.updateOption d ((getAnnotations text corr annotate).map (fun as => [("annotations", .list (as.map (annotationKw font)))]))
  let ticks ← getAxesTicksKwargs tickFontsize tickAngle tickColor
  pure (Dict.updateWith (Dict.update d ticks) layoutKwargs)

/-- correlation_heatmap.py:9-111 `plot_correlation_heatmap`: the table in the figure, the other keyword arguments of go.Heatmap and those of update_layout.
The keyword arguments z, x and y of go.Heatmap are passed in lines 103-107: they are a TypeError if they are also in heatmap_kwargs. What plotly does with the arguments is not modelled. -/
noncomputable def plotHeatmap (text : ℝ → String) (corr : CorrTable) (heatmapKwargs layoutKwargs : Option (Dict Kw)) (rounding : Nat) (zmax zmin zmid : Option ℝ) (colorscale : String)
    (showColorBar showDiagonal showUpper trim annotate : Bool) (font : Kw × Kw × Kw) (tickFontsize tickAngle tickColor : Kw) : Py (CorrTable × Dict Kw × Dict Kw) := do
  let corr := processCorrDataForPlotting corr rounding showUpper showDiagonal trim
  let heatmap ← getHeatmapKwargs corr heatmapKwargs colorscale showColorBar zmax zmin zmid
  let layout ← heatmapLayoutKwargs text corr layoutKwargs annotate font tickFontsize tickAngle tickColor
  if ["z", "x", "y"].any (fun k => (heatmap.get? k).isSome) then .error .typeError
  else .ok (corr, heatmap, layout)

end Skill
