import Verif.Spec.PlotKwargs
import Verif.Spec.Correlation
import Verif.Props.Heatmap
import Verif.Lemmas.ProcessModel
/-
C95, C96: keyword arguments of figures.
-/
namespace Skill
open Spec

theorem get?_map_set {β : Type} (d : Dict β) (k : String) (v : β) (k' : String) : Dict.get? (d.map (fun kv => if kv.1 = k then (k, v) else kv)) k' = if k' = k ∧ k ∈ d.map Prod.fst then some v else Dict.get? d k' := by
  induction d with
  | nil => simp [Dict.get?]
  | cons kv d ih =>
    obtain ⟨a, b⟩ := kv
    unfold Dict.get? at ih ⊢
    rw [List.map_cons, List.find?_cons, List.find?_cons]
    by_cases ha : a = k
    · subst ha
      rw [if_pos rfl]
      by_cases hk : a = k'
      · subst hk
        simp
      · have : (a == k') = false := by simpa using hk
        simp only [this]
        rw [ih]
        have : ¬k' = a := fun h => hk h.symm
        simp [this]
    · rw [if_neg ha]
      dsimp only
      by_cases hk : a = k'
      · subst hk
        simp [ha]
      · have : (a == k') = false := by simpa using hk
        simp only [this]
        rw [ih]
        have hm : k ∈ ((a, b) :: d).map Prod.fst ↔ k ∈ d.map Prod.fst := by
          rw [List.map_cons, List.mem_cons]
          exact or_iff_right (fun h => ha h.symm)
        by_cases h1 : k' = k ∧ k ∈ d.map Prod.fst
        · rw [if_pos h1, if_pos ⟨h1.1, hm.mpr h1.2⟩]
        · rw [if_neg h1, if_neg (fun h => h1 ⟨h.1, hm.mp h.2⟩)]

theorem get?_setItem {β : Type} (d : Dict β) (k : String) (v : β) (k' : String) : Dict.get? (Dict.setItem d k v) k' = if k' = k then some v else Dict.get? d k' := by
  unfold Dict.setItem
  split_ifs with h1 h2 h2
  · rw [get?_map_set, if_pos ⟨h2, h1⟩]
  · rw [get?_map_set, if_neg (fun h => h2 h.1)]
  · subst h2
    have hn : d.find? (fun kv => kv.1 == k') = none := List.find?_eq_none.mpr (fun x hx => by
      simp only [beq_iff_eq]
      rintro rfl
      exact h1 (List.mem_map.mpr ⟨x, hx, rfl⟩))
    unfold Dict.get?
    rw [List.find?_append, hn]
    simp
  · unfold Dict.get?
    rw [List.find?_append]
    have : ¬k = k' := fun h => h2 h.symm
    simp [this]

theorem get?_update {β : Type} {d o : Dict β} (ho : (o.map Prod.fst).Nodup) (k : String) : Dict.get? (Dict.update d o) k = firstOf (Dict.get? o k) (Dict.get? d k) := by
  unfold Dict.update
  induction o generalizing d with
  | nil => rfl
  | cons kv o ih =>
    obtain ⟨a, b⟩ := kv
    rw [List.map_cons, List.nodup_cons] at ho
    rw [List.foldl_cons, ih ho.2, get?_setItem]
    dsimp only
    by_cases h : k = a
    · subst h
      have h1 : Dict.get? o k = none := by
        have hn : o.find? (fun kv => kv.1 == k) = none := List.find?_eq_none.mpr (fun x hx => by
          simp only [beq_iff_eq]
          rintro rfl
          exact ho.1 (List.mem_map.mpr ⟨x, hx, rfl⟩))
        unfold Dict.get?
        rw [hn]
        rfl
      rw [h1, if_pos rfl]
      simp [firstOf, Dict.get?]
    · rw [if_neg h]
      have : ¬a = k := fun e => h e.symm
      simp [Dict.get?, List.find?_cons, this]

theorem get?_updateOption {d : Dict Kw} {o : Option (Dict Kw)} (ho : IsDict o) (k : String) : Dict.get? (Dict.updateOption d o) k = firstOf (userValue o k) (Dict.get? d k) := by
  rcases o with _ | o
  · rfl
  · exact get?_update ho k

theorem truthy_getD {β : Type} (o : Option (Dict β)) : (truthy o).getD [] = o.getD [] := by
  rcases o with _ | _ | ⟨kv, kvs⟩ <;> rfl

theorem get?_updateWith {d : Dict Kw} {o : Option (Dict Kw)} (ho : IsDict o) (k : String) : Dict.get? (Dict.updateWith d o) k = firstOf (userValue o k) (Dict.get? d k) := by
  unfold Dict.updateWith
  rw [get?_updateOption (by unfold IsDict; rw [truthy_getD]; exact ho)]
  unfold userValue
  rw [truthy_getD]

theorem get?_setOption {β : Type} (d : Dict β) (k : String) (v : Option β) (k' : String) : Dict.get? (Dict.setOption d k v) k' = firstOf (if k' = k then v else none) (Dict.get? d k') := by
  rcases v with _ | v
  · simp [Dict.setOption, firstOf]
  · rw [Dict.setOption, get?_setItem]
    split_ifs <;> rfl

theorem setItem_new {β : Type} {d : Dict β} {k : String} (h : k ∉ d.map Prod.fst) (v : β) : Dict.setItem d k v = d ++ [(k, v)] := if_neg h

theorem update_nil {β : Type} {o : Dict β} (ho : (o.map Prod.fst).Nodup) : Dict.update [] o = o := by
  unfold Dict.update
  suffices h : ∀ d : Dict β, ((d ++ o).map Prod.fst).Nodup → o.foldl (fun d kv => Dict.setItem d kv.1 kv.2) d = d ++ o from h [] ho
  clear ho
  induction o with
  | nil => simp
  | cons kv o ih =>
    intro d hd
    rw [List.foldl_cons, setItem_new (fun hmem => ?_), ih (d ++ [(kv.1, kv.2)]) (by simpa using hd), List.append_assoc]
    · rfl
    · rw [List.map_append, List.nodup_append] at hd
      exact hd.2.2 _ hmem _ (by simp) rfl

/-- C95: the layout of a figure: what the user passes in layout_kwargs wins; otherwise title, legend, size and defaults are used. -/
theorem C95_layout_kwargs {layoutKwargs legendKwargs titleKwargs : Option (Dict Kw)} (h1 : IsDict layoutKwargs) (h2 : IsDict legendKwargs) (showlegend : Bool) (columns rows : Option (List String)) (k : String) :
    (getLayoutKwargs layoutKwargs legendKwargs titleKwargs showlegend columns rows).get? k = firstOf (userValue layoutKwargs k) (defaultLayout legendKwargs titleKwargs showlegend columns rows k) := by
  unfold getLayoutKwargs
  dsimp only
  rw [get?_updateWith h1]
  congr 1
  rw [get?_setOption, get?_setOption, get?_setOption, get?_setOption]
  have hleg : firstOf ((truthy legendKwargs).map (fun legend => Kw.dict (Dict.update [] legend))) (some (.dict [])) = some (.dict (legendKwargs.getD [])) := by
    rcases legendKwargs with _ | _ | ⟨kv, kvs⟩
    · rfl
    · rfl
    · show some (Kw.dict (Dict.update [] (kv :: kvs))) = _
      rw [update_nil (show ((kv :: kvs).map Prod.fst).Nodup from h2)]
      rfl
  have htit : firstOf ((truthy titleKwargs).map Kw.dict) (some (.dict [])) = some (.dict (titleKwargs.getD [])) := by
    rcases titleKwargs with _ | _ | ⟨kv, kvs⟩ <;> rfl
  unfold defaultLayout
  by_cases k1 : k = "template"
  · subst k1; simp [Dict.get?, firstOf]
  by_cases k2 : k = "xaxis_showgrid"
  · subst k2; simp [Dict.get?, firstOf]
  by_cases k3 : k = "yaxis_showgrid"
  · subst k3; simp [Dict.get?, firstOf]
  by_cases k4 : k = "legend"
  · subst k4
    rw [if_pos rfl]
    exact hleg
  by_cases k5 : k = "title"
  · subst k5
    rw [if_pos rfl]
    exact htit
  by_cases k6 : k = "showlegend"
  · subst k6; simp [Dict.get?, firstOf]
  by_cases k7 : k = "height"
  · subst k7; rcases rows with _ | rows <;> simp [Dict.get?, firstOf]
  by_cases k8 : k = "width"
  · subst k8; rcases columns with _ | columns <;> simp [Dict.get?, firstOf]
  have hk : ∀ s : String, ¬k = s → (s == k) = false := fun s h => by simpa using fun e => h e.symm
  simp [Dict.get?, List.find?_cons, hk, k1, k2, k3, k4, k5, k6, k7, k8, firstOf]

/-- C95: the arguments of make_subplots: what the user passes wins; the number of rows and columns is that of the subplots, and the default spaces between rows and between columns leave room for the subplots
(plotly raises an error if the spaces do not fit into the figure). In combined distribution plots, exactly the subplots above the diagonal are three-dimensional. -/
theorem C95_subplot_kwargs (sharex sharey : Bool) (columnOrder rowOrder : List String) {user : Option (Dict Kw)} (h : IsDict user) (addScenes : Bool) (hcols : columnOrder ≠ []) :
    ∃ d, getMakeSubplotKwargs sharex sharey columnOrder rowOrder user addScenes = .ok d ∧
      (∀ k, k ≠ "specs" → d.get? k = firstOf (userValue user k) (defaultSubplots sharex sharey columnOrder.length rowOrder.length k)) ∧
      (userValue user "specs" = none → (addScenes = true → ScenesAboveDiagonal rowOrder.length columnOrder.length (d.get? "specs")) ∧ (addScenes = false → d.get? "specs" = none)) ∧
      0 < columnSpace sharey columnOrder.length ∧ (columnOrder.length - 1) * columnSpace sharey columnOrder.length ≤ 1 / 3 ∧
      (1 < rowOrder.length → 0 < rowSpace rowOrder.length ∧ (rowOrder.length - 1) * rowSpace rowOrder.length = 1 / 4) := by
  have hn : columnOrder.length ≠ 0 := by simpa using hcols
  have hn' : (1 : ℝ) ≤ columnOrder.length := by exact_mod_cast Nat.one_le_iff_ne_zero.mpr hn
  unfold getMakeSubplotKwargs
  dsimp only
  rw [if_neg hn]
  have hs1 : ∀ (c : Bool) (d : Dict Kw) (key : String) (v : Kw) (k : String), Dict.get? (if c = true then Dict.setItem d key v else d) k = if k = key ∧ c = true then some v else d.get? k := by
    intro c d key v k
    cases c
    · simp
    · simp [get?_setItem]
  have hs2 : ∀ (P : Prop) [Decidable P] (d : Dict Kw) (key : String) (v : Kw) (k : String), Dict.get? (if P then Dict.setItem d key v else d) k = if k = key ∧ P then some v else d.get? k := by
    intro P _ d key v k
    by_cases hP : P
    · simp [hP, get?_setItem]
    · simp [hP]
  have hsp : (2 * (1 / ((columnOrder.length : ℝ) * 6))) = 1 / (3 * columnOrder.length) := by field_simp; norm_num
  have hvs : ((1 / ((rowOrder.length : ℝ) - 1)) / 4) = rowSpace rowOrder.length := by unfold rowSpace; rw [div_div, mul_comm]
  refine ⟨_, rfl, ?_, ?_, ?_, ?_, ?_⟩
  · intro k hk
    rw [get?_updateOption h]
    congr 1
    rw [hs1, hs1, hs2]
    unfold defaultSubplots columnSpace
    rw [if_neg (fun h => hk h.1), hsp, hvs]
    by_cases k1 : k = "rows"
    · subst k1; simp [Dict.get?]
    by_cases k2 : k = "cols"
    · subst k2; simp [Dict.get?]
    by_cases k3 : k = "start_cell"
    · subst k3; simp [Dict.get?]
    by_cases k4 : k = "print_grid"
    · subst k4; simp [Dict.get?]
    by_cases k5 : k = "shared_yaxes"
    · subst k5; simp [Dict.get?]
    by_cases k6 : k = "shared_xaxes"
    · subst k6; simp [Dict.get?]
    by_cases k7 : k = "horizontal_spacing"
    · subst k7
      cases sharey
      · simp
      · simp [Dict.get?, mul_comm]
    by_cases k8 : k = "vertical_spacing"
    · subst k8
      by_cases hr : 1 < rowOrder.length <;> simp [Dict.get?, hr]
    have hk' : ∀ s : String, ¬k = s → (s == k) = false := fun s h => by simpa using fun e => h e.symm
    simp [Dict.get?, List.find?_cons, hk', k1, k2, k3, k4, k5, k6, k7, k8]
  · intro hspecs
    rw [get?_updateOption h, hspecs]
    show (_ → ScenesAboveDiagonal _ _ (Dict.get? _ _)) ∧ (_ → Dict.get? _ _ = none)
    rw [hs1]
    refine ⟨fun ha => ?_, fun ha => ?_⟩
    · rw [if_pos ⟨rfl, ha⟩]
      refine ⟨sceneSpecs rowOrder.length columnOrder.length, rfl, by simp [sceneSpecs], fun i row hrow => ?_⟩
      unfold sceneSpecs at hrow
      rw [List.getElem?_map] at hrow
      obtain ⟨i', hi, rfl⟩ := Option.map_eq_some_iff.mp hrow
      obtain ⟨_, hi'⟩ := List.getElem?_eq_some_iff.mp hi
      rw [List.getElem_range] at hi'
      subst hi'
      refine ⟨by simp, fun j cell hcell => ?_⟩
      rw [List.getElem?_map] at hcell
      obtain ⟨j', hj, rfl⟩ := Option.map_eq_some_iff.mp hcell
      obtain ⟨_, hj'⟩ := List.getElem?_eq_some_iff.mp hj
      rw [List.getElem_range] at hj'
      subst hj'
      rfl
    · rw [if_neg (by simp [ha]), hs1, hs2]
      simp [Dict.get?]
  · unfold columnSpace
    split_ifs <;> positivity
  · unfold columnSpace
    split_ifs
    · rw [mul_one_div, div_le_div_iff₀ (by positivity) (by norm_num)]
      linarith
    · rw [mul_one_div, div_le_div_iff₀ (by positivity) (by norm_num)]
      linarith
  · intro hr
    have hr' : (0 : ℝ) < rowOrder.length - 1 := by
      have : (1 : ℝ) < rowOrder.length := by exact_mod_cast hr
      linarith
    unfold rowSpace
    refine ⟨by positivity, ?_⟩
    field_simp

/-- C95: without columns of subplots there is no figure (ZeroDivisionError). -/
theorem C95_no_columns (sharex sharey : Bool) (rowOrder : List String) (user : Option (Dict Kw)) (addScenes : Bool) :
    getMakeSubplotKwargs sharex sharey [] rowOrder user addScenes = .error .zeroDivisionError := rfl

/-! ### plots of distributions -/

/-- C95: the arguments of plots of univariate densities: what the user passes in distplot_kwargs wins over the individual arguments. -/
theorem C95_distplot_kwargs (showCurve showHist showRug : Bool) (curveType : String) (binSize : ℝ) (scenarios : List String) (colors : Kw) {user : Option (Dict Kw)} (h : IsDict user) (k : String) :
    (processDistplotKwargs showCurve showHist showRug curveType binSize scenarios colors user).get? k =
      firstOf (userValue user k) (defaultDistplot showCurve showHist showRug curveType binSize scenarios colors k) := by
  unfold processDistplotKwargs
  rw [get?_updateWith h]
  congr 1
  unfold defaultDistplot
  by_cases k1 : k = "show_curve"
  · subst k1; simp [Dict.get?]
  by_cases k2 : k = "show_hist"
  · subst k2; simp [Dict.get?]
  by_cases k3 : k = "show_rug"
  · subst k3; simp [Dict.get?]
  by_cases k4 : k = "curve_type"
  · subst k4; simp [Dict.get?]
  by_cases k5 : k = "bin_size"
  · subst k5; simp [Dict.get?]
  by_cases k6 : k = "group_labels"
  · subst k6; simp [Dict.get?]
  by_cases k7 : k = "colors"
  · subst k7; simp [Dict.get?]
  have hk' : ∀ s : String, ¬k = s → (s == k) = false := fun s h => by simpa using fun e => h e.symm
  simp [Dict.get?, List.find?_cons, hk', k1, k2, k3, k4, k5, k6, k7]

/-- C95: properties of contours: what the user passes in contour_kwargs wins over the individual arguments. -/
theorem C95_contour_kwargs {user : Option (Dict Kw)} (h : IsDict user) (showlabels : Bool) (coloring : Option String) (colorscale : String) (showscale : Bool) (k : String) :
    (processContourKwargs user showlabels coloring colorscale showscale).get? k = firstOf (userValue user k) (defaultContour showlabels coloring colorscale showscale k) := by
  unfold processContourKwargs
  rw [get?_updateWith h]
  congr 1
  unfold defaultContour
  by_cases k1 : k = "contours_coloring"
  · subst k1; cases coloring <;> simp [Dict.get?]
  by_cases k2 : k = "contours_showlabels"
  · subst k2; simp [Dict.get?]
  by_cases k3 : k = "colorscale"
  · subst k3; simp [Dict.get?]
  by_cases k4 : k = "showscale"
  · subst k4; simp [Dict.get?]
  have hk' : ∀ s : String, ¬k = s → (s == k) = false := fun s h => by simpa using fun e => h e.symm
  simp [Dict.get?, List.find?_cons, hk', k1, k2, k3, k4]

/-- C95: the layout of contour plots and surface plots: what the user passes in layout_kwargs wins. -/
theorem C95_distribution_layout {user : Option (Dict Kw)} (h : IsDict user) (showgrids showaxlines showlabels : Bool) :
    (∀ k, (processLayoutKwargs user).get? k = firstOf (userValue user k) (defaultPlotLayout k)) ∧
    (∀ k, k ≠ "scene" → (processLayoutKwargs3d user showgrids showaxlines showlabels).get? k = firstOf (userValue user k) (if k = "template" then some (.str "none") else none)) ∧
    ∃ scene, SceneAxes showgrids showaxlines showlabels scene ∧ (processLayoutKwargs3d user showgrids showaxlines showlabels).get? "scene" = firstOf (userValue user "scene") (some scene) := by
  refine ⟨fun k => ?_, fun k hk => ?_, .dict (["x", "y", "z"].map (fun ax => (ax ++ "axis", .dict ([("showgrid", .bool showgrids), ("showline", .bool showaxlines)] ++ if showlabels then [] else [("title", .str "")])))), ?_, ?_⟩
  rotate_left 3
  · unfold processLayoutKwargs3d
    rw [get?_updateWith h]
    rfl
  · unfold processLayoutKwargs
    rw [get?_updateWith h]
    congr 1
    unfold defaultPlotLayout
    by_cases k1 : k = "template"
    · subst k1; simp [Dict.get?]
    by_cases k2 : k = "xaxis_showgrid"
    · subst k2; simp [Dict.get?]
    by_cases k3 : k = "yaxis_showgrid"
    · subst k3; simp [Dict.get?]
    have hk' : ∀ s : String, ¬k = s → (s == k) = false := fun s h => by simpa using fun e => h e.symm
    simp [Dict.get?, List.find?_cons, hk', k1, k2, k3]
  · unfold processLayoutKwargs3d
    rw [get?_updateWith h]
    congr 1
    by_cases k1 : k = "template"
    · subst k1; simp [Dict.get?]
    have hk' : ∀ s : String, ¬k = s → (s == k) = false := fun s h => by simpa using fun e => h e.symm
    simp [Dict.get?, List.find?_cons, hk', k1, hk]
  · refine ⟨_, rfl, fun ax => ?_, fun ax axis hax => ?_⟩
    · simp only [List.map_map, List.mem_map, List.mem_cons, List.not_mem_nil, or_false, Function.comp]
      constructor
      · rintro ⟨a, rfl | rfl | rfl, rfl⟩
        · exact Or.inl (by decide)
        · exact Or.inr (Or.inl (by decide))
        · exact Or.inr (Or.inr (by decide))
      · rintro (rfl | rfl | rfl)
        · exact ⟨"x", by simp, by decide⟩
        · exact ⟨"y", by simp, by decide⟩
        · exact ⟨"z", by simp, by decide⟩
    · have : axis = .dict ([("showgrid", .bool showgrids), ("showline", .bool showaxlines)] ++ if showlabels then [] else [("title", .str "")]) := by
        unfold Dict.get? at hax
        obtain ⟨kv, hkv, rfl⟩ := Option.map_eq_some_iff.mp hax
        obtain ⟨a, _, rfl⟩ := List.mem_map.mp (List.mem_of_find?_eq_some hkv)
        rfl
      refine ⟨_, this, ?_, ?_, ?_, ?_⟩ <;> cases showlabels <;> simp [Dict.get?]

/-! ### heatmaps -/

theorem boolSelect_sublist {β : Type} (bs : List Bool) (xs : List β) : (boolSelect bs xs).Sublist xs := by
  induction bs generalizing xs with
  | nil => simp [boolSelect]
  | cons b bs ih =>
    cases xs with
    | nil => simp [boolSelect]
    | cons x xs =>
      unfold boolSelect
      split_ifs
      · exact (ih xs).cons_cons x
      · exact (ih xs).cons x

theorem processed_labels (corr : CorrTable) (rounding : Nat) (u d trim : Bool) :
    (processCorrDataForPlotting corr rounding u d trim).rows.Sublist corr.rows ∧ (processCorrDataForPlotting corr rounding u d trim).cols.Sublist corr.cols := by
  unfold processCorrDataForPlotting
  cases trim
  · exact ⟨List.Sublist.refl _, List.Sublist.refl _⟩
  · exact ⟨boolSelect_sublist _ _, boolSelect_sublist _ _⟩

theorem processed_shape {corr : CorrTable} (h : TableShape corr) (rounding : Nat) (u d trim : Bool) : TableShape (processCorrDataForPlotting corr rounding u d trim) := by
  cases trim
  · exact (C58_mask h rounding u d rfl).2.2.1
  · obtain ⟨_, _, _, _, _, _, _, _, h, _⟩ := C58_trim h rounding u d rfl
    exact h

theorem axisArg_ok {arg : Kw} {xy : Kw × Kw} (h : axisArg arg = .ok xy) : AxesArg arg xy.1 xy.2 := by
  unfold axisArg at h
  split at h
  · cases h
    exact Or.inl ⟨_, rfl⟩
  · cases h
  · rename_i d
    obtain ⟨x, hx, h⟩ := py_bind_ok.mp h
    obtain ⟨y, hy, h⟩ := py_bind_ok.mp h
    cases h
    refine Or.inr ⟨d, rfl, ?_, ?_⟩
    · unfold Dict.getItem at hx
      split at hx
      · cases hx; assumption
      · cases hx
    · unfold Dict.getItem at hy
      split at hy
      · cases hy; assumption
      · cases hy
  · cases h

theorem annotatesAll (text : ℝ → String) (font : Kw × Kw × Kw) {t : CorrTable} (h : TableShape t) (hr : t.rows.Nodup) (hc : t.cols.Nodup) {as : List (String × String × String)} (has : getAnnotations text t true = some as) :
    AnnotatesAll text font.1 font.2.1 font.2.2 t (as.map (annotationKw font)) := by
  unfold getAnnotations at has
  rw [if_pos rfl, Option.some.injEq] at has
  subst has
  have hcell : ∀ i j row col x, t.rows[i]? = some row → t.cols[j]? = some col → entry2 t.cells i j = some x → (t.cells.getD (t.rows.idxOf row) []).getD (t.cols.idxOf col) none = x := by
    intro i j row col x hi hj hx
    obtain ⟨hi', rfl⟩ := List.getElem?_eq_some_iff.mp hi
    obtain ⟨hj', rfl⟩ := List.getElem?_eq_some_iff.mp hj
    rw [hr.idxOf_getElem, hc.idxOf_getElem]
    unfold entry2 at hx
    obtain ⟨row, hrow, hx⟩ := Option.bind_eq_some_iff.mp hx
    rw [List.getD_eq_getElem?_getD, List.getD_eq_getElem?_getD, hrow, Option.getD_some, hx, Option.getD_some]
  have hann : ∀ row col x, Annotates text font.1 font.2.1 font.2.2 (annotationKw font (match x with
      | some x => text x
      | none => "", col, row)) row col x := by
    intro row col x
    exact ⟨_, rfl, rfl, rfl, rfl, rfl, rfl, rfl, rfl, rfl⟩
  refine ⟨?_, ?_, ?_⟩
  · rw [List.length_map, List.length_flatMap]
    simp [mul_comm]
  · rintro row col x ⟨i, j, hi, hj, hx⟩
    refine ⟨_, List.mem_map.mpr ⟨_, List.mem_flatMap.mpr ⟨col, List.mem_reverse.mpr (List.mem_of_getElem? hj), List.mem_map.mpr ⟨row, List.mem_reverse.mpr (List.mem_of_getElem? hi), rfl⟩⟩, rfl⟩, ?_⟩
    rw [hcell i j row col x hi hj hx]
    exact hann row col x
  · intro a ha
    obtain ⟨_, h1, rfl⟩ := List.mem_map.mp ha
    obtain ⟨col, hcol, h1⟩ := List.mem_flatMap.mp h1
    obtain ⟨row, hrow, rfl⟩ := List.mem_map.mp h1
    obtain ⟨i, hi, rfl⟩ := List.mem_iff_getElem.mp (List.mem_reverse.mp hrow)
    obtain ⟨j, hj, rfl⟩ := List.mem_iff_getElem.mp (List.mem_reverse.mp hcol)
    obtain ⟨x, hx⟩ := entry2_of_shape h hi hj
    refine ⟨_, _, x, ⟨i, j, List.getElem?_eq_getElem hi, List.getElem?_eq_getElem hj, hx⟩, ?_⟩
    rw [hcell i j _ _ x (List.getElem?_eq_getElem hi) (List.getElem?_eq_getElem hj) hx]
    exact hann _ _ x

/-- C96: the heatmap figure. The colors are those of the arguments, the color scale ends at zmax and by default it is symmetric around zero; what the user passes in heatmap_kwargs and layout_kwargs wins.
Every cell has an annotation with the rounded correlation, without text if it is hidden. -/
theorem C96_heatmap {text : ℝ → String} {corr : CorrTable} (h : TableShape corr) (hr : corr.rows.Nodup) (hc : corr.cols.Nodup) {heatmapKwargs layoutKwargs : Option (Dict Kw)} (h1 : IsDict heatmapKwargs)
    (h2 : IsDict layoutKwargs) {rounding : Nat} {zmax zmin zmid : Option ℝ} {colorscale : String} {showColorBar showDiagonal showUpper trim annotate : Bool} {size color angle tickFontsize tickAngle tickColor : Kw}
    {table : CorrTable} {heatmap layout : Dict Kw}
    (hok : plotHeatmap text corr heatmapKwargs layoutKwargs rounding zmax zmin zmid colorscale showColorBar showDiagonal showUpper trim annotate (size, color, angle) tickFontsize tickAngle tickColor
      = .ok (table, heatmap, layout)) :
    (∃ z : Option ℝ, plotCorrelationHeatmap corr rounding showUpper showDiagonal trim zmax = .ok (table, z) ∧ (∀ y, zmax = some y → z = some y) ∧
      ∀ k, heatmap.get? k = firstOf (userValue heatmapKwargs k) (defaultHeatmap colorscale showColorBar z zmin zmid k)) ∧
    (∃ sx sy ax ay cx cy, AxesArg tickFontsize sx sy ∧ AxesArg tickAngle ax ay ∧ AxesArg tickColor cx cy ∧
      ∀ k, k ≠ "annotations" → layout.get? k = firstOf (userValue layoutKwargs k) (defaultHeatmapLayout sx sy ax ay cx cy k)) ∧
    (userValue layoutKwargs "annotations" = none → annotate = true → ∃ as, layout.get? "annotations" = some (.list as) ∧ AnnotatesAll text size color angle table as) ∧
    (annotate = false → layout.get? "annotations" = userValue layoutKwargs "annotations") := by
  unfold plotHeatmap at hok
  obtain ⟨hm, hhm, hok⟩ := py_bind_ok.mp hok
  obtain ⟨l, hl, hok⟩ := py_bind_ok.mp hok
  split_ifs at hok
  simp only [Except.ok.injEq, Prod.mk.injEq] at hok
  obtain ⟨rfl, rfl, rfl⟩ := hok
  refine ⟨?_, ?_⟩
  · unfold getHeatmapKwargs at hhm
    obtain ⟨z, hz, hhm⟩ := py_bind_ok.mp hhm
    cases hhm
    refine ⟨z, ?_, ?_, fun k => ?_⟩
    · unfold plotCorrelationHeatmap
      rcases zmax with _ | zmax
      · dsimp only
        rw [show defaultZmax (processCorrDataForPlotting corr rounding showUpper showDiagonal trim) = .ok z from hz]
        rfl
      · cases hz
        rfl
    · rintro y rfl
      cases hz
      rfl
    · rw [get?_updateWith h1]
      congr 1
      unfold defaultHeatmap
      by_cases k1 : k = "colorscale"
      · subst k1; simp [Dict.get?]
      by_cases k2 : k = "showscale"
      · subst k2; simp [Dict.get?]
      by_cases k3 : k = "zmax"
      · subst k3; cases z <;> simp [Dict.get?, Kw.ofOption]
      by_cases k4 : k = "zmin"
      · subst k4; cases zmin <;> cases z <;> simp [Dict.get?, Kw.ofOption]
      by_cases k5 : k = "zmid"
      · subst k5; simp [Dict.get?]
      have hk' : ∀ s : String, ¬k = s → (s == k) = false := fun s h => by simpa using fun e => h e.symm
      simp [Dict.get?, List.find?_cons, hk', k1, k2, k3, k4, k5]
  · unfold heatmapLayoutKwargs at hl
    obtain ⟨ticks, ht, hl⟩ := py_bind_ok.mp hl
    unfold getAxesTicksKwargs at ht
    obtain ⟨s, hs, ht⟩ := py_bind_ok.mp ht
    obtain ⟨a, ha, ht⟩ := py_bind_ok.mp ht
    obtain ⟨c, hc', ht⟩ := py_bind_ok.mp ht
    cases ht
    cases hl
    have hget : ∀ (d : Dict Kw) k, Dict.get? (Dict.update d [("xaxis", .dict [("tickangle", a.1), ("tickfont", .dict [("color", c.1), ("size", s.1)])]), ("yaxis", .dict [("tickangle", a.2), ("tickfont", .dict [("color", c.2), ("size", s.2)])])]) k =
        firstOf (Dict.get? [("xaxis", .dict [("tickangle", a.1), ("tickfont", .dict [("color", c.1), ("size", s.1)])]), ("yaxis", .dict [("tickangle", a.2), ("tickfont", .dict [("color", c.2), ("size", s.2)])])] k) (d.get? k) :=
      fun d k => get?_update (by simp) k
    have hann : ∀ (d : Dict Kw) k, Dict.get? (Dict.updateOption d ((getAnnotations text (processCorrDataForPlotting corr rounding showUpper showDiagonal trim) annotate).map (fun as => [("annotations", Kw.list (as.map (annotationKw (size, color, angle))))]))) k = firstOf (if k = "annotations" then (getAnnotations text (processCorrDataForPlotting corr rounding showUpper showDiagonal trim) annotate).map (fun as => Kw.list (as.map (annotationKw (size, color, angle)))) else none) (d.get? k) := by
      intro d k
      rcases getAnnotations text (processCorrDataForPlotting corr rounding showUpper showDiagonal trim) annotate with _ | as
      · simp [firstOf, Dict.updateOption]
      · simp only [Option.map_some, Dict.updateOption, get?_update (d := d) (o := [("annotations", Kw.list (as.map (annotationKw (size, color, angle))))]) (by simp)]
        congr 1
        by_cases hk : k = "annotations"
        · subst hk; simp [Dict.get?]
        · have : ("annotations" == k) = false := by simpa using fun e => hk e.symm
          simp [Dict.get?, List.find?_cons, this, hk]
    refine ⟨⟨s.1, s.2, a.1, a.2, c.1, c.2, axisArg_ok hs, axisArg_ok ha, axisArg_ok hc', fun k hk => ?_⟩, fun hu hat => ?_, fun hat => ?_⟩
    · rw [get?_updateWith h2, hget, hann, if_neg hk]
      congr 1
      unfold defaultHeatmapLayout
      by_cases k1 : k = "xaxis_showgrid"
      · subst k1; simp [Dict.get?, firstOf]
      by_cases k2 : k = "yaxis_showgrid"
      · subst k2; simp [Dict.get?, firstOf]
      by_cases k3 : k = "template"
      · subst k3; simp [Dict.get?, firstOf]
      by_cases k4 : k = "yaxis_autorange"
      · subst k4; simp [Dict.get?, firstOf]
      by_cases k5 : k = "xaxis"
      · subst k5; simp [Dict.get?, firstOf]
      by_cases k6 : k = "yaxis"
      · subst k6; simp [Dict.get?, firstOf]
      have hk' : ∀ s : String, ¬k = s → (s == k) = false := fun s h => by simpa using fun e => h e.symm
      simp [Dict.get?, List.find?_cons, hk', k1, k2, k3, k4, k5, k6, firstOf]
    · subst hat
      obtain ⟨as, has⟩ : ∃ as, getAnnotations text (processCorrDataForPlotting corr rounding showUpper showDiagonal trim) true = some as := ⟨_, rfl⟩
      refine ⟨as.map (annotationKw (size, color, angle)), ?_, annotatesAll text (size, color, angle) (processed_shape h rounding showUpper showDiagonal trim)
        (hr.sublist (processed_labels corr rounding showUpper showDiagonal trim).1) (hc.sublist (processed_labels corr rounding showUpper showDiagonal trim).2) has⟩
      rw [get?_updateWith h2, hu, hget, hann, if_pos rfl, has]
      rfl
    · subst hat
      rw [get?_updateWith h2, hget, hann, if_pos rfl]
      show firstOf _ (firstOf none (firstOf none none)) = _
      cases userValue layoutKwargs "annotations" <;> rfl

/-- C96: the figure exists if the end of the color scale is known (see C75) and the arguments of the axes are pairs or dictionaries; the arguments z, x and y of go.Heatmap cannot be replaced. -/
theorem C96_succeeds (text : ℝ → String) (corr : CorrTable) {heatmapKwargs : Option (Dict Kw)} (h1 : IsDict heatmapKwargs) (hk : ∀ k ∈ ["z", "x", "y"], userValue heatmapKwargs k = none)
    (layoutKwargs : Option (Dict Kw)) (rounding : Nat) (zmax zmin zmid : Option ℝ) (colorscale : String) (showColorBar showDiagonal showUpper trim annotate : Bool) (font : Kw × Kw × Kw)
    {tickFontsize tickAngle tickColor sx sy ax ay cx cy : Kw} (hs : AxesArg tickFontsize sx sy) (ha : AxesArg tickAngle ax ay) (hc : AxesArg tickColor cx cy)
    {table : CorrTable} {z : Option ℝ} (hz : plotCorrelationHeatmap corr rounding showUpper showDiagonal trim zmax = .ok (table, z)) :
    ∃ out, plotHeatmap text corr heatmapKwargs layoutKwargs rounding zmax zmin zmid colorscale showColorBar showDiagonal showUpper trim annotate font tickFontsize tickAngle tickColor = .ok out := by
  have haxis : ∀ {arg x y : Kw}, AxesArg arg x y → axisArg arg = .ok (x, y) := by
    rintro arg x y (⟨rest, rfl⟩ | ⟨d, rfl, hx, hy⟩)
    · rfl
    · simp [axisArg, Dict.getItem, hx, hy, bind, Except.bind, pure, Except.pure]
  unfold plotHeatmap
  dsimp only
  obtain ⟨hm, hhm⟩ : ∃ hm, getHeatmapKwargs (processCorrDataForPlotting corr rounding showUpper showDiagonal trim) heatmapKwargs colorscale showColorBar zmax zmin zmid = .ok hm := by
    unfold getHeatmapKwargs
    have : heatmapZmax (processCorrDataForPlotting corr rounding showUpper showDiagonal trim) zmax = .ok z := by
      unfold plotCorrelationHeatmap at hz
      rcases zmax with _ | zmax
      · dsimp only at hz
        obtain ⟨z', hz', hz⟩ := py_bind_ok.mp hz
        cases hz
        exact hz'
      · cases hz
        rfl
    rw [this]
    exact ⟨_, rfl⟩
  obtain ⟨l, hl⟩ : ∃ l, heatmapLayoutKwargs text (processCorrDataForPlotting corr rounding showUpper showDiagonal trim) layoutKwargs annotate font tickFontsize tickAngle tickColor = .ok l := by
    unfold heatmapLayoutKwargs getAxesTicksKwargs
    rw [haxis hs, haxis ha, haxis hc]
    exact ⟨_, rfl⟩
  rw [hhm, hl]
  have hnone : ∀ k ∈ ["z", "x", "y"], hm.get? k = none := by
    intro k hk'
    unfold getHeatmapKwargs at hhm
    obtain ⟨z, hz, hhm⟩ := py_bind_ok.mp hhm
    cases hhm
    rw [get?_updateWith h1, hk k hk']
    simp only [List.mem_cons, List.not_mem_nil, or_false] at hk'
    rcases hk' with rfl | rfl | rfl <;> simp [firstOf, Dict.get?]
  refine ⟨_, if_neg ?_⟩
  simp [hnone]

/-- C96: an end of the color scale that the user passes is used, with and without trimming. -/
theorem C96_given_zmax (corr : CorrTable) (rounding : Nat) (showUpper showDiagonal trim : Bool) (z : ℝ) :
    ∃ table, plotCorrelationHeatmap corr rounding showUpper showDiagonal trim (some z) = .ok (table, some z) := ⟨_, rfl⟩

/-- C96: the arguments z, x and y of go.Heatmap cannot be passed in heatmap_kwargs. -/
theorem C96_reserved {text : ℝ → String} {corr : CorrTable} {heatmapKwargs layoutKwargs : Option (Dict Kw)} (h1 : IsDict heatmapKwargs) {k : String} (hk : k ∈ ["z", "x", "y"]) {v : Kw}
    (hv : userValue heatmapKwargs k = some v) {rounding : Nat} {zmax zmin zmid : Option ℝ} {colorscale : String} {showColorBar showDiagonal showUpper trim annotate : Bool} {font : Kw × Kw × Kw}
    {tickFontsize tickAngle tickColor : Kw} (out : CorrTable × Dict Kw × Dict Kw) :
    plotHeatmap text corr heatmapKwargs layoutKwargs rounding zmax zmin zmid colorscale showColorBar showDiagonal showUpper trim annotate font tickFontsize tickAngle tickColor ≠ .ok out := by
  intro hok
  unfold plotHeatmap at hok
  obtain ⟨hm, hhm, hok⟩ := py_bind_ok.mp hok
  obtain ⟨l, hl, hok⟩ := py_bind_ok.mp hok
  split_ifs at hok with h
  refine h (List.any_eq_true.mpr ⟨k, hk, ?_⟩)
  unfold getHeatmapKwargs at hhm
  obtain ⟨z, hz, hhm⟩ := py_bind_ok.mp hhm
  cases hhm
  rw [get?_updateWith h1, hv]
  rfl

end Skill
