import Verif.Props.PlotKwargs
/-
C95 and C96 for concrete figures: the hypotheses can be met.
-/
namespace Skill.Ex
open Spec

/-- A figure with two columns and three rows; the user sets the height and a title. -/
example (k : String) (_ : k = "height") :
    (getLayoutKwargs (some [("height", .num 500), ("font", .dict [("size", .num 8)])]) none (some [("text", .str "Skills")]) true (some ["a", "b"]) (some ["a", "b", "c"])).get? k = some (.num 500) := by
  subst k
  rw [C95_layout_kwargs (by unfold IsDict; decide) (by unfold IsDict; decide)]
  simp [userValue, Dict.get?, firstOf]

example : (getLayoutKwargs (some [("height", .num 500)]) none (some [("text", .str "Skills")]) true (some ["a", "b"]) (some ["a", "b", "c"])).get? "width" = some (.num 600) ∧
    (getLayoutKwargs (some [("height", .num 500)]) none (some [("text", .str "Skills")]) true (some ["a", "b"]) (some ["a", "b", "c"])).get? "title" = some (.dict [("text", .str "Skills")]) := by
  rw [C95_layout_kwargs (by unfold IsDict; decide) (by unfold IsDict; decide), C95_layout_kwargs (by unfold IsDict; decide) (by unfold IsDict; decide)]
  constructor
  · simp [userValue, Dict.get?, firstOf, defaultLayout]
    norm_num
  · simp [userValue, Dict.get?, firstOf, defaultLayout]

/-- Subplots for three factors: the user's vertical space is used, the default for the horizontal one. -/
example : ∃ d, getMakeSubplotKwargs false true ["a", "b", "c"] ["a", "b", "c"] (some [("vertical_spacing", .num 0)]) true = .ok d ∧ d.get? "vertical_spacing" = some (.num 0) ∧
    d.get? "horizontal_spacing" = some (.num (1 / 18)) ∧ ScenesAboveDiagonal 3 3 (d.get? "specs") := by
  obtain ⟨d, h1, h2, h3, _⟩ := C95_subplot_kwargs false true ["a", "b", "c"] ["a", "b", "c"] (user := some [("vertical_spacing", .num 0)]) (by unfold IsDict; decide) true (by simp)
  refine ⟨d, h1, ?_, ?_, (h3 (by simp [userValue, Dict.get?])).1 rfl⟩
  · rw [h2 _ (by decide)]
    simp [userValue, Dict.get?, firstOf]
  · rw [h2 _ (by decide)]
    simp [userValue, Dict.get?, firstOf, defaultSubplots, columnSpace]
    norm_num

/-- The table of correlations of two variables. -/
noncomputable def corr2 : CorrTable := ⟨["a", "b"], ["a", "b"], [[some 1, some (1 / 2)], [some (1 / 2), some 1]]⟩

theorem corr2_shape : TableShape corr2 := ⟨rfl, by simp [corr2]⟩

/-- The heatmap with its default arguments: the color scale ends at the correlation, there are four annotations. -/
theorem heatmap2 (text : ℝ → String) : ∃ table heatmap layout z, plotHeatmap text corr2 (some [("xgap", .num 1)]) none 2 none none none "RdBu_r" true true true false true (.num 13, .str "black", .num 0)
      (.list [.num 12, .num 12]) (.list [.num 90, .num 0]) (.list [.str "black", .str "black"]) = .ok (table, heatmap, layout) ∧
    heatmap.get? "zmax" = some (.num z) ∧ heatmap.get? "zmin" = some (.num (-z)) ∧ heatmap.get? "xgap" = some (.num 1) ∧
    ∃ as, layout.get? "annotations" = some (.list as) ∧ as.length = 4 ∧ AnnotatesAll text (.num 13) (.str "black") (.num 0) table as := by
  have h1 : IsDict (some [("xgap", Kw.num 1)]) := by unfold IsDict; decide
  have h2 : IsDict none := by unfold IsDict; decide
  obtain ⟨table, z, hz, _⟩ := C75_color_scale_partial corr2_shape 2 true true ⟨by simp [corr2], by simp [corr2]⟩ (by
    intro i j x hx
    unfold entry2 corr2 at hx
    rcases i with _ | _ | i <;> rcases j with _ | _ | j <;> simp at hx <;> exact ⟨_, hx.symm⟩)
  obtain ⟨⟨table', heatmap, layout⟩, hok⟩ := C96_succeeds text corr2 h1 (by simp [userValue, Dict.get?]) none 2 none none none "RdBu_r" true true true false true (.num 13, .str "black", .num 0)
    (tickFontsize := .list [.num 12, .num 12]) (tickAngle := .list [.num 90, .num 0]) (tickColor := .list [.str "black", .str "black"]) (Or.inl ⟨_, rfl⟩) (Or.inl ⟨_, rfl⟩) (Or.inl ⟨_, rfl⟩) hz
  obtain ⟨⟨z', hz', _, hh⟩, _, ha, _⟩ := C96_heatmap corr2_shape (by simp [corr2]) (by simp [corr2]) h1 h2 hok
  rw [hz] at hz'
  simp only [Except.ok.injEq, Prod.mk.injEq] at hz'
  obtain ⟨rfl, rfl⟩ := hz'
  obtain ⟨as, has, hall⟩ := ha rfl rfl
  refine ⟨_, _, _, z, hok, ?_, ?_, ?_, as, has, ?_, hall⟩
  · rw [hh]
    simp [userValue, Dict.get?, firstOf, defaultHeatmap, Kw.ofOption]
  · rw [hh]
    simp [userValue, Dict.get?, firstOf, defaultHeatmap, Kw.ofOption]
  · rw [hh]
    simp [userValue, Dict.get?, firstOf]
  · rw [hall.number]
    unfold plotCorrelationHeatmap at hz
    obtain ⟨z', _, hz⟩ := py_bind_ok.mp hz
    cases hz
    rfl

/-- A user's z is an error. -/
example (text : ℝ → String) (out : CorrTable × Dict Kw × Dict Kw) : plotHeatmap text corr2 (some [("z", .list [])]) none 2 none none none "RdBu_r" true true true false true (.num 13, .str "black", .num 0)
    (.list [.num 12, .num 12]) (.list [.num 90, .num 0]) (.list [.str "black", .str "black"]) ≠ .ok out :=
  C96_reserved (by unfold IsDict; decide) (k := "z") (v := .list []) (by simp) (by simp [userValue, Dict.get?]) out

/-- Plots of densities: bin_size of distplot_kwargs wins; contours without labels. -/
example : (processDistplotKwargs true false false "kde" 1 ["none"] (.list []) (some [("bin_size", .num 2)])).get? "bin_size" = some (.num 2) ∧
    (processContourKwargs (some [("showscale", .bool true)]) false none "RdBu_r" false).get? "contours_coloring" = some (.str "none") := by
  rw [C95_distplot_kwargs _ _ _ _ _ _ _ (by unfold IsDict; decide), C95_contour_kwargs (by unfold IsDict; decide)]
  simp [userValue, Dict.get?, firstOf, defaultContour]

example : ∃ scene, SceneAxes true true false scene ∧ (processLayoutKwargs3d none true true false).get? "scene" = some scene := by
  obtain ⟨_, _, scene, h1, h2⟩ := C95_distribution_layout (user := none) (by unfold IsDict; decide) true true false
  exact ⟨scene, h1, h2⟩

end Skill.Ex
