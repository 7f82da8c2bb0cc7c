import Verif.Props.CombineDistributions
import Verif.Props.TransitionPlotsExamples
/-
Counterexamples for C80, C82 and C84; the hypotheses of C80-C84 can be met.
-/
namespace Skill
open Spec Matrix
namespace Ex

/-- Four individuals in the plane. -/
noncomputable def fourPoints : List (ℝ × ℝ) := [(0, 0), (1, 0), (1, 0), (0, 1)]

theorem fourPoints_cov : sampleCov fourPoints = (1 / 3, -1 / 6, 1 / 4) := by
  simp only [sampleCov, fourPoints, List.map_cons, List.map_nil, List.sum_cons, List.sum_nil, List.length_cons, List.length_nil]
  norm_num

theorem fourPoints_spread : NotDegenerate (fourPoints.map vec2) := by
  unfold NotDegenerate
  rw [sampleCov_eq, fourPoints_cov, Matrix.det_fin_two_of]
  norm_num

/-- The density at the lower right corner is larger than the density at the upper left corner. -/
theorem fourPoints_density : kernelDensity (fourPoints.map vec2) ![0, 1] < kernelDensity (fourPoints.map vec2) ![1, 0] := by
  have h := (gaussianKde_eq fourPoints).1 fourPoints_spread
  unfold gaussianKde at h
  simp only [fourPoints_cov] at h
  have hs : (0 : ℝ) < (((fourPoints.length : ℝ)) ^ (-(1 : ℝ) / 6)) ^ 2 := by
    have : (0 : ℝ) < fourPoints.length := by norm_num [fourPoints]
    have := Real.rpow_pos_of_pos this (-(1 : ℝ) / 6)
    positivity
  generalize (((fourPoints.length : ℝ)) ^ (-(1 : ℝ) / 6)) ^ 2 = s at hs h
  have hdet : 1 / 3 * s * (1 / 4 * s) - -1 / 6 * s * (-1 / 6 * s) = s ^ 2 / 18 := by ring
  rw [hdet, if_pos (by positivity)] at h
  have h := Option.some.inj h
  have e1 := congrFun (congrFun h 0) 1
  have e2 := congrFun (congrFun h 1) 0
  rw [← e1, ← e2]
  have hlen : (fourPoints.length : ℝ) = 4 := by norm_num [fourPoints]
  rw [hlen]
  refine div_lt_div_of_pos_right (div_lt_div_of_pos_right ?_ (by positivity)) (by norm_num)
  have hq : ∀ x y u v : ℝ, -((1 / 4 * s * (x - u) * (x - u) - 2 * (-1 / 6 * s) * (x - u) * (y - v) + 1 / 3 * s * (y - v) * (y - v)) / (s ^ 2 / 18)) / 2 =
      -(9 * (1 / 4 * (x - u) ^ 2 + 1 / 3 * (x - u) * (y - v) + 1 / 3 * (y - v) ^ 2)) / s := by
    intro x y u v
    field_simp
    ring
  simp only [hq, fourPoints, List.map_cons, List.map_nil, List.sum_cons, List.sum_nil]
  have hlt : Real.exp (-3 / s) < 1 := by
    rw [Real.exp_lt_one_iff]
    exact div_neg_of_neg_of_pos (by norm_num) hs
  norm_num
  linarith

theorem gridOf_two {vals grid : List ℝ} {lo hi : ℝ} (h : GridOf vals 2 grid) (hlo : IsLeast {x | x ∈ vals} lo) (hhi : IsGreatest {x | x ∈ vals} hi) : grid = [lo, hi] := by
  obtain ⟨hlen, lo', hi', h1, h2, h3, h4, _⟩ := h
  obtain rfl := h1.unique hlo
  obtain rfl := h2.unique hhi
  match grid, hlen with
  | [x, y], _ =>
    rw [h3 x rfl, h4 y (by simp) rfl]

/-- The states of the four individuals. -/
noncomputable def fourStates : PlotStatesFrame where
  columns := ["a", "b"]
  rows := fourPoints.map (fun p => { id := 0, period := 0, values := fun f => if f = "a" then some p.1 else if f = "b" then some p.2 else none })

theorem fourStates_sample : SampleIs fourStates.rows 0 ("a", "b") (fourPoints.map vec2) := by
  unfold SampleIs fourStates
  rw [List.filter_eq_self.mpr (by
    intro r hr
    obtain ⟨_, _, rfl⟩ := List.mem_map.mp hr
    rfl), List.forall₂_map_left_iff, List.forall₂_map_right_iff, List.forall₂_same]
  intro p _
  simp [vec2]

theorem ab_columns : ∀ f ∈ ["a", "b"], f ∉ linearData.columns ∧ f ∈ fourStates.columns := by
  intro f hf
  simp only [List.mem_cons, List.not_mem_nil, or_false] at hf
  rcases hf with rfl | rfl <;> simp [linearData, fourStates]

/-- **C80 is false.** Four individuals; the contour plot of "a" and "b" on a grid with two points in each direction shows the density of the point (0, 1) at the point (1, 0), and they are different. -/
theorem C80_counterexample : ∃ pm plots plot trace ps v, processModel linearModel = .ok pm ∧
    bivariateDensityContours pm.labels linearData (.frame fourStates) 0 none false 2 10 = .ok plots ∧ (("a", "b"), plot) ∈ plots ∧ plot.traces = [trace] ∧
    SampleIs fourStates.rows 0 ("a", "b") ps ∧ NotDegenerate ps ∧ ContourShows trace 1 0 v ∧ v ≠ kernelDensity ps ![1, 0] := by
  obtain ⟨pm, hpm, _⟩ := linearModel_ok
  obtain ⟨plots, h1, _, h2, h3⟩ := C80_contours_partial hpm (data := linearData) (states := .frame fourStates) (t := 0) (arg := none) (observedFactors := false) (fs := ["a", "b"]) (Or.inr ⟨rfl, rfl⟩) (by simp)
    (by simp [scenariosOf]) (by simp [scenariosOf]) (fun f hf => ⟨(ab_columns f hf).1, fun s hs => by rw [List.mem_singleton.mp hs]; exact (ab_columns f hf).2⟩) 2 10 (by simp [scenariosOf])
  have hmem := (h2 ("a", "b")).mpr ⟨by simp, by simp, by decide⟩
  obtain ⟨⟨pair, plot⟩, hp, rfl⟩ := List.mem_map.mp hmem
  obtain ⟨_, _, h4⟩ := h3 _ _ hp
  have h5 := h4 [fourPoints.map vec2] (.cons ⟨fourStates_sample, fourPoints_spread⟩ .nil)
  obtain ⟨trace, rest, ⟨g1, g2, _, g3⟩, hrest, htr⟩ := List.forall₂_cons_left_iff.mp h5
  cases hrest
  have m1 : (fourPoints.map vec2).map (fun p => p 0) = [0, 1, 1, 0] := by simp [fourPoints, vec2]
  have m2 : (fourPoints.map vec2).map (fun p => p 1) = [0, 0, 0, 1] := by simp [fourPoints, vec2]
  rw [m1] at g1
  rw [m2] at g2
  have hx := gridOf_two (lo := 0) (hi := 1) g1 ⟨by simp, by intro x hx; simp at hx; rcases hx with rfl | rfl | rfl <;> norm_num⟩ ⟨by simp, by intro x hx; simp at hx; rcases hx with rfl | rfl | rfl <;> norm_num⟩
  have hy := gridOf_two (lo := 0) (hi := 1) g2 ⟨by simp, by intro x hx; simp at hx; rcases hx with rfl | rfl <;> norm_num⟩ ⟨by simp, by intro x hx; simp at hx; rcases hx with rfl | rfl <;> norm_num⟩
  refine ⟨pm, plots, plot, trace, fourPoints.map vec2, kernelDensity (fourPoints.map vec2) ![0, 1], hpm, h1, hp, htr, fourStates_sample, fourPoints_spread, ?_, fourPoints_density.ne⟩
  exact C80_transposed g3 (i := 0) (j := 1) (by rw [hx]; rfl) (by rw [hx]; rfl) (by rw [hy]; rfl) (by rw [hy]; rfl)

/-- The surface plot of the same states shows the density estimate. -/
example : ∃ pm plots plot, processModel linearModel = .ok pm ∧ bivariateDensitySurfaces pm.labels linearData (.frame fourStates) 0 none false 50 = .ok plots ∧ (("a", "b"), plot) ∈ plots ∧
    SurfaceOf plot (fourPoints.map vec2) 50 := by
  obtain ⟨pm, hpm, _⟩ := linearModel_ok
  obtain ⟨plots, h1, _, h2, h3⟩ := C81_surfaces hpm (data := linearData) (df := fourStates) (t := 0) (arg := none) (observedFactors := false) (fs := ["a", "b"]) (Or.inr ⟨rfl, rfl⟩) (by simp) ab_columns 50
  have hmem := (h2 ("a", "b")).mpr ⟨by simp, by simp, by decide⟩
  obtain ⟨⟨pair, plot⟩, hp, rfl⟩ := List.mem_map.mp hmem
  exact ⟨pm, plots, plot, hpm, h1, hp, ((h3 _ _ hp).2.2.1 _ fourStates_sample).1 fourPoints_spread⟩

/-- The univariate densities of the same states. -/
example : ∃ pm plots, processModel linearModel = .ok pm ∧ univariateDensities some pm.labels linearData (.frame fourStates) 0 none false = .ok plots ∧ plots.map Prod.fst = ["a", "b"] ∧
    plots.map (fun p => p.2.traces) = [[[(some "none", [some 0, some 1, some 1, some 0])]], [[(some "none", [some 0, some 0, some 0, some 1])]]] := by
  obtain ⟨pm, hpm, _⟩ := linearModel_ok
  refine ⟨pm, _, hpm, C84_univariate_latent some hpm (data := linearData) (states := .frame fourStates) (t := 0) (arg := none) (observedFactors := false) (fs := ["a", "b"]) (Or.inr ⟨rfl, rfl⟩) (by simp)
    (by simp [scenariosOf]) (by simp [scenariosOf]) ?_ (fun f hf => ⟨(ab_columns f hf).1, fun s hs => by rw [List.mem_singleton.mp hs]; exact (ab_columns f hf).2⟩), rfl, ?_⟩
  · intro s hs
    rw [List.mem_singleton.mp hs]
    exact ⟨_, List.mem_map.mpr ⟨(0, 0), by simp [fourPoints], rfl⟩, rfl⟩
  · simp [scenariosOf, fourStates, fourPoints]

/-- The states of three individuals. -/
noncomputable def threeStates : PlotStatesFrame where
  columns := ["a", "b"]
  rows := [(0, 0), (1, 1), (2, 3)].map (fun p => { id := p.1, period := 0, values := fun f => if f = "a" ∨ f = "b" then some p.2 else none })

/-- Data in which the first two individuals are in another order; the number of an individual is its id minus one. -/
noncomputable def mixedRow (id : Int) (o : ℝ) : LongRow ℝ where
  id := id
  period := 0
  cell c := if c = "o" then some o else none

noncomputable def mixedData : LongData ℝ where
  columns := ["y1", "y2", "w", "x", "o"]
  idLevel := [1, 2, 3]
  periodLevel := [0]
  rows := [mixedRow 2 0, mixedRow 1 1, mixedRow 3 3]

/-- The same data, sorted by individuals. -/
noncomputable def sortedData : LongData ℝ where
  columns := ["y1", "y2", "w", "x", "o"]
  idLevel := [1, 2, 3]
  periodLevel := [0]
  rows := [mixedRow 1 1, mixedRow 2 0, mixedRow 3 3]

/-- The values of "a" and "o" of the three individuals. -/
noncomputable def threePoints : List (ℝ × ℝ) := [(0, 1), (1, 0), (3, 3)]

theorem threePoints_spread : NotDegenerate (threePoints.map vec2) := by
  have : sampleCov threePoints = (7 / 3, 11 / 6, 7 / 3) := by
    simp only [sampleCov, threePoints, List.map_cons, List.map_nil, List.sum_cons, List.sum_nil, List.length_cons, List.length_nil]
    norm_num
  unfold NotDegenerate
  rw [sampleCov_eq, this, Matrix.det_fin_two_of]
  norm_num

theorem threeStates_period : threeStates.rows.filter (fun r => decide (r.period = 0)) = threeStates.rows := by
  rw [List.filter_eq_self]
  intro r hr
  obtain ⟨_, _, rfl⟩ := List.mem_map.mp hr
  rfl

theorem mixedData_sample : JointSample mixedData [1, 2, 3] [0] "o" threeStates.rows 0 ("a", "o") (threePoints.map vec2) := by
  unfold JointSample
  rw [threeStates_period]
  refine .cons ⟨⟨fun _ => ?_, fun h => absurd h (by decide)⟩, fun h => absurd rfl h, fun _ => ⟨mixedRow 1 1, ⟨by simp [mixedData], rfl, rfl⟩, ?_⟩⟩
    (.cons ⟨⟨fun _ => ?_, fun h => absurd h (by decide)⟩, fun h => absurd rfl h, fun _ => ⟨mixedRow 2 0, ⟨by simp [mixedData], rfl, rfl⟩, ?_⟩⟩
    (.cons ⟨⟨fun _ => ?_, fun h => absurd h (by decide)⟩, fun h => absurd rfl h, fun _ => ⟨mixedRow 3 3, ⟨by simp [mixedData], rfl, rfl⟩, ?_⟩⟩ .nil))
  all_goals simp [vec2, mixedRow]

theorem sortedData_sample : JointSample sortedData [1, 2, 3] [0] "o" threeStates.rows 0 ("a", "o") (threePoints.map vec2) := by
  unfold JointSample
  rw [threeStates_period]
  refine .cons ⟨⟨fun _ => ?_, fun h => absurd h (by decide)⟩, fun h => absurd rfl h, fun _ => ⟨mixedRow 1 1, ⟨by simp [sortedData], rfl, rfl⟩, ?_⟩⟩
    (.cons ⟨⟨fun _ => ?_, fun h => absurd h (by decide)⟩, fun h => absurd rfl h, fun _ => ⟨mixedRow 2 0, ⟨by simp [sortedData], rfl, rfl⟩, ?_⟩⟩
    (.cons ⟨⟨fun _ => ?_, fun h => absurd h (by decide)⟩, fun h => absurd rfl h, fun _ => ⟨mixedRow 3 3, ⟨by simp [sortedData], rfl, rfl⟩, ?_⟩⟩ .nil))
  all_goals simp [vec2, mixedRow]

theorem abo_columns : (∀ f ∈ ["a", "b", "o"], f ≠ "o" ↔ f ∈ threeStates.columns) ∧ ∃ f ∈ ["a", "b", "o"], f ≠ "o" := by
  refine ⟨?_, "a", by simp, by decide⟩
  intro f hf
  simp only [List.mem_cons, List.not_mem_nil, or_false] at hf
  rcases hf with rfl | rfl | rfl <;> simp [threeStates]

/-- **C82 is false.** The data are not sorted: the values of "a" and "o" of the three individuals are not on one line, but the surface plot puts the values of different individuals together, which are on one line, so
that the plot is empty. -/
theorem C82_counterexample : ∃ pm plots plot ps, processModel linearModel = .ok pm ∧ bivariateDensitySurfaces pm.labels mixedData (.frame threeStates) 0 none true 50 = .ok plots ∧ UniqueKeys mixedData ∧
    (("a", "o"), plot) ∈ plots ∧ JointSample mixedData [1, 2, 3] [0] "o" threeStates.rows 0 ("a", "o") ps ∧ NotDegenerate ps ∧ plot.traces = [] := by
  obtain ⟨pm, hpm, _⟩ := linearModel_ok
  have hfs : PlottedFactors linearModel none true ["a", "b", "o"] := Or.inr ⟨rfl, rfl⟩
  refine ⟨pm, (factorPairs ["a", "b", "o"]).map (fun pair => (pair, surfacePlot (jointFrame mixedData threeStates 0 ["a", "b", "o"] "o") 50 pair)),
    surfacePlot (jointFrame mixedData threeStates 0 ["a", "b", "o"] "o") 50 ("a", "o"), _, hpm, ?_, ?_, ?_, mixedData_sample, threePoints_spread, ?_⟩
  · unfold bivariateDensitySurfaces
    simp only [plottedFactors_eq hpm hfs]
    rw [processPlotData_joint (o := "o") (by decide +kernel) abo_columns.1 abo_columns.2]
    rfl
  · simp [UniqueKeys, mixedData, mixedRow]
  · exact List.mem_map.mpr ⟨("a", "o"), (mem_factorPairs _ _).mpr ⟨by simp, by simp, by decide⟩, rfl⟩
  · have hrows : mixedData.rows.filter (fun r => decide (r.period = ((0 : ℕ) : ℤ))) = mixedData.rows := by simp [mixedData, mixedRow]
    have hpv : PairValues (jointFrame mixedData threeStates 0 ["a", "b", "o"] "o").rows ("a", "o") ([(0, 0), (1, 1), (3, 3)].map vec2) := by
      unfold PairValues
      rw [jointFrame_rows (by rw [hrows, threeStates_period]; rfl), hrows, threeStates_period]
      simp [mixedData, threeStates, mixedRow, vec2]
    refine (surfacePlot_spec ⟨jointFrame_columns (by simp), jointFrame_columns (by simp)⟩ hpv 50).2 ?_
    have : sampleCov [(0, 0), (1, 1), (3, 3)] = (7 / 3, 7 / 3, 7 / 3) := by
      simp only [sampleCov, List.map_cons, List.map_nil, List.sum_cons, List.sum_nil, List.length_cons, List.length_nil]
      norm_num
    unfold NotDegenerate
    rw [sampleCov_eq, this, Matrix.det_fin_two_of]
    norm_num

/-- **C82 is false** also if the labels of the periods are not 0, 1, 2, …: no row of the data has the label 0, so that the surface plot in period 0 is empty. -/
theorem C82_counterexample_labels : ∃ pm plots plot ps, processModel linearModel = .ok pm ∧ bivariateDensitySurfaces pm.labels linearData (.frame threeStates) 0 none true 50 = .ok plots ∧ UniqueKeys linearData ∧
    (("a", "o"), plot) ∈ plots ∧ JointSample linearData [1, 2, 3] [10, 20] "o" threeStates.rows 0 ("a", "o") ps ∧ NotDegenerate ps ∧ plot.traces = [] := by
  obtain ⟨pm, hpm, _⟩ := linearModel_ok
  have hfs : PlottedFactors linearModel none true ["a", "b", "o"] := Or.inr ⟨rfl, rfl⟩
  refine ⟨pm, (factorPairs ["a", "b", "o"]).map (fun pair => (pair, surfacePlot (jointFrame linearData threeStates 0 ["a", "b", "o"] "o") 50 pair)),
    surfacePlot (jointFrame linearData threeStates 0 ["a", "b", "o"] "o") 50 ("a", "o"), [(0, 11), (1, 12), (3, 13)].map vec2, hpm, ?_, linearData_index.2.2, ?_, ?_, ?_, ?_⟩
  · unfold bivariateDensitySurfaces
    simp only [plottedFactors_eq hpm hfs]
    rw [processPlotData_joint (o := "o") (by decide +kernel) abo_columns.1 abo_columns.2]
    rfl
  · exact List.mem_map.mpr ⟨("a", "o"), (mem_factorPairs _ _).mpr ⟨by simp, by simp, by decide⟩, rfl⟩
  · unfold JointSample
    rw [threeStates_period]
    refine .cons ⟨⟨fun _ => ?_, fun h => absurd h (by decide)⟩, fun h => absurd rfl h, fun _ => ⟨_, linearData_row (i := 0) (t := 0) (by norm_num) (by norm_num), ?_⟩⟩
      (.cons ⟨⟨fun _ => ?_, fun h => absurd h (by decide)⟩, fun h => absurd rfl h, fun _ => ⟨_, linearData_row (i := 1) (t := 0) (by norm_num) (by norm_num), ?_⟩⟩
      (.cons ⟨⟨fun _ => ?_, fun h => absurd h (by decide)⟩, fun h => absurd rfl h, fun _ => ⟨_, linearData_row (i := 2) (t := 0) (by norm_num) (by norm_num), ?_⟩⟩ .nil))
    all_goals simp [vec2, linearRow]
    all_goals norm_num
  · have : sampleCov [(0, 11), (1, 12), (3, 13)] = (7 / 3, 3 / 2, 1) := by
      simp only [sampleCov, List.map_cons, List.map_nil, List.sum_cons, List.sum_nil, List.length_cons, List.length_nil]
      norm_num
    unfold NotDegenerate
    rw [sampleCov_eq, this, Matrix.det_fin_two_of]
    norm_num
  · unfold surfacePlot
    simp only []
    have hrow : ∃ r ∈ (jointFrame linearData threeStates 0 ["a", "b", "o"] "o").rows, r.value ("a", "o").1 = none ∨ r.value ("a", "o").2 = none := by
      refine ⟨_, List.mem_map.mpr ⟨0, List.mem_range.mpr (lt_of_lt_of_le ?_ (le_max_left _ _)), rfl⟩, Or.inr ?_⟩
      · simp [scenarioBlock, threeStates]
      · simp [linearData, linearRow]
    rw [calculateKde_missing hrow]
    rfl

/-- Sorted data: the surface plot shows the density of the values of the same individuals. -/
example : ∃ pm plots plot, processModel linearModel = .ok pm ∧ bivariateDensitySurfaces pm.labels sortedData (.frame threeStates) 0 none true 50 = .ok plots ∧ (("a", "o"), plot) ∈ plots ∧
    SurfaceOf plot (threePoints.map vec2) 50 := by
  obtain ⟨pm, hpm, _⟩ := linearModel_ok
  have hin : InOrder sortedData [1, 2, 3] [0] threeStates.rows 0 := by
    unfold InOrder
    rw [threeStates_period, show sortedData.rows.filter (fun r => decide (r.period = ((0 : ℕ) : ℤ))) = sortedData.rows by simp [sortedData, mixedRow]]
    exact .cons ⟨by simp [sortedData], rfl, rfl⟩ (.cons ⟨by simp [sortedData], rfl, rfl⟩ (.cons ⟨by simp [sortedData], rfl, rfl⟩ .nil))
  obtain ⟨plots, _, h1, _, h2, _, h3, _⟩ := C82_joint_partial hpm (data := sortedData) (arg := none) (observedFactors := true) (fs := ["a", "b", "o"]) (o := "o") (Or.inr ⟨rfl, rfl⟩) (by decide +kernel) abo_columns.1
    abo_columns.2 (by simp [UniqueKeys, sortedData, mixedRow]) hin 50 10 (by norm_num)
  obtain ⟨⟨pair, plot⟩, hp, rfl⟩ := List.mem_map.mp ((h2 ("a", "o")).mpr ⟨by simp, by simp, by decide⟩)
  exact ⟨pm, plots, plot, hpm, h1, hp, ((h3 _ _ hp).2.2 _ sortedData_sample).1 threePoints_spread⟩

/-- A model with two observed factors. -/
noncomputable def twoObserved : ModelDict ℝ := { linearModel with observedFactors := some ["o", "x"], controls := none }

/-- **C84 is false.** A model with two observed factors: there are no plots. -/
theorem C84_counterexample : ∃ pm, processModel twoObserved = .ok pm ∧ ∀ plots : List (String × DensityPlot (List (Option String × List (Option ℝ)))),
    univariateDensities some pm.labels sortedData (.frame threeStates) 0 none true ≠ .ok plots := by
  have h : (processModel twoObserved >>= fun pm => pure (pm.dimensions.nPeriods)) = (.ok 2 : Py _) := by decide +kernel
  obtain ⟨pm, hpm, _⟩ := py_bind_ok.mp h
  exact ⟨pm, hpm, C84_two_observed some hpm (arg := none) (observedFactors := true) (fs := ["a", "b", "o", "x"]) (Or.inr ⟨rfl, rfl⟩) (o := "o") (p := "x") ⟨by simp, by simp [sortedData], by simp [threeStates]⟩
    ⟨by simp, by simp [sortedData], by simp [threeStates]⟩ (by decide)⟩

/-- One observed factor: three plots. -/
example : ∃ pm plots, processModel linearModel = .ok pm ∧ univariateDensities some pm.labels mixedData (.frame threeStates) 0 none true = .ok plots ∧ plots.map Prod.fst = ["a", "b", "o"] ∧
    (plots.map (fun p => p.2.traces))[2]? = some [[(some "none", [some 0, some 1, some 3])]] := by
  obtain ⟨pm, hpm, _⟩ := linearModel_ok
  have hrows : mixedData.rows.filter (fun r => decide (r.period = ((0 : ℕ) : ℤ))) = mixedData.rows := by simp [mixedData, mixedRow]
  refine ⟨pm, _, hpm, C84_univariate_partial some hpm (data := mixedData) (arg := none) (observedFactors := true) (fs := ["a", "b", "o"]) (o := "o") (Or.inr ⟨rfl, rfl⟩) (by decide +kernel) abo_columns.1 abo_columns.2
    (by rw [hrows, threeStates_period]; rfl) ⟨_, List.mem_map.mpr ⟨(0, 0), by simp, rfl⟩, rfl⟩, rfl, ?_⟩
  rw [hrows]
  simp [mixedData, mixedRow]

/-- A figure with two factors, in the order given by the user and with one name from the user; surfaces are shown above the diagonal. -/
example : combineDistributionPlots (fun n : ℕ => n + 100) [("a", ⟨[1], "a", "Density"⟩), ("b", ⟨[2], "b", "Density"⟩)] [(("b", "a"), ⟨[3, 4], "b", "a"⟩), (("a", "b"), ⟨[5], "a", "b"⟩)]
    (some [(("a", "b"), ⟨[6], "a", "b"⟩)]) (.names ["b", "a"]) (some [("a", "skill")]) =
    .ok [⟨0, 0, [2], some "b", some "Density"⟩, ⟨1, 0, [103, 104], some "b", some "skill"⟩, ⟨0, 1, [6], some "", some ""⟩, ⟨1, 1, [101], some "skill", some "Density"⟩] := rfl

/-- The figure exists in this case. -/
example : ∃ cells, combineDistributionPlots (fun n : ℕ => n + 100) [("a", ⟨[1], "a", "Density"⟩)] [] none .none none = .ok cells := ⟨[⟨0, 0, [1], some "a", some "Density"⟩], rfl⟩

end Ex
end Skill
