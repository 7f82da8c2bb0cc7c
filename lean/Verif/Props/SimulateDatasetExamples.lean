import Verif.Props.RoundTrip
import Verif.Props.PipelineExamples
import Verif.Props.SimulationLawExamples
import Verif.Lemmas.SimulationNoise
/-
Examples for C89 - C94.
-/
namespace Skill

/-- Parameters with given values. -/
theorem exists_params {m : ModelDict ℝ} {pm : Processed ℝ} (hpm : processModel m = .ok pm) (hg : Spec.GoodNames m) (val : Loc → ℝ) : ∃ params, Spec.HasParams m params val := by
  refine ⟨pm.paramsIndex.map (fun l => (l, val l)), ⟨?_, fun l hl => ?_⟩⟩
  · rw [List.map_map]
    simpa [Function.comp_def] using C06_index_unique_partial hpm hg
  · exact List.mem_map.mpr ⟨l, (mem_paramsIndex_iff hpm l).mpr hl, rfl⟩

namespace Ex
open MeasureTheory ProbabilityTheory Spec

/-! ### a model with controls and observed factors, simulated for the individuals of a dataset, with a policy -/

theorem linearModel_simulation : SimulationModel linearModel 1 where
  names := linearModel_names
  anchoring := linearModel_linear.anchoring
  safe := by
    rintro f ⟨spec, hf⟩
    simp only [linearModel, List.mem_cons, Prod.mk.injEq, List.not_mem_nil, or_false] at hf
    rcases hf with ⟨rfl, _⟩ | ⟨rfl, _⟩ <;> decide
  columns := by
    rintro f (⟨spec, hf⟩ | ⟨t, hf⟩)
    · simp only [linearModel, List.mem_cons, Prod.mk.injEq, List.not_mem_nil, or_false] at hf
      rcases hf with ⟨rfl, _⟩ | ⟨rfl, _⟩ <;> decide
    · have := ((linearModel_update t f).mp hf).2
      simp only [List.mem_cons, List.not_mem_nil, or_false] at this
      rcases this with rfl | rfl | rfl <;> decide
  periods := linearModel_linear.periods
  updates := fun t ht => ⟨"w", (linearModel_update t "w").mpr ⟨(linearModel_period t).mp ht, by simp⟩⟩
  mixture := linearModel_linear.mixture
  elements := one_ne_zero

noncomputable def linearPolicies : List Policy := [{ period := 0, factor := "a", effectSize := 1, standardDeviation := 1 / 2 }]

theorem linearPolicies_values (custom : String → CustomFn) : SimulationValues custom linearModel 1 linearValues linearPolicies where
  positive := linearValues_proper.positive
  sum := linearValues_proper.sum
  usable := (linear_simulationValues linearModel_linear linearModel_names custom linearValues_proper).usable
  policies := by
    intro p hp _
    simp only [linearPolicies, List.mem_singleton] at hp
    subst hp
    exact ⟨⟨_, List.mem_cons_self⟩, by norm_num⟩

/-- The covariates of the individuals of `linearData`. -/
noncomputable def linearCovariatesOf (i : ℕ) : Covariates where
  isObserved _ _ := true
  control t c := if c = "constant" then 1 else i + 1 + 10 * (t + 1)
  factor t _ := i + 1 + 10 * (t + 1)

/-- The dataset with fewer columns. -/
noncomputable def linearDataWith (columns : List String) : LongData ℝ := { linearData with columns := columns }

theorem linearData_known (columns : List String) : ∀ i < 3, KnownCovariates linearModel (linearDataWith columns) [1, 2, 3] [10, 20] i (linearCovariatesOf i) := by
  intro i hi t ht
  have ht := (linearModel_period t).mp ht
  refine ⟨some (linearRow (i + 1) (10 * (t + 1))), linearData_row (i := i) (t := t) hi ht, fun c hc => ?_, fun f hf => ?_⟩
  · rw [valueIs_of_none rfl]
    simp only [linearModel, Option.getD_some, List.mem_cons, List.not_mem_nil, or_false] at hc
    rcases hc with rfl | rfl
    · simp [linearCovariatesOf, baseValue]
    · rw [linearRow_value (by decide) (by rintro ⟨h, _⟩; exact absurd h (by decide))]
      simp [linearCovariatesOf]
  · rw [valueIs_of_none rfl]
    simp only [linearModel, Option.getD_some, List.mem_singleton] at hf
    subst hf
    rw [linearRow_value (by decide) (by rintro ⟨h, _⟩; exact absurd h (by decide))]
    rfl

theorem linearData_individuals (nObs : Option ℕ) : Individuals linearModel nObs (some linearData) 3 linearCovariatesOf :=
  .ofData (ids := [1, 2, 3]) linearData_index.1 linearData_index.2.1 linearData_ids.1 linearData_ids.2
    ⟨linearData_ok.keys, linearData_ok.outcomes, linearData_ok.controls, fun t v h => (linearData_ok.measurements t v h).1, linearData_ok.observed⟩ (linearData_known _)

/-- C90, C91 for the example: the assumptions are met. -/
theorem C90_C91_example : ∃ (root : NormalRoot) (params : List (Loc × ℝ)) (Ω : Type) (_ : MeasurableSpace Ω) (P : Measure Ω) (_ : IsProbabilityMeasure P) (E : Nat → Ω → Fin 1) (Z : Nat → Draw → Ω → ℝ)
    (out : Ω → SimulatedDataset) (X : Nat → Ω → Cell linearModel → ℝ), RandomDatasetDraws P linearValues E Z ∧
      (∀ ω, simulateDataset root (fun _ => default) 0 linearModel params none (some linearData) linearPolicies (drawsWith (fun i => E i ω) (fun i j => Z i j ω)) = .ok (out ω) ∧
        DatasetIs linearModel linearValues 3 (fun i => X i ω) (out ω)) ∧ iIndepFun X P := by
  obtain ⟨root, hroot⟩ := exists_validRoot
  obtain ⟨pm, hpm, _⟩ := linearModel_ok
  obtain ⟨params, hparams⟩ := exists_params hpm linearModel_names linearValues
  obtain ⟨Ω, _, P, E, Z, hP, hZ⟩ := exists_datasetDraws (val := linearValues) (k := 1) (fun e he => (linearValues_proper.positive e he).le) linearValues_proper.sum
  obtain ⟨out, X, h1, _, h2, _⟩ := C91_simulation_law root hpm linearModel_simulation (fun _ => default) 0 (linearPolicies_values _) hparams (linearData_individuals none) (by norm_num) hroot
    (linear_measurableCustom linearModel_linear linearModel_names _) hZ
  exact ⟨root, params, Ω, _, P, hP, E, Z, out, X, hZ, h1, h2⟩

/-- C89: a dataset with all observed factors and control variables but without the measurements is rejected. -/
theorem C89_counterexample : ∃ (root : NormalRoot) (params : List (Loc × ℝ)) (df : LongData ℝ), HasParams linearModel params linearValues ∧ IndexOk df ∧ UniqueKeys df ∧
    (∀ c, c ∈ linearModel.controls.getD [] ∨ c ∈ linearModel.observedFactors.getD [] → c ∈ df.columns) ∧ (∀ i < 3, KnownCovariates linearModel df [1, 2, 3] [10, 20] i (linearCovariatesOf i)) ∧
    ∀ draws out, simulateDataset root (fun _ => default) 0 linearModel params none (some df) linearPolicies draws ≠ .ok out := by
  obtain ⟨root, hroot⟩ := exists_validRoot
  obtain ⟨pm, hpm, _⟩ := linearModel_ok
  obtain ⟨params, hparams⟩ := exists_params hpm linearModel_names linearValues
  have hcols : ∀ c, c ∈ linearModel.controls.getD [] ∨ c ∈ linearModel.observedFactors.getD [] → c ∈ (linearDataWith ["x", "o"]).columns := by
    intro c hc
    simp only [linearModel, Option.getD_some, List.mem_singleton] at hc
    rcases hc with rfl | rfl <;> simp [linearDataWith]
  refine ⟨root, params, linearDataWith ["x", "o"], hparams, ⟨linearData_index.1.1, linearData_index.1.2, linearData_index.1.3, linearData_index.1.4⟩, linearData_index.2.2, hcols, linearData_known _, fun draws out hout => ?_⟩
  have h := (C89_data_needed_partial root hpm linearModel_simulation (fun _ => default) 0 (linearPolicies_values _) hparams none (df := linearDataWith ["x", "o"])
    ⟨linearData_index.1.1, linearData_index.1.2, linearData_index.1.3, linearData_index.1.4⟩ linearData_index.2.1 linearData_ids.1 linearData_ids.2 (by norm_num) (linearData_known _) hcols (draws := draws)
    (fun h => absurd rfl h)).mp ⟨out, hout⟩
  rcases h.2.2 0 "w" ((linearModel_update 0 "w").mpr ⟨by norm_num, by simp⟩) with h | h | ⟨f, h⟩
  · simp [linearDataWith] at h
  · exact absurd h (by decide)
  · exact linearModel_noAnchors _ _ h

/-- C89 for the complete dataset. -/
theorem C89_example : ∃ (root : NormalRoot) (params : List (Loc × ℝ)), ∀ draws, ∃ out, simulateDataset root (fun _ => default) 0 linearModel params none (some linearData) linearPolicies draws = .ok out := by
  obtain ⟨root, hroot⟩ := exists_validRoot
  obtain ⟨pm, hpm, _⟩ := linearModel_ok
  obtain ⟨params, hparams⟩ := exists_params hpm linearModel_names linearValues
  refine ⟨root, params, fun draws => ?_⟩
  refine (C89_data_needed_partial root hpm linearModel_simulation (fun _ => default) 0 (linearPolicies_values _) hparams none linearData_index.1 linearData_index.2.1 linearData_ids.1 linearData_ids.2 (by norm_num)
    (linearData_known _) ?_ (draws := draws) (fun h => absurd rfl h)).mpr ⟨linearData_ok.keys, linearData_ok.outcomes, fun t v h => (linearData_ok.measurements t v h).1⟩
  intro c hc
  simp only [linearModel, Option.getD_some, List.mem_singleton] at hc
  rcases hc with rfl | rfl <;> simp [linearDataWith, linearData]

/-- C94: the control variable "x" of the model is not in the simulated measurements. -/
theorem C94_counterexample : ∃ (root : NormalRoot) (params : List (Loc × ℝ)) (draws : DatasetDraws) (out : SimulatedDataset),
    simulateDataset root (fun _ => default) 0 linearModel params none (some linearData) linearPolicies draws = .ok out ∧ "x" ∈ linearModel.controls.getD [] ∧ "x" ∉ out.measurements.columns := by
  obtain ⟨root, params, h⟩ := C89_example
  obtain ⟨out, hout⟩ := h { element := fun _ => 0, normal := fun _ _ => 0 }
  refine ⟨root, params, _, out, hout, by simp [linearModel], fun hx => ?_⟩
  rcases (C94_columns_partial ((linearModel_period 0).mpr (by norm_num)) hout "x").mp hx with ⟨t, f, hmeas⟩ | ⟨f, h⟩
  · have := ((linearModel_update t "x").mp (Or.inl ⟨f, hmeas⟩)).2
    simp at this
  · exact linearModel_noAnchors _ _ h

/-- C93: the simulated measurements of the example cannot be used for estimation, the control variable and the observed factor have to be added. -/
theorem C93_columns_missing_example : ∃ (root : NormalRoot) (params : List (Loc × ℝ)) (draws : DatasetDraws) (out : SimulatedDataset),
    simulateDataset root (fun _ => default) 0 linearModel params none (some linearData) linearPolicies draws = .ok out ∧ ¬∃ inputs, getMaximizationInputs linearModel (asDataset out.measurements) = .ok inputs := by
  obtain ⟨root, hroot⟩ := exists_validRoot
  obtain ⟨pm, hpm, _⟩ := linearModel_ok
  obtain ⟨params, hparams⟩ := exists_params hpm linearModel_names linearValues
  obtain ⟨x, out, hx, hout⟩ := C90_simulated_dataset root hpm linearModel_simulation (fun _ => default) 0 (linearPolicies_values _) hparams (linearData_individuals none) (by norm_num)
    (draws := { element := fun _ => 0, normal := fun _ _ => 0 }) (fun h => absurd rfl h)
  refine ⟨root, params, _, out, hout params none hparams (linearData_individuals none), ?_⟩
  refine C93_columns_missing hpm linearModel_names.keys linearModel_linear.anchoring.2.2 ((linearModel_period 0).mpr (by norm_num)) (by norm_num) hx (c := "x") (Or.inl (by simp [linearModel])) (by decide) (fun t h => ?_)
  have := ((linearModel_update t "x").mp h).2
  simp at this

/-- C90: the model of the example cannot be simulated without data. -/
theorem C90_data_required_example (root : NormalRoot) (params : List (Loc × ℝ)) (draws : DatasetDraws) :
    simulateDataset root (fun _ => default) 0 linearModel params (some 10) none [] draws = .error .valueError := by
  obtain ⟨pm, hpm, _⟩ := linearModel_ok
  obtain ⟨e, h, he⟩ := C90_data_required root hpm (fun _ => default) 0 params (nObs := some 10) (Or.inr (Or.inr (Or.inl (by simp [linearModel])))) [] draws
  rw [h, he (by simp)]

/-! ### a nonlinear model with anchoring and two mixture elements, simulated without data -/

/-- A factor with the transition function log_ces, anchored in the outcome "q", and a factor with the transition function translog. -/
noncomputable def cesModel : ModelDict ℝ where
  factors := [("a", { measurements := [["y"], ["y"], ["y"]], transition := .named "log_ces" }), ("b", { measurements := [["w"], ["w"]], transition := .named "translog" })]
  anchoring := some { outcomes := some [("a", "q")], freeConstant := some true, freeLoadings := some true }
  estimationOptions := some { nMixtures := some 2 }

theorem cesModel_ok : ∃ pm, processModel cesModel = .ok pm ∧ pm.dimensions.nPeriods = 3 ∧
    pm.updateInfo.map (fun r => (r.period, r.var)) = [(0, "y"), (0, "w"), (0, "q_a"), (1, "y"), (1, "w"), (1, "q_a"), (2, "y"), (2, "q_a")] := by
  have h : (processModel cesModel >>= fun pm => pure (pm.dimensions.nPeriods, pm.updateInfo.map (fun r => (r.period, r.var)))) =
      (.ok (3, [(0, "y"), (0, "w"), (0, "q_a"), (1, "y"), (1, "w"), (1, "q_a"), (2, "y"), (2, "q_a")]) : Py _) := by decide +kernel
  obtain ⟨pm, hpm, h⟩ := py_bind_ok.mp h
  rw [py_pure_ok, Prod.mk.injEq] at h
  exact ⟨pm, hpm, h.1, h.2⟩

theorem cesModel_anchoredIn (f o : String) : AnchoredIn cesModel f o ↔ f = "a" ∧ o = "q" := by
  constructor
  · rintro ⟨a, ⟨⟩, os, ⟨⟩, h⟩
    simpa using h
  · rintro ⟨rfl, rfl⟩
    exact ⟨_, rfl, _, rfl, by simp⟩

theorem cesModel_anchors (v f : String) : Anchors cesModel v f ↔ f = "a" ∧ v = "q_a" := by
  constructor
  · rintro ⟨o, h, rfl⟩
    obtain ⟨rfl, rfl⟩ := (cesModel_anchoredIn f o).mp h
    exact ⟨rfl, rfl⟩
  · rintro ⟨rfl, rfl⟩
    exact ⟨"q", (cesModel_anchoredIn _ _).mpr ⟨rfl, rfl⟩, rfl⟩

theorem cesModel_names : GoodNames cesModel where
  keys := ⟨by decide, by rintro a os ⟨⟩ ⟨⟩; decide⟩
  distinct := by decide
  controls := by decide
  chars := by decide
  reserved := by decide
  registered := by
    intro f spec fn ps hmem hs
    simp only [cesModel, List.mem_cons, Prod.mk.injEq, List.not_mem_nil, or_false] at hmem
    rcases hmem with ⟨rfl, rfl⟩ | ⟨rfl, rfl⟩ <;> simp at hs

theorem cesModel_period (t : ℕ) : IsPeriod cesModel t ↔ t < 3 := by
  obtain ⟨pm, hpm, h, _⟩ := cesModel_ok
  rw [isPeriod_iff hpm, h]

theorem cesModel_measured {t : ℕ} {v f : String} (h : Measures cesModel t v f) : v = "y" ∨ v = "w" := by
  obtain ⟨spec, hmem, ms, hms, hv⟩ := h
  simp only [cesModel, List.mem_cons, Prod.mk.injEq, List.not_mem_nil, or_false] at hmem
  rcases hmem with ⟨rfl, rfl⟩ | ⟨rfl, rfl⟩
  · rcases t with _ | _ | _ | t <;> simp at hms <;> subst hms <;> simp at hv <;> exact Or.inl hv
  · rcases t with _ | _ | t <;> simp at hms <;> subst hms <;> simp at hv <;> exact Or.inr hv

theorem cesModel_update {t : ℕ} {v : String} (h : IsUpdate cesModel t v) : v = "y" ∨ v = "w" ∨ v = "q_a" := by
  rcases h with ⟨f, h⟩ | ⟨_, f, h⟩
  · rcases cesModel_measured h with h | h
    · exact Or.inl h
    · exact Or.inr (Or.inl h)
  · exact Or.inr (Or.inr ((cesModel_anchors v f).mp h).2)

theorem cesModel_simulation : SimulationModel cesModel 2 where
  names := cesModel_names
  anchoring := by
    refine ⟨⟨fun f o h => ?_, fun v f t g h h' => ?_, fun v f g h h' => ?_⟩, ?_, ?_⟩
    · obtain ⟨rfl, rfl⟩ := (cesModel_anchoredIn f o).mp h
      exact ⟨_, List.mem_cons_self⟩
    · rw [((cesModel_anchors v f).mp h).2] at h'
      exact absurd (cesModel_measured h') (by decide)
    · rw [((cesModel_anchors v f).mp h).1, ((cesModel_anchors v g).mp h').1]
    · rintro a os ⟨⟩ ⟨⟩
      decide
    · intro f o g p h h'
      obtain ⟨rfl, rfl⟩ := (cesModel_anchoredIn f o).mp h
      obtain ⟨rfl, rfl⟩ := (cesModel_anchoredIn g p).mp h'
      exact ⟨by decide, fun _ => rfl⟩
  safe := by
    rintro f ⟨spec, hf⟩
    simp only [cesModel, List.mem_cons, Prod.mk.injEq, List.not_mem_nil, or_false] at hf
    rcases hf with ⟨rfl, _⟩ | ⟨rfl, _⟩ <;> decide
  columns := by
    rintro f (⟨spec, hf⟩ | ⟨t, hf⟩)
    · simp only [cesModel, List.mem_cons, Prod.mk.injEq, List.not_mem_nil, or_false] at hf
      rcases hf with ⟨rfl, _⟩ | ⟨rfl, _⟩ <;> decide
    · rcases cesModel_update hf with rfl | rfl | rfl <;> decide
  periods := (cesModel_period 1).mpr (by norm_num)
  updates := fun t ht => ⟨"q_a", Or.inr ⟨ht, "a", (cesModel_anchors _ _).mpr ⟨rfl, rfl⟩⟩⟩
  mixture := ⟨_, rfl, Or.inl rfl⟩
  elements := two_ne_zero

noncomputable def cesValues (_ : Loc) : ℝ := 1 / 2

theorem cesValues_simulation (custom : String → CustomFn) : SimulationValues custom cesModel 2 cesValues [] where
  positive := by intro e _; norm_num [cesValues]
  sum := by norm_num [cesValues, Fin.sum_univ_two]
  usable := by
    rintro t _ ⟨f, spec⟩ hfs
    simp only [cesModel, List.mem_cons, Prod.mk.injEq, List.not_mem_nil, or_false] at hfs
    rcases hfs with ⟨rfl, rfl⟩ | ⟨rfl, rfl⟩
    · exact ⟨by decide, fun _ f _ => by norm_num [cesValues]⟩
    · exact ⟨by decide, fun _ f _ => by norm_num [cesValues]⟩
  policies := by simp

/-- C90, C91 without data: ten individuals. -/
theorem C91_example_numbers : ∃ (root : NormalRoot) (params : List (Loc × ℝ)) (Ω : Type) (_ : MeasurableSpace Ω) (P : Measure Ω) (_ : IsProbabilityMeasure P) (E : Nat → Ω → Fin 2) (Z : Nat → Draw → Ω → ℝ)
    (out : Ω → SimulatedDataset) (X : Nat → Ω → Cell cesModel → ℝ), RandomDatasetDraws P cesValues E Z ∧
      (∀ ω, simulateDataset root (fun _ => default) 0 cesModel params (some 10) none [] (drawsWith (fun i => E i ω) (fun i j => Z i j ω)) = .ok (out ω) ∧
        DatasetIs cesModel cesValues 10 (fun i => X i ω) (out ω)) ∧ iIndepFun X P := by
  obtain ⟨root, hroot⟩ := exists_validRoot
  obtain ⟨pm, hpm, _⟩ := cesModel_ok
  obtain ⟨params, hparams⟩ := exists_params hpm cesModel_names cesValues
  have hs := cesValues_simulation (fun _ => default)
  obtain ⟨Ω, _, P, E, Z, hP, hZ⟩ := exists_datasetDraws (val := cesValues) (k := 2) (fun e he => (hs.positive e he).le) hs.sum
  obtain ⟨out, X, h1, _, h2, _⟩ := C91_simulation_law root hpm cesModel_simulation (fun _ => default) 0 hs hparams (.ofNumber (n := 10) (cov := fun _ => noCovariates) rfl rfl (fun _ _ _ => rfl)) (by norm_num) hroot
    (by
      rintro ⟨f, spec⟩ hfs args names body h
      simp only [cesModel, List.mem_cons, Prod.mk.injEq, List.not_mem_nil, or_false] at hfs
      rcases hfs with ⟨rfl, rfl⟩ | ⟨rfl, rfl⟩ <;> cases h) hZ
  exact ⟨root, params, Ω, _, P, hP, E, Z, out, X, hZ, h1, h2⟩

/-! ### estimation with simulated data -/

/-- A model without covariates, with two mixture elements. -/
noncomputable def plainModel : ModelDict ℝ where
  factors := [("a", { measurements := [["y1", "y2"], ["y1", "y2"]], transition := .named "linear" }), ("b", { measurements := [["w"], ["w"]], transition := .named "constant" })]
  estimationOptions := some { nMixtures := some 2, clippingLowerBound := some none }

theorem plainModel_ok : ∃ pm, processModel plainModel = .ok pm ∧ pm.dimensions.nPeriods = 2 ∧ pm.updateInfo.map (fun r => (r.period, r.var)) = [(0, "y1"), (0, "y2"), (0, "w"), (1, "y1"), (1, "y2"), (1, "w")] := by
  have h : (processModel plainModel >>= fun pm => pure (pm.dimensions.nPeriods, pm.updateInfo.map (fun r => (r.period, r.var)))) =
      (.ok (2, [(0, "y1"), (0, "y2"), (0, "w"), (1, "y1"), (1, "y2"), (1, "w")]) : Py _) := by decide +kernel
  obtain ⟨pm, hpm, h⟩ := py_bind_ok.mp h
  rw [py_pure_ok, Prod.mk.injEq] at h
  exact ⟨pm, hpm, h.1, h.2⟩

theorem plainModel_period (t : ℕ) : IsPeriod plainModel t ↔ t < 2 := by
  obtain ⟨pm, hpm, h, _⟩ := plainModel_ok
  rw [isPeriod_iff hpm, h]

theorem plainModel_update (t : ℕ) (v : String) : IsUpdate plainModel t v → v = "y1" ∨ v = "y2" ∨ v = "w" := by
  obtain ⟨pm, hpm, _, h⟩ := plainModel_ok
  obtain ⟨_, hu, _⟩ := C01_update_info_exact hpm
  rw [← hu]
  rintro ⟨r, hr, rfl, rfl⟩
  have : (r.period, r.var) ∈ pm.updateInfo.map (fun r => (r.period, r.var)) := List.mem_map.mpr ⟨r, hr, rfl⟩
  rw [h] at this
  simp only [List.mem_cons, Prod.mk.injEq, List.not_mem_nil, or_false] at this
  rcases this with h | h | h | h | h | h <;> simp [h.2]

theorem plainModel_names : GoodNames plainModel where
  keys := ⟨by decide, by rintro a os ⟨⟩⟩
  distinct := by decide
  controls := by decide
  chars := by decide
  reserved := by decide
  registered := by
    intro f spec fn ps hmem hs
    simp only [plainModel, List.mem_cons, Prod.mk.injEq, List.not_mem_nil, or_false] at hmem
    rcases hmem with ⟨rfl, rfl⟩ | ⟨rfl, rfl⟩ <;> simp at hs

theorem plainModel_linear : LinearModel plainModel 2 where
  anchoring := by
    have hno : ∀ v f, ¬Anchors plainModel v f := by rintro v f ⟨o, ⟨a, ⟨⟩, _⟩, _⟩
    exact ⟨⟨by rintro f o ⟨a, ⟨⟩, _⟩, fun v f t g h => absurd h (hno v f), fun v f g h => absurd h (hno v f)⟩, by rintro a os ⟨⟩, noNameClash_of_none rfl⟩
  periods := (plainModel_period 1).mpr (by norm_num)
  measured := by
    intro t ht
    obtain rfl | rfl : t = 0 ∨ t = 1 := by have := (plainModel_period t).mp ht; omega
    · exact ⟨"w", "b", _, List.mem_cons_of_mem _ List.mem_cons_self, _, rfl, List.mem_cons_self⟩
    · exact ⟨"w", "b", _, List.mem_cons_of_mem _ List.mem_cons_self, _, rfl, List.mem_cons_self⟩
  transitions := by
    intro f spec hmem
    simp only [plainModel, List.mem_cons, Prod.mk.injEq, List.not_mem_nil, or_false] at hmem
    rcases hmem with ⟨rfl, rfl⟩ | ⟨rfl, rfl⟩
    · exact Or.inl rfl
    · exact Or.inr rfl
  mixture := ⟨_, rfl, Or.inl rfl⟩
  single := Or.inr rfl

theorem plainModel_simulation : SimulationModel plainModel 2 where
  names := plainModel_names
  anchoring := plainModel_linear.anchoring
  safe := by
    rintro f ⟨spec, hf⟩
    simp only [plainModel, List.mem_cons, Prod.mk.injEq, List.not_mem_nil, or_false] at hf
    rcases hf with ⟨rfl, _⟩ | ⟨rfl, _⟩ <;> decide
  columns := by
    rintro f (⟨spec, hf⟩ | ⟨t, hf⟩)
    · simp only [plainModel, List.mem_cons, Prod.mk.injEq, List.not_mem_nil, or_false] at hf
      rcases hf with ⟨rfl, _⟩ | ⟨rfl, _⟩ <;> decide
    · rcases plainModel_update t f hf with rfl | rfl | rfl <;> decide
  periods := plainModel_linear.periods
  updates := fun t ht => by
    obtain ⟨v, f, h⟩ := plainModel_linear.measured t ht
    exact ⟨v, Or.inl ⟨f, h⟩⟩
  mixture := plainModel_linear.mixture
  elements := two_ne_zero

theorem plainValues_proper : ProperValues plainModel 2 cesValues where
  positive := by intro e _; norm_num [cesValues]
  sum := by norm_num [cesValues, Fin.sum_univ_two]
  sds := by intro t v _; norm_num [cesValues]
  scales := by intro t f _; exact one_ne_zero

/-- C92, C93 for the example: with two simulated individuals. -/
theorem C93_example : ∃ (qr : QR) (root : NormalRoot) (params : List (Loc × ℝ)) (Ω : Type) (_ : MeasurableSpace Ω) (P : Measure Ω) (_ : IsProbabilityMeasure P) (E : Nat → Ω → Fin 2) (Z : Nat → Draw → Ω → ℝ)
    (out : Ω → SimulatedDataset) (N : ℕ) (density : (Fin N → ℝ) → ℝ) (Y : Nat → Ω → Fin N → ℝ), N = 6 ∧ RandomDatasetDraws P cesValues E Z ∧
      (∀ ω, simulateDataset root (fun _ => default) 0 plainModel params (some 2) none [] (drawsWith (fun i => E i ω) (fun i j => Z i j ω)) = .ok (out ω)) ∧
      (∀ i < 2, P.map (Y i) = volume.withDensity (fun y => ENNReal.ofReal (density y))) ∧
      ∀ᵐ ω ∂P, ∃ inputs result, getMaximizationInputs plainModel (asDataset (out ω).measurements) = .ok inputs ∧ inputs.loglike qr (fun _ => default) 0 plainModel params = .ok result ∧
        ∀ i < 2, result.contributions.getD i 0 = Real.log (density (Y i ω)) := by
  obtain ⟨qr, hqr⟩ := validQR
  obtain ⟨root, hroot⟩ := exists_validRoot
  obtain ⟨pm, hpm, _, hu⟩ := plainModel_ok
  obtain ⟨Ω, _, P, E, Z, hP, hZ⟩ := exists_datasetDraws (val := cesValues) (k := 2) (fun e he => (plainValues_proper.positive e he).le) plainValues_proper.sum
  obtain ⟨updates, hup, density, _, h⟩ := C93_simulated_data_estimation hqr hroot hpm plainModel_linear plainModel_simulation rfl rfl rfl
    (fun t v h => by rcases plainModel_update t v h with rfl | rfl | rfl <;> decide) (by rintro o x ⟨⟩ ⟨⟩) (fun _ => default) 0
  have hlen : updates.length = 6 := by
    have hp : updates.Perm (pm.updateInfo.map (fun r => (r.period, r.var))) := by
      obtain ⟨h1, h2, _⟩ := C01_update_info_exact hpm
      refine (List.perm_ext_iff_of_nodup hup.nodup h1).mpr ?_
      rintro ⟨t, v⟩
      rw [hup.all, ← h2]
      simp [List.mem_map]
    rw [hp.length_eq, hu]
    rfl
  let params : List (Loc × ℝ) := pm.paramsIndex.map (fun l => (l, cesValues l))
  have hfst : params.map Prod.fst = pm.paramsIndex := by simp [params, Function.comp_def]
  have hnodup : (params.map Prod.fst).Nodup := by
    rw [hfst]
    exact C06_index_unique_partial hpm plainModel_names
  obtain ⟨out, X, h1, _, h2, h3⟩ := h cesValues params 2 plainValues_proper ⟨hnodup, fun l hl => List.mem_map.mpr ⟨l, (mem_paramsIndex_iff hpm l).mpr hl, rfl⟩⟩ le_rfl P E Z hZ
  refine ⟨qr, root, params, Ω, _, P, hP, E, Z, out, updates.length, density cesValues, fun i ω j => X i ω (measurementCell hup j), hlen, hZ, fun ω => (h1 ω).1, h2, ?_⟩
  filter_upwards [h3] with ω hω
  obtain ⟨inputs, hin, hω⟩ := hω
  obtain ⟨result, hres, _, hval⟩ := hω params cesValues hnodup (fun l => by rw [hfst]; exact mem_paramsIndex_iff hpm l) (fun l x hx => by
    obtain ⟨l', _, h⟩ := List.mem_map.mp hx
    cases h
    rfl)
  exact ⟨inputs, result, hin, hres, fun i hi => (hval plainValues_proper i hi).2 ⟨_, rfl, rfl, Or.inl rfl⟩⟩

end Ex
end Skill
