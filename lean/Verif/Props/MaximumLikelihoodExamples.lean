import Verif.Props.MaximumLikelihood
import Verif.Props.LikelihoodRatioExamples
import Verif.Props.SameLikelihoodExamples
import Mathlib.Topology.Compactness.Compact
import Mathlib.Probability.Independence.InfinitePi

/-! Values of the parameters that the data can tell apart, and examples for C109 and C110. -/

namespace Skill
open Matrix MeasureTheory ProbabilityTheory Spec
open scoped ENNReal Topology

/-- A random variable does not have the same distribution if a number other than zero is added to it. -/
theorem shift_changes {Ω : Type} [MeasurableSpace Ω] {P : Measure Ω} [IsProbabilityMeasure P] {X : Ω → ℝ} (hX : Measurable X) {δ : ℝ} (hδ : δ ≠ 0) : P.map X ≠ P.map (fun ω => X ω + δ) := by
  intro h
  have hm : Measurable (fun x : ℝ => x / δ) := measurable_id.div_const δ
  have h := congrArg (Measure.map (fun x : ℝ => x / δ)) h
  rw [Measure.map_map hm hX, Measure.map_map hm (hX.add_const δ)] at h
  refine Ex.not_shift_invariant (hm.comp hX) (h.trans ?_)
  congr 1
  funext ω
  show (X ω + δ) / δ = X ω / δ + 1
  rw [add_div, div_self hδ]

/-- The joint distribution of the mixture element and the random numbers is determined by the values of the parameters. -/
theorem noise_distribution {val : Loc → ℝ} {k : ℕ} {Ω Ω' : Type} [MeasurableSpace Ω] [MeasurableSpace Ω'] {P : Measure Ω} {P' : Measure Ω'} [IsProbabilityMeasure P] [IsProbabilityMeasure P'] {E : Ω → Fin k} {E' : Ω' → Fin k}
    {Z : Noise → Ω → ℝ} {Z' : Noise → Ω' → ℝ} (hZ : RandomNoise P val E Z) (hZ' : RandomNoise P' val E' Z') : P.map (fun ω => (E ω, fun j => Z j ω)) = P'.map (fun ω => (E' ω, fun j => Z' j ω)) := by
  have hm : Measurable (fun ω j => Z j ω) := measurable_pi_iff.mpr hZ.measurable
  have hm' : Measurable (fun ω j => Z' j ω) := measurable_pi_iff.mpr hZ'.measurable
  rw [(indepFun_iff_map_prod_eq_prod_map_map hZ.measurable_element.aemeasurable hm.aemeasurable).mp hZ.element_independent,
    (indepFun_iff_map_prod_eq_prod_map_map hZ'.measurable_element.aemeasurable hm'.aemeasurable).mp hZ'.element_independent,
    (iIndepFun_iff_map_fun_eq_infinitePi_map hZ.measurable).mp hZ.independent, (iIndepFun_iff_map_fun_eq_infinitePi_map hZ'.measurable).mp hZ'.independent]
  simp only [hZ.normal, hZ'.normal]
  congr 1
  refine Measure.ext_of_singleton (fun e => ?_)
  rw [Measure.map_apply hZ.measurable_element (measurableSet_singleton e), Measure.map_apply hZ'.measurable_element (measurableSet_singleton e), hZ.element_weights, hZ'.element_weights]

/-- Without anchoring, the coefficients of control variables do not matter for the latent factors. -/
theorem latentStates_controls {m : ModelDict ℝ} (hna : m.anchoring = none) {val0 val : Loc → ℝ} (hother : ∀ l, l.cat ≠ .controls → val l = val0 l) (cov : Covariates) (e : ℕ) (z : Noise → ℝ) (t : ℕ) :
    latentStates m val cov e z t = latentStates m val0 cov e z t := by
  have hout : ∀ f, outcome m f = none := fun f => by simp [outcome, hna]
  have hscale : ∀ v : Loc → ℝ, ∀ t f, anchorScale m v t f = 1 := fun v t f => by simp [anchorScale, hout]
  have hconst : ∀ v : Loc → ℝ, ∀ t f, anchorConstant m v t f = 0 := fun v t f => by simp [anchorConstant, hout]
  induction t with
  | zero =>
    funext f
    simp only [latentStates, startState, hother ⟨.initialStates, _, _, _⟩ (by simp), hother ⟨.initialCholcovs, _, _, _⟩ (by simp)]
  | succ t ih =>
    funext f
    simp only [latentStates, ih, hother ⟨.shockSds, _, _, _⟩ (by simp), nextState, nextAnchored, anchoredValue, hscale, hconst, hother ⟨.transition, _, _, _⟩ (by simp)]

/-- The data can tell values of the parameters apart that only differ in the coefficients of control variables, if they differ in the effect of the control variables on an observed measurement. -/
theorem differ_controls {m : ModelDict ℝ} {k : ℕ} (hna : m.anchoring = none) {val0 val : Loc → ℝ} (hother : ∀ l, l.cat ≠ .controls → val l = val0 l) (cov : Covariates)
    {t : ℕ} {v : String} (hu : IsUpdate m t v) (ho : cov.isObserved t v = true)
    (hne : (("constant" :: m.controls.getD []).map (fun c => val ⟨.controls, t, v, c⟩ * cov.control t c)).sum ≠ (("constant" :: m.controls.getD []).map (fun c => val0 ⟨.controls, t, v, c⟩ * cov.control t c)).sum) :
    DataDiffer m k val0 val cov := by
  intro Ω Ω' _ _ P P' _ _ E E' Z Z' hZ hZ' updates hup h
  have hZv : RandomNoise P val E Z := { hZ with element_weights := fun e => by rw [hZ.element_weights, hother _ (by simp)] }
  have hsame := congrArg (Measure.map (fun d : Fin k × (Noise → ℝ) => observedData updates cov (measurementValue m val cov d.1 d.2))) (noise_distribution hZv hZ')
  rw [Measure.map_map (measurable_observed m val cov updates) (hZ.measurable_element.prodMk (measurable_pi_iff.mpr hZ.measurable)),
    Measure.map_map (measurable_observed m val cov updates) (hZ'.measurable_element.prodMk (measurable_pi_iff.mpr hZ'.measurable))] at hsame
  have h : P.map (fun ω => observedData updates cov (measurementValue m val0 cov (E ω) (fun j => Z j ω))) = P.map (fun ω => observedData updates cov (measurementValue m val cov (E ω) (fun j => Z j ω))) := h.trans hsame.symm
  obtain ⟨j, hj⟩ := List.get_of_mem ((hup.all t v).mpr hu)
  have hmeas : ∀ val, Measurable (fun ω => observedData updates cov (measurementValue m val cov (E ω) (fun j => Z j ω))) := fun val =>
    (measurable_observed m val cov updates).comp (hZ.measurable_element.prodMk (measurable_pi_iff.mpr hZ.measurable))
  have h := congrArg (Measure.map (fun y : Fin updates.length → ℝ => y j)) h
  rw [Measure.map_map (measurable_pi_apply j) (hmeas val0), Measure.map_map (measurable_pi_apply j) (hmeas val)] at h
  refine shift_changes ((measurable_pi_apply j).comp (hmeas val0)) (sub_ne_zero.mpr hne) (h.trans ?_)
  congr 1
  funext ω
  simp only [Function.comp_apply, observedData, hj, ho, if_true, measurementValue, latentStates_controls hna hother, hother ⟨.loadings, _, _, _⟩ (by simp), hother ⟨.measSds, _, _, _⟩ (by simp)]
  ring

namespace Ex

theorem paramsWith {m : ModelDict ℝ} {pm : Processed ℝ} (hpm : processModel m = .ok pm) (hg : GoodNames m) (val : Loc → ℝ) : ParamsWith m (pm.paramsIndex.map (fun l => (l, val l))) val := by
  have hfst : (pm.paramsIndex.map (fun l => (l, val l))).map Prod.fst = pm.paramsIndex := by rw [List.map_map]; exact List.map_id _
  refine ⟨by rw [hfst]; exact C06_index_unique_partial hpm hg, fun l => by rw [hfst]; exact mem_paramsIndex_iff hpm l, fun l x hx => ?_⟩
  obtain ⟨l', _, h⟩ := List.mem_map.mp hx
  cases h
  rfl

/-- C109 for an example with control variables, an observed factor and a missing measurement: with each of the covariates of the three individuals, the data are distributed differently if an intercept is larger by one. -/
theorem higherIntercept_differs (i : ℕ) : DataDiffer linearModel 1 linearValues higherIntercept (randomCovariates i) := by
  refine differ_controls rfl (fun l hl => higherIntercept_of_cat hl) (randomCovariates i) (t := 0) (v := "y1") ((linearModel_update 0 "y1").mpr ⟨by norm_num, by simp⟩) (by simp [randomCovariates]) ?_
  have hx : higherIntercept ⟨.controls, 0, "y1", "x"⟩ = linearValues ⟨.controls, 0, "y1", "x"⟩ := if_neg (by simp)
  have hc : higherIntercept ⟨.controls, 0, "y1", "constant"⟩ = 3 / 2 := if_pos rfl
  have hc' : linearValues ⟨.controls, 0, "y1", "constant"⟩ = 1 / 2 := by norm_num [linearValues, show Cat.controls ≠ Cat.mixtureWeights by decide]
  simp only [linearModel, Option.getD_some, List.map_cons, List.map_nil, List.sum_cons, List.sum_nil, hx, hc, hc', randomCovariates, if_true, ne_eq, add_left_inj]
  norm_num

/-- C109 for random data of three individuals. -/
theorem C109_example (custom : String → CustomFn) (nan : ℝ) : ∃ (qr : QR) (params0 params : List (Loc × ℝ)) (ρ : ℝ≥0∞) (Ω : Type) (_ : MeasurableSpace Ω) (P : Measure Ω) (_ : IsProbabilityMeasure P) (df : Ω → LongData ℝ)
    (inputs : Ω → MaximizationInputs) (out0 out : Ω → LoglikeOutput), ρ < 1 ∧
      (∀ l x, (l, x) ∈ params0 → x = linearValues l) ∧ (∀ l x, (l, x) ∈ params → x = higherIntercept l) ∧ (∀ ω, (df ω).rows.length = 6) ∧
      (∀ᵐ ω ∂P, getMaximizationInputs linearModel (df ω) = .ok (inputs ω) ∧ (inputs ω).loglike qr custom nan linearModel params0 = .ok (out0 ω) ∧ (inputs ω).loglike qr custom nan linearModel params = .ok (out ω)) ∧
      P {ω | (out0 ω).value ≤ (out ω).value} ≤ ρ := by
  obtain ⟨qr, hqr⟩ := validQR
  obtain ⟨pm, hpm, _, hupd⟩ := linearModel_ok
  obtain ⟨Ω, _, P, E, Z, hP, hZ, hind⟩ := exists_individualNoise (k := 1) (val := linearValues) (by intro e _; simp [linearValues]) (by simp [linearValues])
  have hkappa : ∀ o x, linearModel.estimationOptions = some o → o.sigmaPointsScale = some x → (0 : ℝ) ≤ x := by rintro o x ⟨⟩ ⟨⟩
  obtain ⟨inputs, out0, out, hall⟩ := randomData_outputs hqr hpm custom nan higherIntercept P E Z hZ hind
  have hp := paramsWith hpm linearModel_names
  obtain ⟨ρ, hρ, h⟩ := C109_wrong_parameters hqr hpm linearModel_linear rfl linearModel_names hkappa ⟨_, rfl, rfl, Or.inl rfl⟩ linearValues_proper higherIntercept_proper custom nan (randomCovariates 1) (higherIntercept_differs 1)
  refine ⟨qr, _, _, ρ, Ω, _, P, hP, fun ω => randomData (randomValues E Z ω), inputs, out0, out, hρ, (hp linearValues).values, (hp higherIntercept).values, fun _ => rfl, hall, ?_⟩
  have h := h P E Z hZ hind (fun ω => randomData (randomValues E Z ω)) [1, 2, 3] [10, 20] randomCovariates
    (fun ω => ⟨(randomData_index _).1, (randomData_index _).2.1, (randomData_ids _).1, (randomData_ids _).2⟩) (fun ω i hi => randomData_describes (randomValues E Z ω) (by simpa using hi)) _ _ (hp linearValues).nodup (hp linearValues).values
    (hp higherIntercept).nodup (hp higherIntercept).values inputs out0 out hall {1} (by simp)
  simpa using h

/-- Values of the parameters between -10 and 10 for all intercepts, with the other parameters known. -/
def interceptRange : Set (Loc → ℝ) := Set.univ.pi (fun l => if l.cat = .controls then Set.Icc (-10) 10 else {cesValues l})

theorem interceptRange_compact : IsCompact interceptRange := isCompact_univ_pi (fun l => by
  split_ifs
  · exact isCompact_Icc
  · exact isCompact_singleton)

theorem interceptRange_other {val : Loc → ℝ} (h : val ∈ interceptRange) {l : Loc} (hl : l.cat ≠ .controls) : val l = cesValues l := by
  have := h l (Set.mem_univ l)
  dsimp only at this
  rwa [if_neg hl] at this

theorem interceptRange_true : cesValues ∈ interceptRange := by
  intro l _
  dsimp only
  split_ifs
  · norm_num [cesValues]
  · rfl

theorem interceptRange_proper (val : Loc → ℝ) (h : val ∈ interceptRange) : ProperValues plainModel 2 val where
  positive e he := by
    rw [interceptRange_other h (by simp)]
    exact plainValues_proper.positive e he
  sum := by
    simp only [interceptRange_other h (l := ⟨.mixtureWeights, _, _, _⟩) (by simp)]
    exact plainValues_proper.sum
  sds t v hu := by
    rw [interceptRange_other h (by simp)]
    exact plainValues_proper.sds t v hu
  scales t f _ := by simp [anchorScale, outcome, plainModel]

/-- Different intercepts have different implications for the data. -/
theorem interceptRange_differ (val : Loc → ℝ) (h : val ∈ interceptRange) (hne : ∃ l, IsParam plainModel l ∧ val l ≠ cesValues l) : DataDiffer plainModel 2 cesValues val noCovariates := by
  obtain ⟨l, hp, hl⟩ := hne
  have hcat : l.cat = .controls := by
    by_contra hc
    exact hl (interceptRange_other h hc)
  cases hp with
  | control hu hc =>
    rename_i t v c
    obtain rfl : c = "constant" := by simpa [plainModel] using hc
    refine differ_controls rfl (fun l hl => interceptRange_other h hl) noCovariates hu rfl ?_
    simpa [plainModel, noCovariates] using hl
  | loading | measSd | shockSd | initialState | mixtureWeight | cholcov | transition => exact absurd hcat (by simp)

/-- C110 for an example with two mixture elements: the intercepts are estimated consistently. -/
theorem C110_example (custom : String → CustomFn) (nan : ℝ) : ∃ (qr : QR) (root : NormalRoot) (params0 : List (Loc × ℝ)) (Ω : Type) (_ : MeasurableSpace Ω) (P : Measure Ω) (_ : IsProbabilityMeasure P)
    (E : Nat → Ω → Fin 2) (Z : Nat → Draw → Ω → ℝ), RandomDatasetDraws P cesValues E Z ∧ ParamsWith plainModel params0 cesValues ∧
    ∀ᵐ ω ∂P, ∃ data : ℕ → SimulatedDataset, (∀ n ≥ 2, simulateDataset root custom nan plainModel params0 (some n) none [] (drawsWith (fun i => E i ω) (fun i j => Z i j ω)) = .ok (data n)) ∧
      (∀ n ≥ 2, ∃ val, Maximizes (loglikeValue qr custom nan plainModel (asDataset (data n).measurements)) plainModel interceptRange val) ∧
      ∀ est : ℕ → Loc → ℝ, (∀ n ≥ 2, Maximizes (loglikeValue qr custom nan plainModel (asDataset (data n).measurements)) plainModel interceptRange (est n)) → ∀ l, IsParam plainModel l →
        Filter.Tendsto (fun n => est n l) Filter.atTop (𝓝 (1 / 2)) := by
  obtain ⟨qr, hqr⟩ := validQR
  obtain ⟨root, hroot⟩ := exists_validRoot
  obtain ⟨pm, hpm, _, hu⟩ := plainModel_ok
  obtain ⟨Ω, _, P, E, Z, hP, hZ⟩ := exists_datasetDraws (val := cesValues) (k := 2) (fun e he => (plainValues_proper.positive e he).le) plainValues_proper.sum
  have hp := paramsWith hpm plainModel_names cesValues
  exact ⟨qr, root, _, Ω, _, P, hP, E, Z, hZ, hp, C110_consistent hqr hroot hpm plainModel_linear plainModel_simulation rfl rfl rfl (fun t v h => by rcases plainModel_update t v h with rfl | rfl | rfl <;> decide)
    (by rintro o x ⟨⟩ ⟨⟩) ⟨_, rfl, rfl, Or.inl rfl⟩ custom nan interceptRange_compact interceptRange_proper interceptRange_true interceptRange_differ _ hp P (fun _ => E) (fun _ => Z) (fun _ => hZ)⟩

/-- All intercepts are one. -/
noncomputable def unitIntercepts (l : Loc) : ℝ := if l.cat = .controls then 1 else cesValues l

theorem unitIntercepts_mem : unitIntercepts ∈ interceptRange := by
  intro l _
  dsimp only [unitIntercepts]
  split_ifs
  · norm_num
  · rfl

theorem unitIntercepts_differ : DataDiffer plainModel 2 cesValues unitIntercepts noCovariates := by
  refine interceptRange_differ _ unitIntercepts_mem ⟨⟨.controls, 0, "w", "constant"⟩, .control (Or.inl ⟨"b", _, List.mem_cons_of_mem _ (List.mem_singleton.mpr rfl), ["w"], rfl, by simp⟩) (Or.inl rfl), ?_⟩
  norm_num [unitIntercepts, cesValues]

/-- C109 for simulated datasets of growing size. -/
theorem C109_growing_example (custom : String → CustomFn) (nan : ℝ) : ∃ (qr : QR) (root : NormalRoot) (params0 params : List (Loc × ℝ)) (Ω : Type) (_ : MeasurableSpace Ω) (P : Measure Ω) (_ : IsProbabilityMeasure P)
    (E : Nat → Ω → Fin 2) (Z : Nat → Draw → Ω → ℝ), RandomDatasetDraws P cesValues E Z ∧ ParamsWith plainModel params0 cesValues ∧ ParamsWith plainModel params unitIntercepts ∧
    ∀ᵐ ω ∂P, ∀ᶠ n in Filter.atTop, ∃ data inputs out0 out,
      simulateDataset root custom nan plainModel params0 (some n) none [] (drawsWith (fun i => E i ω) (fun i j => Z i j ω)) = .ok data ∧
      getMaximizationInputs plainModel (asDataset data.measurements) = .ok inputs ∧ inputs.loglike qr custom nan plainModel params0 = .ok out0 ∧ inputs.loglike qr custom nan plainModel params = .ok out ∧ out.value < out0.value := by
  obtain ⟨qr, hqr⟩ := validQR
  obtain ⟨root, hroot⟩ := exists_validRoot
  obtain ⟨pm, hpm, _, hu⟩ := plainModel_ok
  obtain ⟨Ω, _, P, E, Z, hP, hZ⟩ := exists_datasetDraws (val := cesValues) (k := 2) (fun e he => (plainValues_proper.positive e he).le) plainValues_proper.sum
  have hp := paramsWith hpm plainModel_names
  have h := C109_growing_data hqr hroot hpm plainModel_linear plainModel_simulation rfl rfl rfl (fun t v h => by rcases plainModel_update t v h with rfl | rfl | rfl <;> decide)
    (by rintro o x ⟨⟩ ⟨⟩) ⟨_, rfl, rfl, Or.inl rfl⟩ plainValues_proper custom nan _ (hp cesValues).nodup (hp cesValues).labels (hp cesValues).values {pm.paramsIndex.map (fun l => (l, unitIntercepts l))} (Set.finite_singleton _)
    (fun params hmem => by
      cases hmem
      exact ⟨(hp unitIntercepts).nodup, (hp unitIntercepts).labels, unitIntercepts, interceptRange_proper _ unitIntercepts_mem, (hp unitIntercepts).values, unitIntercepts_differ⟩) P (fun _ => E) (fun _ => Z) (fun _ => hZ)
  refine ⟨qr, root, _, _, Ω, _, P, hP, E, Z, hZ, hp cesValues, hp unitIntercepts, ?_⟩
  filter_upwards [h] with ω hω
  filter_upwards [hω] with n hn
  exact hn _ rfl

end Ex
end Skill
