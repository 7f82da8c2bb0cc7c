import Verif.Props.SimulationUnits
import Verif.Props.SimulateDatasetExamples
import Verif.Props.SameLikelihoodExamples

/-! Examples for C108. -/

namespace Skill
open Matrix MeasureTheory ProbabilityTheory Spec
namespace Ex

theorem anchoredModel_simulation : SimulationModel anchoredModel 1 where
  names := anchoredModel_names
  anchoring := anchoredModel_linear.anchoring
  safe f hf := (anchoredModel_safe f hf).1
  columns := by
    rintro f (hf | ⟨t, hf⟩)
    · exact (anchoredModel_safe f hf).2
    · have := ((anchoredModel_update t f).mp hf).2
      simp only [List.mem_cons, List.not_mem_nil, or_false] at this
      rcases this with rfl | rfl | rfl | rfl <;> decide
  periods := anchoredModel_linear.periods
  updates := fun t ht => ⟨"w", (anchoredModel_update t "w").mpr ⟨(anchoredModel_period t).mp ht, by simp⟩⟩
  mixture := anchoredModel_linear.mixture
  elements := one_ne_zero

theorem anchoredData_individuals (nObs : Option ℕ) : Individuals anchoredModel nObs (some anchoredData) 3 linearCovariatesOf := by
  refine .ofData (ids := [1, 2, 3]) anchoredData_index.1 anchoredData_index.2.1 anchoredData_ids.1 anchoredData_ids.2
    ⟨anchoredData_ok.keys, anchoredData_ok.outcomes, anchoredData_ok.controls, fun t v h => (anchoredData_ok.measurements t v h).1, anchoredData_ok.observed⟩ ?_
  intro i hi t ht
  have ht := (anchoredModel_period t).mp ht
  refine ⟨some (linearRow (i + 1) (10 * (t + 1))), anchoredData_row hi ht, fun c hc => ?_, fun f hf => ?_⟩
  · rw [anchoredModel_value]
    simp only [anchoredModel, linearModel, Option.getD_some, List.mem_cons, List.not_mem_nil, or_false] at hc
    rcases hc with rfl | rfl
    · simp [linearCovariatesOf, baseValue, columnOf]
    · rw [linearRow_value (by decide) (by simp [columnOf])]
      simp [linearCovariatesOf]
  · rw [anchoredModel_value]
    simp only [anchoredModel, linearModel, Option.getD_some, List.mem_singleton] at hf
    subst hf
    rw [linearRow_value (by decide) (by simp [columnOf])]
    rfl

/-- C108 applies to a model with an anchored factor, a policy with a random effect, and other units for both factors. -/
theorem anchoredModel_units : ∃ (root : NormalRoot) (val' : Loc → ℝ) (params params' : List (Loc × ℝ)) (Ω : Type) (_ : MeasurableSpace Ω) (P : Measure Ω) (E : Nat → Ω → Fin 1) (Z : Nat → Draw → Ω → ℝ)
    (out out' : Ω → SimulatedDataset) (X X' : Nat → Ω → Cell anchoredModel → ℝ), IsProbabilityMeasure P ∧ RandomDatasetDraws P linearValues E Z ∧ HasParams anchoredModel params linearValues ∧ HasParams anchoredModel params' val' ∧
      (∀ ω, simulateDataset root (fun _ => default) 0 anchoredModel params none (some anchoredData) linearPolicies (drawsWith (fun i => E i ω) (fun i j => Z i j ω)) = .ok (out ω) ∧
        DatasetIs anchoredModel linearValues 3 (fun i => X i ω) (out ω)) ∧
      (∀ ω, simulateDataset root (fun _ => default) 0 anchoredModel params' none (some anchoredData) [{ period := 0, factor := "a", effectSize := 2, standardDeviation := 1 }] (drawsWith (fun i => E i ω) (fun i j => Z i j ω)) = .ok (out' ω) ∧
        DatasetIs anchoredModel val' 3 (fun i => X' i ω) (out' ω)) ∧
      P.map (fun ω (i : Fin 3) => X' i ω) = P.map (fun ω (i : Fin 3) => cellsInUnits otherScale otherLocation (X i ω)) ∧
      P.map (fun ω (i : Fin 3) => observableCells val' (X' i ω)) = P.map (fun ω (i : Fin 3) => observableCells linearValues (X i ω)) := by
  obtain ⟨root, hroot⟩ := exists_validRoot
  obtain ⟨pm, hpm, _⟩ := anchoredModel_ok
  have hr : Rescales anchoredModel otherScale otherLocation linearValues (rescaledValues anchoredModel otherScale otherLocation linearValues) := rescaledValues_rescales anchoredModel_names
  obtain ⟨params, hparams⟩ := exists_params hpm anchoredModel_names linearValues
  obtain ⟨params', hparams'⟩ := exists_params hpm anchoredModel_names (rescaledValues anchoredModel otherScale otherLocation linearValues)
  obtain ⟨Ω, _, P, E, Z, hP, hZ⟩ := exists_datasetDraws (val := linearValues) (k := 1) (fun e he => (anchoredValues_proper.positive e he).le) anchoredValues_proper.sum
  have hZ' : RandomDatasetDraws P (rescaledValues anchoredModel otherScale otherLocation linearValues) E Z :=
    { hZ with element_weights := fun i e => by rw [hr.weights, hZ.element_weights] }
  have hpol : policiesInUnits otherScale linearPolicies = [{ period := 0, factor := "a", effectSize := 2, standardDeviation := 1 }] := by
    norm_num [policiesInUnits, linearPolicies, otherScale]
  have h := C108_units (policies := linearPolicies) hroot hroot hpm anchoredModel_linear anchoredModel_simulation anchoredModel_canRescale hr anchoredValues_proper (fun _ => default) (fun _ => default) 0 0 (by
    intro p hp _
    simp only [linearPolicies, List.mem_singleton] at hp
    subst hp
    exact ⟨⟨_, List.mem_cons_self⟩, by norm_num, by norm_num [otherScale]⟩) hparams hparams' (anchoredData_individuals none) (by norm_num) hZ hZ'
  rw [hpol] at h
  obtain ⟨out, out', X, X', h1, h2, h3, h4⟩ := h
  exact ⟨root, _, params, params', Ω, _, P, E, Z, out, out', X, X', hP, hZ, hparams, hparams', h1, h2, h3, h4⟩

theorem allLinear_simulation : SimulationModel allLinear 1 where
  names := makeLinear_names linearModel_names
  anchoring := (makeLinear_linear linearModel_linear).anchoring
  safe f hf := linearModel_simulation.safe f (by rw [← mem_latents_iff] at hf ⊢; exact hf)
  columns := by
    rintro f (hf | ⟨t, hf⟩)
    · exact linearModel_simulation.columns f (Or.inl (by rw [← mem_latents_iff] at hf ⊢; exact hf))
    · exact linearModel_simulation.columns f (Or.inr ⟨t, (makeLinear_variables.isUpdate t f).mpr hf⟩)
  periods := (makeLinear_periods 1).mp linearModel_linear.periods
  updates := fun t ht => by
    obtain ⟨v, hv⟩ := linearModel_simulation.updates t ((makeLinear_periods t).mpr ht)
    exact ⟨v, (makeLinear_variables.isUpdate t v).mp hv⟩
  mixture := (makeLinear_linear linearModel_linear).mixture
  elements := one_ne_zero

theorem allLinear_individuals (nObs : Option ℕ) : Individuals allLinear nObs (some linearData) 3 linearCovariatesOf := by
  refine .ofData (ids := [1, 2, 3]) linearData_index.1 linearData_index.2.1 linearData_ids.1 linearData_ids.2
    ⟨allLinear_data.keys, allLinear_data.outcomes, allLinear_data.controls, fun t v h => (allLinear_data.measurements t v h).1, allLinear_data.observed⟩ ?_
  intro i hi t ht
  obtain ⟨r, h1, h2, h3⟩ := linearData_known _ i hi t ((makeLinear_periods t).mpr ht)
  exact ⟨r, h1, fun c hc => (makeLinear_variables.valueIs _ _ _).mp (h2 c hc), fun f hf => (makeLinear_variables.valueIs _ _ _).mp (h3 f hf)⟩

/-- C108 applies to a model with a constant factor and the model in which this factor has a linear transition function: they have the same likelihood for all datasets by C105, so simulated measurements have the same distribution. -/
theorem allLinear_simulations : ∃ (root : NormalRoot) (params params' : List (Loc × ℝ)) (Ω : Type) (_ : MeasurableSpace Ω) (P : Measure Ω) (E : Nat → Ω → Fin 1) (Z : Nat → Draw → Ω → ℝ)
    (out out' : Ω → SimulatedDataset) (X : Nat → Ω → Cell linearModel → ℝ) (X' : Nat → Ω → Cell allLinear → ℝ), IsProbabilityMeasure P ∧ RandomDatasetDraws P linearValues E Z ∧ HasParams linearModel params linearValues ∧
      HasParams allLinear params' keepValues ∧
      (∀ ω, simulateDataset root (fun _ => default) 0 linearModel params none (some linearData) [] (drawsWith (fun i => E i ω) (fun i j => Z i j ω)) = .ok (out ω) ∧ DatasetIs linearModel linearValues 3 (fun i => X i ω) (out ω)) ∧
      (∀ ω, simulateDataset root (fun _ => default) 0 allLinear params' none (some linearData) [] (drawsWith (fun i => E i ω) (fun i j => Z i j ω)) = .ok (out' ω) ∧ DatasetIs allLinear keepValues 3 (fun i => X' i ω) (out' ω)) ∧
      P.map (fun ω (i : Fin 3) (q : {p : Nat × String // IsUpdate linearModel p.1 p.2}) => X' i ω (.inr ⟨q.1, (makeLinear_variables.isUpdate _ _).mp q.2⟩)) =
        P.map (fun ω (i : Fin 3) (q : {p : Nat × String // IsUpdate linearModel p.1 p.2}) => X i ω (.inr q)) := by
  obtain ⟨qr, hqr⟩ := validQR
  obtain ⟨root, hroot⟩ := exists_validRoot
  obtain ⟨pm, hpm, _⟩ := linearModel_ok
  obtain ⟨pm', hpm'⟩ := allLinear_ok
  obtain ⟨params, hparams⟩ := exists_params hpm linearModel_names linearValues
  obtain ⟨params', hparams'⟩ := exists_params hpm' allLinear_simulation.names keepValues
  obtain ⟨Ω, _, P, E, Z, hP, hZ⟩ := exists_datasetDraws (val := linearValues) (k := 1) (fun e he => (linearValues_proper.positive e he).le) linearValues_proper.sum
  have hZ' : RandomDatasetDraws P keepValues E Z := { hZ with element_weights := fun i e => by rw [hZ.element_weights, keepValues_keeps.others _ (by simp)] }
  have hno : NoClipping linearModel := ⟨_, rfl, rfl, Or.inl rfl⟩
  have hno' : NoClipping allLinear := ⟨_, rfl, rfl, Or.inl rfl⟩
  obtain ⟨out, out', X, X', h1, h2, h3⟩ := C108_same_likelihood hqr hqr hroot hroot hpm hpm' linearModel_linear (makeLinear_linear linearModel_linear) linearModel_simulation allLinear_simulation rfl rfl hno hno' (by rintro o x ⟨⟩ ⟨⟩)
    (by rintro o x ⟨⟩ ⟨⟩) makeLinear_variables linearModel_columns linearValues_proper (makeLinear_proper keepValues_keeps linearValues_proper) (fun _ => default) (fun _ => default) 0 0
    (fun df ids pers inputs inputs' params params' out out' hi hu hids hpers _ hall hn hn' hval hval' hin hin' hout hout' =>
      ((C105_constant_is_linear hqr hqr hpm hpm' linearModel_linear (Or.inr rfl) linearModel_names (by rintro o x ⟨⟩ ⟨⟩)
        (fun f hp _ => by
          obtain rfl : f = "b" := by simpa using hp
          exact ⟨_, List.mem_cons_of_mem _ List.mem_cons_self, rfl⟩)
        keepValues_keeps linearValues_proper (fun _ => default) (fun _ => default) 0 0 hi hu hids hpers hn hn' hval hval' hin hin' hout hout').2 hno hall).2)
    hparams hparams' (linearData_individuals none) (allLinear_individuals none) (by norm_num) hZ hZ'
  exact ⟨root, params, params', Ω, _, P, E, Z, out, out', X, X', hP, hZ, hparams, hparams', h1, h2, h3⟩

end Ex
end Skill
