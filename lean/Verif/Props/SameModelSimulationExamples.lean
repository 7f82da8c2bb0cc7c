import Verif.Props.SameModelSimulation
import Verif.Props.SameModelExamples
import Verif.Props.SimulateDatasetExamples
/- **C101**: an example with simulated data. -/
namespace Skill
open Spec MeasureTheory ProbabilityTheory
namespace Ex

theorem reversedModel_individuals (nObs : Option ℕ) : Individuals reversedModel nObs (some linearData) 3 linearCovariatesOf := by
  refine .ofData (ids := [1, 2, 3]) linearData_index.1 linearData_index.2.1 linearData_ids.1 linearData_ids.2
    ⟨reversedModel_data.keys, reversedModel_data.outcomes, reversedModel_data.controls, fun t v h => (reversedModel_data.measurements t v h).1, reversedModel_data.observed⟩ ?_
  intro i hi t ht
  obtain ⟨r, h1, h2, h3⟩ := linearData_known _ i hi t ((reversedModel_period_iff t).mpr ht)
  exact ⟨r, h1, fun c hc => (reversedModel_variables.valueIs _ _ _).mp (h2 c hc), fun f hf => (reversedModel_variables.valueIs _ _ _).mp (h3 f hf)⟩

/-- **C101**: the simulated measurements of the two orders of factors and measurements have the same law. -/
theorem C101_simulation_example (custom : String → CustomFn) (nan : ℝ) : ∃ (root : NormalRoot) (params params' : List (Loc × ℝ)) (Ω : Type) (_ : MeasurableSpace Ω) (P : Measure Ω) (E : Nat → Ω → Fin 1) (Z : Nat → Draw → Ω → ℝ)
    (out out' : Ω → SimulatedDataset) (X : Nat → Ω → Cell linearModel → ℝ) (X' : Nat → Ω → Cell reversedModel → ℝ),
    IsProbabilityMeasure P ∧ RandomDatasetDraws P linearValues E Z ∧ HasParams linearModel params linearValues ∧ HasParams reversedModel params' reversedValues ∧ IsUpdate linearModel 1 "y2" ∧
    (∀ ω, simulateDataset root custom nan linearModel params none (some linearData) [] (drawsWith (fun i => E i ω) (fun i j => Z i j ω)) = .ok (out ω) ∧ DatasetIs linearModel linearValues 3 (fun i => X i ω) (out ω)) ∧
    (∀ ω, simulateDataset root custom nan reversedModel params' none (some linearData) [] (drawsWith (fun i => E i ω) (fun i j => Z i j ω)) = .ok (out' ω) ∧ DatasetIs reversedModel reversedValues 3 (fun i => X' i ω) (out' ω)) ∧
    P.map (fun ω (i : Fin 3) (q : {p : Nat × String // IsUpdate linearModel p.1 p.2}) => X' i ω (.inr ⟨q.1, (reversedModel_variables.isUpdate _ _).mp q.2⟩)) =
      P.map (fun ω (i : Fin 3) (q : {p : Nat × String // IsUpdate linearModel p.1 p.2}) => X i ω (.inr q)) := by
  obtain ⟨root, hroot⟩ := exists_validRoot
  obtain ⟨pm, hpm, _⟩ := linearModel_ok
  obtain ⟨pm', hpm', _⟩ := reversedModel_ok
  obtain ⟨params, hparams⟩ := exists_params hpm linearModel_names linearValues
  obtain ⟨params', hparams'⟩ := exists_params hpm' reversedModel_names reversedValues
  obtain ⟨Ω, _, P, E, Z, hP, hZ⟩ := exists_datasetDraws (val := linearValues) (k := 1) (fun e he => (linearValues_proper.positive e he).le) linearValues_proper.sum
  have hZ' : RandomDatasetDraws P reversedValues E Z := { hZ with element_weights := fun i e => by rw [hZ.element_weights]; simp [reversedValues] }
  obtain ⟨out, out', X, X', _, h1, h2, h3⟩ := C101_simulation hroot hroot hpm hpm' linearModel_linear reversedModel_linear linearModel_simulation reversedModel_names reversedModel_same reversedValues_same linearValues_proper custom custom nan nan hparams hparams'
    (linearData_individuals none) (reversedModel_individuals none) (by norm_num) hZ hZ'
  exact ⟨root, params, params', Ω, _, P, E, Z, out, out', X, X', hP, hZ, hparams, hparams', (linearModel_update 1 "y2").mpr (by simp), h1, h2, h3⟩

end Ex
end Skill
