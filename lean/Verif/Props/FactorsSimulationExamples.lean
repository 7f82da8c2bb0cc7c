import Verif.Props.FactorsSimulation
import Verif.Props.SeparationExamples
import Verif.Props.SwitchSimulationExamples
import Verif.Props.SimulationUnitsExamples
/- **C121**: an example with simulated data. -/
namespace Skill
open Spec MeasureTheory ProbabilityTheory
namespace Ex

theorem sepModel_simulation : SimulationModel sepModel 1 where
  names := sepModel_names
  anchoring := sepModel_linear.anchoring
  safe f hf := by rcases (sepModel_latent f).mp hf with rfl | rfl <;> decide
  columns := by
    rintro f (hf | ⟨t, hf⟩)
    · rcases (sepModel_latent f).mp hf with rfl | rfl <;> decide
    · have := ((sepModel_update t f).mp hf).2
      simp only [List.mem_cons, List.not_mem_nil, or_false] at this
      rcases this with rfl | rfl | rfl <;> decide
  periods := (sepModel_period 1).mpr (by norm_num)
  updates := fun t ht => ⟨"w", (sepModel_update t "w").mpr ⟨(sepModel_period t).mp ht, by simp⟩⟩
  mixture := sepModel_linear.mixture
  elements := one_ne_zero

theorem sepData_individuals (nObs : Option ℕ) : Individuals sepModel nObs (some editData) 3 editCovariates := by
  refine .ofData (ids := [1, 2, 3]) editData_index.1 editData_index.2.1 editData_ids.1 editData_ids.2
    ⟨sepData_ok.keys, sepData_ok.outcomes, sepData_ok.controls, fun t v h => (sepData_ok.measurements t v h).1, sepData_ok.observed⟩ ?_
  intro i hi t ht
  have ht := (sepModel_period t).mp ht
  refine ⟨some (editRow (i + 1) (10 * (t + 1))), editData_row hi ht, fun c hc => ?_, fun f hf => (List.not_mem_nil hf).elim⟩
  rw [valueIs_of_none rfl]
  simp only [sepModel, Option.getD_some, List.mem_cons, List.not_mem_nil, or_false] at hc
  rcases hc with rfl | rfl
  · simp [editCovariates, baseValue]
  · rw [editRow_value (by decide) (by simp)]
    simp [editCovariates]

/-- **C121**: two factors, three periods, three individuals and a policy; the factor b depends on the factor a but not the other way round. The simulated factor a and its measurements have the same joint law without the factor b. -/
theorem C121_simulation_example (custom : String → CustomFn) (nan : ℝ) : ∃ (root : NormalRoot) (m' : ModelDict ℝ) (hrem : removeFactors ["b"] sepModel = .ok m') (params params' : List (Loc × ℝ)) (Ω : Type) (_ : MeasurableSpace Ω) (P : Measure Ω)
    (E : Nat → Ω → Fin 1) (Z : Nat → Draw → Ω → ℝ) (out out' : Ω → SimulatedDataset) (X : Nat → Ω → Cell sepModel → ℝ) (X' : Nat → Ω → Cell m' → ℝ), IsProbabilityMeasure P ∧ RandomDatasetDraws P (sepValues (1 / 2)) E Z ∧
    HasParams sepModel params (sepValues (1 / 2)) ∧ HasParams m' params' (sepValues (1 / 2)) ∧ IsLatent sepModel "b" ∧ ¬IsLatent m' "b" ∧ IsUpdate m' 2 "w" ∧
    (∀ ω, simulateDataset root custom nan sepModel params none (some editData) anchoredPolicies (drawsWith (fun i => E i ω) (fun i j => Z i j ω)) = .ok (out ω) ∧ DatasetIs sepModel (sepValues (1 / 2)) 3 (fun i => X i ω) (out ω)) ∧
    (∀ ω, simulateDataset root custom nan m' params' none (some editData) anchoredPolicies (drawsWith (fun i => E i ω) (fun i j => Z i j ω)) = .ok (out' ω) ∧ DatasetIs m' (sepValues (1 / 2)) 3 (fun i => X' i ω) (out' ω)) ∧
    P.map (fun ω (i : Fin 3) => X' i ω) = P.map (fun ω (i : Fin 3) c => X i ω (cellWithAll (without_removeFactors hrem) rfl c)) := by
  obtain ⟨root, hroot⟩ := exists_validRoot
  obtain ⟨pm, hpm, _⟩ := sepModel_ok
  obtain ⟨m', hrem, pm', hpm'⟩ := accepted_removeFactors ⟨pm, hpm⟩ (fs := ["b"]) (by rintro a ⟨⟩) ⟨"a", _, List.mem_cons_self, by decide, by simp⟩
  have hw := without_removeFactors hrem
  have hmeas : ∀ t, t < 3 → Measures m' t "w" "a" := fun t ht => (hw.measures t "w" "a").mpr ⟨(sepModel_measures t _ _).mpr ⟨ht, by simp⟩, by decide⟩
  have hper : ∀ t, t < 3 → IsPeriod m' t := fun t ht => period_of_measures (processModel_nPeriods hpm') (hmeas t ht)
  have hm' : LinearModel m' 1 := hw.linear rfl sepModel_linear (hper 1 (by norm_num)) (fun t ht =>
    ⟨"w", "a", (sepModel_measures t _ _).mpr ⟨(sepModel_period t).mp (hw.periods t ht), by simp⟩, by decide⟩)
  obtain ⟨params, hp⟩ := exists_params hpm sepModel_names (sepValues (1 / 2))
  obtain ⟨params', hp'⟩ := exists_params hpm' (hw.goodNames rfl sepModel_names) (sepValues (1 / 2))
  have hv := sepValues_proper (1 / 2)
  obtain ⟨Ω, _, P, E, Z, hPr, hZ⟩ := exists_datasetDraws (val := sepValues (1 / 2)) (k := 1) (fun e he => (hv.positive e he).le) hv.sum
  obtain ⟨out, out', X, X', h1, h2, h3⟩ := C121_simulation hroot hroot hpm hrem hpm' sepModel_linear hm' rfl sepModel_simulation (fun t ht => hper t ((sepModel_period t).mp ht)) hv (sepModel_noInfluence _) custom custom nan nan
    (policies := anchoredPolicies) (fun p h _ => by
    simp only [anchoredPolicies, List.mem_cons, List.not_mem_nil, or_false] at h
    subst h
    exact ⟨(sepModel_latent _).mpr (Or.inl rfl), by decide, zero_le_one⟩) hp hp' (sepData_individuals none) (by norm_num) hZ hZ
  exact ⟨root, m', hrem, params, params', Ω, _, P, E, Z, out, out', X, X', hPr, hZ, hp, hp', (sepModel_latent _).mpr (Or.inr rfl), fun h => ((hw.isLatent _).mp h).2 (by decide), Or.inl ⟨"a", hmeas 2 (by norm_num)⟩, h1, h2, h3⟩

end Ex
end Skill
