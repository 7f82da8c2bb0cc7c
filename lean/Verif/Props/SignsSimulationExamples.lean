import Verif.Props.SignsSimulation
import Verif.Props.SignsExamples
import Verif.Props.MovedSimulationExamples
/- **C140**: an example with simulated data. -/
namespace Skill
open Spec
namespace Ex

theorem anchoredModel_latent {f : String} (hf : IsLatent anchoredModel f) : f = "a" ∨ f = "b" := by
  obtain ⟨spec, hmem⟩ := hf
  simp only [anchoredModel, linearModel, List.mem_cons, Prod.mk.injEq, List.not_mem_nil, or_false] at hmem
  rcases hmem with ⟨h, _⟩ | ⟨h, _⟩
  · exact Or.inl h
  · exact Or.inr h

/-- **C140**: the model with one anchored factor, three individuals and a policy. All standard deviations and the first column of the Cholesky factor become negative; simulate_dataset returns the same latent factors and measurements. -/
theorem C140_simulation_example (root : NormalRoot) (custom : String → CustomFn) (nan : ℝ) : ∃ (params params' : List (Loc × ℝ)) (x : Nat → Cell anchoredModel → ℝ) (out out' : SimulatedDataset),
    HasParams anchoredModel params linearValues ∧ HasParams anchoredModel params' flippedValues ∧ flippedValues ⟨.measSds, 0, "y1", "-"⟩ = -linearValues ⟨.measSds, 0, "y1", "-"⟩ ∧ linearValues ⟨.measSds, 0, "y1", "-"⟩ ≠ 0 ∧
    simulateDataset root custom nan anchoredModel params none (some anchoredData) anchoredPolicies ones = .ok out ∧ simulateDataset root custom nan anchoredModel params' none (some anchoredData) anchoredPolicies ones = .ok out' ∧
    DatasetIs anchoredModel linearValues 3 x out ∧ DatasetIs anchoredModel linearValues 3 x out' ∧ out.measurements.rows.length = 6 ∧ out'.measurements.rows = out.measurements.rows := by
  obtain ⟨pm, hpm, hP, _⟩ := anchoredModel_ok
  obtain ⟨params, hp⟩ := exists_params hpm anchoredModel_names linearValues
  obtain ⟨params', hp'⟩ := exists_params hpm anchoredModel_names flippedValues
  have ha : IsLatent anchoredModel "a" := ⟨_, List.mem_cons_self⟩
  have hw : ∀ e, linearValues ⟨.mixtureWeights, 0, Spec.mixtureName e, "-"⟩ = 1 := fun e => if_pos rfl
  have hv : SimulationValues custom anchoredModel 1 linearValues anchoredPolicies := ⟨fun e _ => by rw [hw]; exact one_pos, by simp [hw], fun t _ => anchoredModel_usable custom _, fun p h _ => by
    simp only [anchoredPolicies, List.mem_cons, List.not_mem_nil, or_false] at h
    subst h
    exact ⟨ha, zero_le_one⟩⟩
  obtain ⟨x, out, out', h1, h2, h3, h4, h5⟩ := C140_simulation root hpm anchoredModel_simulation custom nan (flipped_same_of (fun _ h => anchoredModel_latent h) 1) hv hp hp' (anchoredData_individuals none) (by norm_num) (draws := ones) (fun h => absurd rfl h)
  have hN : IsNPeriods anchoredModel 2 := hP ▸ isNPeriods_of_ok hpm
  exact ⟨params, params', x, out, out', hp, hp', if_pos (Or.inl rfl), by rw [flipped_values.1]; norm_num, h1, h2, h3, h4, (h3.size 2 hN).2.2, h5⟩

end Ex
end Skill
