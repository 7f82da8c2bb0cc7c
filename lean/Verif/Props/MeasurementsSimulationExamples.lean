import Verif.Props.MeasurementsSimulation
import Verif.Props.SwitchSimulationExamples
import Verif.Props.SimulationUnitsExamples
/- **C116**: an example with simulated data. -/
namespace Skill
open Spec MeasureTheory ProbabilityTheory
namespace Ex

/-- **C116**: a model with a translog function, three individuals, a policy in the first period, with the measurement y2 and without it. The cells of y2 are not in the smaller dataset, those of y1 and w are. -/
theorem C116_simulation_example (custom : String → CustomFn) (nan : ℝ) : ∃ (root : NormalRoot) (params params' : List (Loc × ℝ)) (Ω : Type) (_ : MeasurableSpace Ω) (P : Measure Ω) (E : Nat → Ω → Fin 1) (Z : Nat → Draw → Ω → ℝ)
    (out out' : Ω → SimulatedDataset) (X : Nat → Ω → Cell editModel → ℝ) (X' : Nat → Ω → Cell (removeMeasurements ["y2"] editModel) → ℝ), IsProbabilityMeasure P ∧ RandomDatasetDraws P editValues E Z ∧
    HasParams editModel params editValues ∧ HasParams (removeMeasurements ["y2"] editModel) params' editValues ∧
    IsUpdate editModel 1 "y2" ∧ ¬IsUpdate (removeMeasurements ["y2"] editModel) 1 "y2" ∧ IsUpdate (removeMeasurements ["y2"] editModel) 1 "w" ∧
    (∀ ω, simulateDataset root custom nan editModel params none (some editData) anchoredPolicies (drawsWith (fun i => E i ω) (fun i j => Z i j ω)) = .ok (out ω) ∧ DatasetIs editModel editValues 3 (fun i => X i ω) (out ω)) ∧
    (∀ ω, simulateDataset root custom nan (removeMeasurements ["y2"] editModel) params' none (some editData) anchoredPolicies (drawsWith (fun i => E i ω) (fun i j => Z i j ω)) = .ok (out' ω) ∧
      DatasetIs (removeMeasurements ["y2"] editModel) editValues 3 (fun i => X' i ω) (out' ω)) ∧
    P.map (fun ω (i : Fin 3) => X' i ω) = P.map (fun ω (i : Fin 3) c => X i ω (cellBefore c)) := by
  obtain ⟨root, hroot⟩ := exists_validRoot
  obtain ⟨pm, hpm, hP, _⟩ := editModel_ok
  obtain ⟨pm', hpm'⟩ := accepted_removeMeasurements ⟨pm, hpm⟩ ["y2"]
  obtain ⟨params, hp⟩ := exists_params hpm editModel_names editValues
  obtain ⟨params', hp'⟩ := exists_params hpm' ((edit_removeMeasurements ["y2"] editModel).goodNames editModel_names) editValues
  have hw : ∀ e, editValues ⟨.mixtureWeights, 0, Spec.mixtureName e, "-"⟩ = 1 := fun e => if_pos rfl
  have hv : SimulationValues custom editModel 1 editValues anchoredPolicies := ⟨fun e _ => by rw [hw]; exact one_pos, by simp [hw], fun t _ fs hmem => by
    obtain ⟨f, spec⟩ := fs
    have := editModel_transitions hmem
    simp only [List.mem_cons, List.not_mem_nil, or_false] at this
    rcases this with h | h | h <;> rw [h] <;> exact ⟨rfl, fun h => by simp at h⟩, fun p h _ => by
    simp only [anchoredPolicies, List.mem_cons, List.not_mem_nil, or_false] at h
    subst h
    exact ⟨⟨_, List.mem_cons_self⟩, zero_le_one⟩⟩
  have hcus : MeasurableCustom custom editModel := by
    intro fs hmem args names body ht
    obtain ⟨f, spec⟩ := fs
    have := editModel_transitions hmem
    simp only [List.mem_cons, List.not_mem_nil, or_false] at this
    rcases this with h | h | h <;> (rw [h] at ht; cases ht)
  have hmw : ∀ t, t < 3 → IsUpdate (removeMeasurements ["y2"] editModel) t "w" := fun t ht => by
    refine Or.inl ⟨"b", _, mem_removeMeasurements.mpr ⟨_, List.mem_cons_of_mem _ List.mem_cons_self, rfl⟩, ["w"], ?_, List.mem_singleton.mpr rfl⟩
    interval_cases t <;> rfl
  have hno : ¬IsUpdate (removeMeasurements ["y2"] editModel) 1 "y2" := by
    rintro (⟨f, spec, hs, l, h1, h2⟩ | ⟨_, f, o, ⟨a, ⟨⟩, _⟩, _⟩)
    obtain ⟨s, _, rfl⟩ := mem_removeMeasurements.mp hs
    change (s.measurements.map (fun l => removeFromList l ["y2"]))[1]? = some l at h1
    rw [List.getElem?_map] at h1
    obtain ⟨l0, _, rfl⟩ := Option.map_eq_some_iff.mp h1
    exact (mem_removeFromList.mp h2).2 (List.mem_singleton.mpr rfl)
  obtain ⟨Ω, _, P, E, Z, hPr, hZ⟩ := exists_datasetDraws (val := editValues) (k := 1) (fun e he => (hv.positive e he).le) hv.sum
  obtain ⟨out, out', X, X', h1, h2, h3⟩ := C116_simulation hroot hroot hpm editModel_simulation (ms := ["y2"]) (fun t ht => ⟨"w", hmw t ((editModel_period t).mp ht)⟩) hcus nan nan hv hp hp' (editData_individuals none) (by norm_num) hZ hZ
  exact ⟨root, params, params', Ω, _, P, E, Z, out, out', X, X', hPr, hZ, hp, hp', (editModel_update 1 "y2").mpr ⟨by norm_num, by simp⟩, hno, hmw 1 (by norm_num), h1, h2, h3⟩

end Ex
end Skill
