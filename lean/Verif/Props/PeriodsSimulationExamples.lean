import Verif.Props.PeriodsSimulation
import Verif.Props.SwitchSimulationExamples
/- **C115**: an example with simulated data. -/
namespace Skill
open Spec
namespace Ex

/-- **C115**: a model with a translog function, three individuals, a policy in the first period, with three and with two periods. Row 2 * i + t of the smaller dataset is row 3 * i + t of the larger one. -/
theorem C115_simulation_example (root : NormalRoot) (custom : String → CustomFn) (nan : ℝ) : ∃ (params params' : List (Loc × ℝ)) (out out' : SimulatedDataset),
    HasParams editModel params editValues ∧ HasParams (reduceNPeriods editModel 2) params' editValues ∧
    simulateDataset root custom nan editModel params none (some editData) anchoredPolicies ones = .ok out ∧ simulateDataset root custom nan (reduceNPeriods editModel 2) params' none (some editData) anchoredPolicies ones = .ok out' ∧
    out.measurements.rows.length = 9 ∧ out'.measurements.rows.length = 6 ∧ out'.measurements.rows[3]? = out.measurements.rows[4]? ∧ ∃ r, out'.measurements.rows[3]? = some r ∧ r.id = 1 ∧ r.period = 1 ∧ r.cell "w" ≠ none := by
  obtain ⟨pm, hpm, hP, _⟩ := editModel_ok
  obtain ⟨pm', hpm'⟩ := accepted_reduceNPeriods (n := 2) ⟨pm, hpm⟩ (by norm_num)
  obtain ⟨hT', _⟩ := updateInfo_reduce hpm (by omega) hpm'
  obtain ⟨params, hp⟩ := exists_params hpm editModel_names editValues
  obtain ⟨params', hp'⟩ := exists_params hpm' ((edit_reduceNPeriods editModel 2).goodNames editModel_names) editValues
  have hw : ∀ e, editValues ⟨.mixtureWeights, 0, Spec.mixtureName e, "-"⟩ = 1 := fun e => if_pos rfl
  have hv : SimulationValues custom editModel 1 editValues anchoredPolicies := ⟨fun e _ => by rw [hw]; exact one_pos, by simp [hw], fun t _ fs hmem => by
    obtain ⟨f, spec⟩ := fs
    have := editModel_transitions hmem
    simp only [List.mem_cons, List.not_mem_nil, or_false] at this
    rcases this with h | h | h <;> rw [h] <;> exact ⟨rfl, fun h => by simp at h⟩, fun p h _ => by
    simp only [anchoredPolicies, List.mem_cons, List.not_mem_nil, or_false] at h
    subst h
    exact ⟨⟨_, List.mem_cons_self⟩, zero_le_one⟩⟩
  have hN : IsNPeriods editModel 3 := hP ▸ isNPeriods_of_ok hpm
  have hN' : IsNPeriods (reduceNPeriods editModel 2) 2 := by
    have := isNPeriods_of_ok hpm'
    rwa [hT'] at this
  obtain ⟨x, x', out, out', h1, h2, h3, h4, _, _, h5⟩ := C115_simulation root hpm editModel_simulation hN (n' := 2) le_rfl (by norm_num) custom nan (policies := anchoredPolicies) (fun p h _ => by
    simp only [anchoredPolicies, List.mem_cons, List.not_mem_nil, or_false] at h
    subst h
    norm_num) hv hp hp' (editData_individuals none) (by norm_num) (draws := ones) (fun h => absurd rfl h)
  obtain ⟨r, hr, r1, r2, r3, _⟩ := h4.measurements 2 hN' 1 (by norm_num) 1 (by norm_num)
  refine ⟨params, params', out, out', hp, hp', h1, h2, (h3.size 3 hN).2.2, (h4.size 2 hN').2.2, h5 1 (by norm_num) 1 (by norm_num), r, hr, by simpa using r1, by simpa using r2, ?_⟩
  have hu : IsUpdate (reduceNPeriods editModel 2) 1 "w" := Or.inl ⟨"b", (measures_reduce (by norm_num) "w" "b").mpr ⟨_, List.mem_cons_of_mem _ List.mem_cons_self, _, rfl, List.mem_singleton.mpr rfl⟩⟩
  rw [r3 ⟨(1, "w"), hu⟩ rfl]
  exact Option.some_ne_none _

end Ex
end Skill
