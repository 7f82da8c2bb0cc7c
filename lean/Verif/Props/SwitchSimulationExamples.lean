import Verif.Props.SwitchSimulation
import Verif.Props.EditsExamples
import Verif.Props.MovedSimulationExamples
/- **C118**: an example with simulated data. -/
namespace Skill
open Spec
namespace Ex

theorem editModel_simulation : SimulationModel editModel 1 where
  names := editModel_names
  anchoring := ⟨editModel_clean, by rintro a os ⟨⟩, noNameClash_of_none rfl⟩
  safe f hf := by
    obtain ⟨spec, hmem⟩ := hf
    simp only [editModel, List.mem_cons, Prod.mk.injEq, List.not_mem_nil, or_false] at hmem
    rcases hmem with ⟨rfl, rfl⟩ | ⟨rfl, rfl⟩ <;> decide
  columns := by
    rintro f (⟨spec, hmem⟩ | ⟨t, hf⟩)
    · simp only [editModel, List.mem_cons, Prod.mk.injEq, List.not_mem_nil, or_false] at hmem
      rcases hmem with ⟨rfl, rfl⟩ | ⟨rfl, rfl⟩ <;> decide
    · have := ((editModel_update t f).mp hf).2
      simp only [List.mem_cons, List.not_mem_nil, or_false] at this
      rcases this with rfl | rfl | rfl <;> decide
  periods := (editModel_period 1).mpr (by norm_num)
  updates := fun t ht => ⟨"w", (editModel_update t "w").mpr ⟨(editModel_period t).mp ht, by simp⟩⟩
  mixture := ⟨_, rfl, Or.inr ⟨rfl, rfl⟩⟩
  elements := one_ne_zero

/-- The control variable x of the individuals of `editData`. -/
noncomputable def editCovariates (i : ℕ) : Covariates := ⟨fun _ _ => true, fun t c => if c = "constant" then 1 else (i : ℝ) + 1 + 10 * (t + 1), fun _ _ => 0⟩

theorem editData_individuals (nObs : Option ℕ) : Individuals editModel nObs (some editData) 3 editCovariates := by
  refine .ofData (ids := [1, 2, 3]) editData_index.1 editData_index.2.1 editData_ids.1 editData_ids.2
    ⟨editData_ok.keys, editData_ok.outcomes, editData_ok.controls, fun t v h => (editData_ok.measurements t v h).1, editData_ok.observed⟩ ?_
  intro i hi t ht
  have ht := (editModel_period t).mp ht
  refine ⟨some (editRow (i + 1) (10 * (t + 1))), editData_row hi ht, fun c hc => ?_, fun f hf => (List.not_mem_nil hf).elim⟩
  rw [valueIs_of_none rfl]
  simp only [editModel, Option.getD_some, List.mem_cons, List.not_mem_nil, or_false] at hc
  rcases hc with rfl | rfl
  · simp [editCovariates, baseValue]
  · rw [editRow_value (by decide) (by simp)]
    simp [editCovariates]

/-- **C118**: a model with a translog function, three individuals, three periods and a policy. The simulated measurements are the same with a linear function. -/
theorem C118_simulation_example (root : NormalRoot) (custom : String → CustomFn) (nan : ℝ) : ∃ (params params' : List (Loc × ℝ)) (x : Nat → Cell editModel → ℝ) (x' : Nat → Cell (switchTranslogToLinear editModel) → ℝ) (out out' : SimulatedDataset),
    HasParams editModel params editValues ∧ HasParams (switchTranslogToLinear editModel) params' editValues ∧ (∃ spec, editModel.factors.lookup "a" = some spec ∧ spec.transition = .named "translog") ∧
    (∃ spec, (switchTranslogToLinear editModel).factors.lookup "a" = some spec ∧ spec.transition = .named "linear") ∧
    simulateDataset root custom nan editModel params none (some editData) anchoredPolicies ones = .ok out ∧ simulateDataset root custom nan (switchTranslogToLinear editModel) params' none (some editData) anchoredPolicies ones = .ok out' ∧
    DatasetIs editModel editValues 3 x out ∧ DatasetIs (switchTranslogToLinear editModel) editValues 3 x' out' ∧ out.measurements.rows.length = 9 ∧ out'.measurements.rows = out.measurements.rows := by
  obtain ⟨pm, hpm, hP, _⟩ := editModel_ok
  obtain ⟨pm', hpm'⟩ := accepted_switch (old := "translog") (new := "linear") ⟨pm, hpm⟩ (by simp [ValidTransition])
  obtain ⟨params, hp⟩ := exists_params hpm editModel_names editValues
  obtain ⟨params', hp'⟩ := exists_params hpm' ((edit_switch "translog" "linear" editModel).goodNames editModel_names) editValues
  have ha : IsLatent editModel "a" := ⟨_, List.mem_cons_self⟩
  have hw : ∀ e, editValues ⟨.mixtureWeights, 0, Spec.mixtureName e, "-"⟩ = 1 := fun e => if_pos rfl
  have hv : SimulationValues custom editModel 1 editValues anchoredPolicies := ⟨fun e _ => by rw [hw]; exact one_pos, by simp [hw], fun t _ fs hmem => by
    obtain ⟨f, spec⟩ := fs
    have := editModel_transitions hmem
    simp only [List.mem_cons, List.not_mem_nil, or_false] at this
    rcases this with h | h | h <;> rw [h] <;> exact ⟨rfl, fun h => by simp at h⟩, fun p h _ => by
    simp only [anchoredPolicies, List.mem_cons, List.not_mem_nil, or_false] at h
    subst h
    exact ⟨ha, zero_le_one⟩⟩
  obtain ⟨x, x', out, out', h1, h2, h3, h4, h5, _⟩ := C118_simulation root hpm editModel_simulation custom nan (fun f spec hs htr t _ => by
    simp only [editModel, List.mem_cons, Prod.mk.injEq, List.not_mem_nil, or_false] at hs
    rcases hs with ⟨rfl, rfl⟩ | ⟨rfl, rfl⟩
    · exact editModel_noHigherOrder t
    · simp at htr) hv hp hp' (editData_individuals none) (by norm_num) (draws := ones) (fun h => absurd rfl h)
  have hN : IsNPeriods editModel 3 := hP ▸ isNPeriods_of_ok hpm
  exact ⟨params, params', x, x', out, out', hp, hp', ⟨_, rfl, rfl⟩, ⟨_, rfl, rfl⟩, h1, h2, h3, h4, (h3.size 3 hN).2.2, h5⟩

/-- The linear model of `C118_simulation_example` can be switched back. -/
theorem C118_simulation_example_back (root : NormalRoot) (custom : String → CustomFn) (nan : ℝ) : ∃ (params params' : List (Loc × ℝ)) (out out' : SimulatedDataset),
    HasParams (switchTranslogToLinear editModel) params editValues ∧ HasParams (switchLinearToTranslog (switchTranslogToLinear editModel)) params' editValues ∧
    simulateDataset root custom nan (switchTranslogToLinear editModel) params none (some editData) anchoredPolicies ones = .ok out ∧
    simulateDataset root custom nan (switchLinearToTranslog (switchTranslogToLinear editModel)) params' none (some editData) anchoredPolicies ones = .ok out' ∧ out.measurements.rows.length = 9 ∧ out'.measurements.rows = out.measurements.rows := by
  have he : EditOf editModel (switchTranslogToLinear editModel) := edit_switch "translog" "linear" editModel
  obtain ⟨pm0, hpm0, hP, _⟩ := editModel_ok
  obtain ⟨pm, hpm⟩ : Accepted (switchTranslogToLinear editModel) := accepted_switch ⟨pm0, hpm0⟩ (by simp [ValidTransition])
  obtain ⟨pm', hpm'⟩ : Accepted (switchLinearToTranslog (switchTranslogToLinear editModel)) := accepted_switch ⟨pm, hpm⟩ (by simp [ValidTransition])
  obtain ⟨hT', hupd⟩ := updateInfo_switch hpm0 hpm
  have hper : ∀ t, IsPeriod (switchTranslogToLinear editModel) t ↔ IsPeriod editModel t := fun t => by rw [isPeriod_iff hpm0, isPeriod_iff hpm, hT']
  have hup : ∀ t v, IsUpdate (switchTranslogToLinear editModel) t v ↔ IsUpdate editModel t v := fun t v => by rw [← (C01_update_info_exact hpm).2.1, ← (C01_update_info_exact hpm0).2.1, hupd]
  have hg := he.goodNames editModel_names
  obtain ⟨params, hp⟩ := exists_params hpm hg editValues
  obtain ⟨params', hp'⟩ := exists_params hpm' ((edit_switch "linear" "translog" _).goodNames hg) editValues
  have hw : ∀ e, editValues ⟨.mixtureWeights, 0, Spec.mixtureName e, "-"⟩ = 1 := fun e => if_pos rfl
  have hv : SimulationValues custom (switchTranslogToLinear editModel) 1 editValues anchoredPolicies := ⟨fun e _ => by rw [hw]; exact one_pos, by simp [hw], fun t _ fs hmem => by
    obtain ⟨f, spec⟩ := fs
    obtain ⟨s, hs', rfl⟩ := mem_switchTransition.mp hmem
    simp only [editModel, List.mem_cons, Prod.mk.injEq, List.not_mem_nil, or_false] at hs'
    rcases hs' with ⟨rfl, rfl⟩ | ⟨rfl, rfl⟩ <;> exact ⟨rfl, fun h => by simp at h⟩, fun p h _ => by
    simp only [anchoredPolicies, List.mem_cons, List.not_mem_nil, or_false] at h
    subst h
    exact ⟨⟨_, List.mem_cons_self⟩, zero_le_one⟩⟩
  obtain ⟨x, x', out, out', h1, h2, h3, h4, h5, _⟩ := C118_simulation_back root hpm (he.simulationModel hper hup editModel_simulation) custom nan (fun f spec hs htr t _ => by
    obtain ⟨s, hs', rfl⟩ := mem_switchTransition.mp hs
    simp only [editModel, List.mem_cons, Prod.mk.injEq, List.not_mem_nil, or_false] at hs'
    rcases hs' with ⟨rfl, rfl⟩ | ⟨rfl, rfl⟩
    · exact editModel_noHigherOrder t
    · simp at htr) hv hp hp' (he.individuals hper hup (editData_individuals none)) (by norm_num) (draws := ones) (fun h => absurd rfl h)
  have hN : IsNPeriods (switchTranslogToLinear editModel) 3 := (hT'.trans hP) ▸ isNPeriods_of_ok hpm
  exact ⟨params, params', out, out', hp, hp', h1, h2, (h3.size 3 hN).2.2, h5⟩

end Ex
end Skill
