import Verif.Props.ControlsSimulation
import Verif.Props.MovedSimulationExamples
/- **C117**: an example with simulated data. -/
namespace Skill
open Spec
namespace Ex

/-- The parameters of the model with one anchored factor; the control x has no effect. -/
noncomputable def withoutX (l : Loc) : ℝ := if l.name2 = "x" then 0 else linearValues l

/-- **C117**: the model with one anchored factor, three individuals and a policy, with the control x and without it. -/
theorem C117_simulation_example (root : NormalRoot) (custom : String → CustomFn) (nan : ℝ) : ∃ (m' : ModelDict ℝ) (params params' : List (Loc × ℝ)) (x : Nat → Cell anchoredModel → ℝ) (out out' : SimulatedDataset),
    removeControls ["x"] anchoredModel = .ok m' ∧ anchoredModel.controls = some ["x"] ∧ m'.controls = none ∧ HasParams anchoredModel params withoutX ∧ HasParams m' params' withoutX ∧
    simulateDataset root custom nan anchoredModel params none (some anchoredData) anchoredPolicies ones = .ok out ∧ simulateDataset root custom nan m' params' none (some anchoredData) anchoredPolicies ones = .ok out' ∧
    DatasetIs anchoredModel withoutX 3 x out ∧ DatasetIs anchoredModel withoutX 3 x out' ∧ out.measurements.rows.length = 6 ∧ out'.measurements.rows = out.measurements.rows := by
  obtain ⟨pm, hpm, hP, _⟩ := anchoredModel_ok
  obtain ⟨m', hm', hc'⟩ : ∃ m', removeControls ["x"] anchoredModel = .ok m' ∧ m'.controls = none := ⟨_, rfl, by rfl⟩
  obtain ⟨pm', hpm'⟩ := accepted_removeControls ⟨pm, hpm⟩ hm'
  obtain ⟨params, hp⟩ := exists_params hpm anchoredModel_names withoutX
  obtain ⟨params', hp'⟩ := exists_params hpm' ((edit_removeControls hm').goodNames anchoredModel_names) withoutX
  have ha : IsLatent anchoredModel "a" := ⟨_, List.mem_cons_self⟩
  have hw : ∀ e, withoutX ⟨.mixtureWeights, 0, Spec.mixtureName e, "-"⟩ = 1 := fun e => by
    unfold withoutX
    rw [if_neg (show ¬ ("-" = "x") by decide)]
    exact if_pos rfl
  have hv : SimulationValues custom anchoredModel 1 withoutX anchoredPolicies := ⟨fun e _ => by rw [hw]; exact one_pos, by simp [hw], fun t _ => anchoredModel_usable custom _, fun p h _ => by
    simp only [anchoredPolicies, List.mem_cons, List.not_mem_nil, or_false] at h
    subst h
    exact ⟨ha, zero_le_one⟩⟩
  obtain ⟨x, out, out', h1, h2, h3, h4, h5⟩ := C117_simulation root hpm hm' anchoredModel_simulation custom nan (fun t v _ c hc => by
    obtain rfl : c = "x" := List.mem_singleton.mp hc
    exact if_pos rfl) hv hp hp' (anchoredData_individuals none) (by norm_num) (draws := ones) (fun h => absurd rfl h)
  have hN : IsNPeriods anchoredModel 2 := hP ▸ isNPeriods_of_ok hpm
  exact ⟨m', params, params', x, out, out', hm', rfl, hc', hp, hp', h1, h2, h3, h4, (h3.size 2 hN).2.2, h5⟩

end Ex
end Skill
