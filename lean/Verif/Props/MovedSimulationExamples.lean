import Verif.Props.MovedSimulation
import Verif.Props.MovedStatesExamples
import Verif.Props.SimulationUnitsExamples
import Verif.Props.SimulationUpToExamples
/- Examples for C148. -/
namespace Skill
open Spec
namespace Ex

/-- A policy for the anchored factor. -/
def anchoredPolicies : List Policy := [{ period := 0, factor := "a", effectSize := 2, standardDeviation := 1 }]

/-- C148 is not vacuous: the model with one anchored factor, three individuals and a policy. The anchored factor is moved by 4 in the second period; the simulated measurements and the anchored states do not change. -/
theorem C148_example (root : NormalRoot) (custom : String → CustomFn) (nan : ℝ) : ∃ (params params' : List (Loc × ℝ)) (x x' : Nat → Cell anchoredModel → ℝ) (out out' : SimulatedDataset),
    HasParams anchoredModel params linearValues ∧ HasParams anchoredModel params' (movedIntercepts anchoredModel anchoredMove linearValues) ∧
    simulateDataset root custom nan anchoredModel params none (some anchoredData) anchoredPolicies ones = .ok out ∧ simulateDataset root custom nan anchoredModel params' none (some anchoredData) anchoredPolicies ones = .ok out' ∧
    DatasetIs anchoredModel linearValues 3 x out ∧ DatasetIs anchoredModel (movedIntercepts anchoredModel anchoredMove linearValues) 3 x' out' ∧ out.measurements.rows.length = 6 ∧ out'.measurements.rows = out.measurements.rows ∧
    ∃ c : {p : Nat × String // IsPeriod anchoredModel p.1 ∧ p.2 ∈ Spec.latents anchoredModel}, c.1 = (1, "a") ∧ x' 1 (.inl c) = x 1 (.inl c) + 4 ∧
      anchoredValue anchoredModel (movedIntercepts anchoredModel anchoredMove linearValues) 1 "a" (x' 1 (.inl c)) = anchoredValue anchoredModel linearValues 1 "a" (x 1 (.inl c)) := by
  obtain ⟨pm, hpm, hP, _⟩ := anchoredModel_ok
  obtain ⟨params, hp⟩ := exists_params hpm anchoredModel_names linearValues
  obtain ⟨params', hp'⟩ := exists_params hpm anchoredModel_names (movedIntercepts anchoredModel anchoredMove linearValues)
  have ha : IsLatent anchoredModel "a" := ⟨_, List.mem_cons_self⟩
  have hw : ∀ e, linearValues ⟨.mixtureWeights, 0, Spec.mixtureName e, "-"⟩ = 1 := fun e => if_pos rfl
  have hv : SimulationValues custom anchoredModel 1 linearValues anchoredPolicies := ⟨fun e _ => by rw [hw]; exact one_pos, by simp [hw], fun t _ => anchoredModel_usable custom _, fun p h _ => by
    simp only [anchoredPolicies, List.mem_cons, List.not_mem_nil, or_false] at h
    subst h
    exact ⟨ha, zero_le_one⟩⟩
  obtain ⟨x, x', out, out', h1, h2, h3, h4, h5, _, h6⟩ := C148_simulation root hpm anchoredModel_simulation custom nan (anchoredModel_moves custom) hv (fun t _ => anchoredModel_usable custom _) hp hp' (anchoredData_individuals none) (by norm_num) (draws := ones) (fun h => absurd rfl h)
  have hN : IsNPeriods anchoredModel 2 := hP ▸ isNPeriods_of_ok hpm
  obtain ⟨m1, m2⟩ := h6 1 (by norm_num) ⟨(1, "a"), anchoredModel_linear.periods, (mem_latents_iff _ _).mpr ha⟩
  refine ⟨params, params', x, x', out, out', hp, hp', h1, h2, h3, h4, (h3.size 2 hN).2.2, h5, _, rfl, ?_, m2 ⟨"q", (anchoredModel_anchoredIn "a" "q").mpr ⟨rfl, rfl⟩⟩ anchoredModel_flag⟩
  rw [m1]
  norm_num [anchoredMove]

end Ex
end Skill
