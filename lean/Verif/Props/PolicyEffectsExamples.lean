import Verif.Props.PolicyEffects
import Verif.Props.SimulationUpToExamples
/- C135: an example. -/
namespace Skill
open Matrix Spec
namespace Ex

theorem linearModel_linearTransitions : LinearTransitions linearModel := by
  intro f spec h
  exact linearModel_linear.transitions f spec h

theorem noPolicies_values (custom : String → CustomFn) : SimulationValues custom linearModel 1 linearValues [] :=
  ⟨(linearPolicies_values custom).positive, (linearPolicies_values custom).sum, (linearPolicies_values custom).usable, fun p hp => by simp at hp⟩

theorem linearModel_constant_a : ¬HasTransition linearModel "a" "constant" := by
  rintro ⟨spec, hmem, h⟩
  simp only [linearModel, List.mem_cons, Prod.mk.injEq, List.not_mem_nil, or_false] at hmem
  rcases hmem with ⟨_, rfl⟩ | ⟨h', _⟩
  · simp at h
  · exact absurd h' (by decide)

/-- C135 is not vacuous: a policy that increases factor "a" by 1 (plus 1/2 times a random number, which is 1 here) in the first period increases it by 3/4 in the second period, since the transition parameter is 1/2. -/
theorem C135_example : ∃ (root : NormalRoot) (params : List (Loc × ℝ)) (x x' : Nat → Cell linearModel → ℝ) (out out' : SimulatedDataset),
    simulateDataset root (fun _ => default) 0 linearModel params none (some linearData) linearPolicies ones = .ok out ∧
      simulateDataset root (fun _ => default) 0 linearModel params none (some linearData) [] ones = .ok out' ∧ DatasetIs linearModel linearValues 3 x out ∧
      DatasetIs linearModel linearValues 3 x' out' ∧ ∀ (i : ℕ), i < 3 → ∀ h, x i (.inl ⟨(1, "a"), h⟩) = x' i (.inl ⟨(1, "a"), h⟩) + 3 / 4 := by
  obtain ⟨root, hroot⟩ := exists_validRoot
  obtain ⟨pm, hpm, _⟩ := linearModel_ok
  obtain ⟨params, hparams⟩ := exists_params hpm linearModel_names linearValues
  obtain ⟨x, x', out, out', h1, h2, h3, h4, h5⟩ := C135_policy_effects root hpm linearModel_simulation linearModel_linearTransitions (fun _ => default) 0 (linearPolicies_values _) (noPolicies_values _) hparams
    (linearData_individuals none) (by norm_num) (draws := ones) (draws' := ones) (fun h => absurd rfl h) (fun _ _ => ⟨rfl, fun _ => rfl, fun _ _ => rfl, fun _ _ => rfl⟩)
  refine ⟨root, params, x, x', out, out', h1, h2, h3, h4, fun i hi h => ?_⟩
  have h6 := h5 i hi (.inl ⟨(1, "a"), h⟩)
  have hl : Spec.latents linearModel = ["a", "b"] := rfl
  have hs : ∀ t f, anchorScale linearModel linearValues t f = 1 := fun _ _ => rfl
  have hp1 : IsPeriod linearModel 1 := (linearModel_period 1).mpr (by norm_num)
  have hp2 : ¬IsPeriod linearModel 2 := fun h => absurd ((linearModel_period 2).mp h) (by norm_num)
  simp only [cellEffect, totalEffect, if_neg linearModel_constant_a, hl, hs, policyDifference, zero_add, hp1, hp2, if_true, if_false, one_add_one_eq_two] at h6
  have hv : ∀ g, linearValues ⟨.transition, 0, "a", g⟩ = 1 / 2 := fun g => by simp [linearValues]
  simp only [hv] at h6
  have hab : "a" ≠ "b" := by decide
  norm_num [hab, policyEffect, linearPolicies, ones, List.zipIdx, List.filter_cons] at h6
  linarith

end Ex
end Skill
