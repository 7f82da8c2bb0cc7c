import Verif.Props.LastPeriodPolicy
/- C149: the transition functions have to be increasing. -/
namespace Skill
open Matrix Spec
namespace Ex

/-- The values of `sepValues`, but the factor a depends negatively on its value in the period before. -/
noncomputable def negativeValues (l : Loc) : ℝ := if l.cat = .transition ∧ l.name1 = "a" ∧ l.name2 = "a" then -1 / 2 else sepValues 0 l

theorem negativeValues_proper : ProperValues sepModel 1 negativeValues where
  positive := fun e _ => by simp [negativeValues, sepValues]
  sum := by simp [negativeValues, sepValues]
  sds := fun t v _ => by simp [negativeValues, sepValues]
  scales := fun t f _ => by simp [anchorScale, outcome, sepModel]

/-- A policy that raises the factor a by 2 in the first period. -/
def firstPeriodPolicy : List Policy := [{ period := 0, factor := "a", effectSize := 2, standardDeviation := 0 }]

/-- **C149**: the assumption on transition functions is needed. With a negative coefficient a policy that raises the factor a by 2 in the first period lowers it by 1 in the second period. -/
theorem C149_negative_coefficient (root : NormalRoot) (custom : String → CustomFn) (nan : ℝ) : ∃ (params : List (Loc × ℝ)) (out out' : SimulatedDataset) (x x' : Nat → Cell sepModel → ℝ), HasParams sepModel params negativeValues ∧
    simulateDataset root custom nan sepModel params none (some editData) [] ones = .ok out ∧ simulateDataset root custom nan sepModel params none (some editData) firstPeriodPolicy ones = .ok out' ∧
    DatasetIs sepModel negativeValues 3 x out ∧ DatasetIs sepModel negativeValues 3 x' out' ∧ (∀ i < 3, ∀ h, x' i (.inl ⟨(0, "a"), h⟩) = x i (.inl ⟨(0, "a"), h⟩) + 2) ∧ ∀ i < 3, ∀ h, x' i (.inl ⟨(1, "a"), h⟩) = x i (.inl ⟨(1, "a"), h⟩) - 1 := by
  obtain ⟨pm, hpm, hP⟩ := sepModel_ok
  obtain ⟨params, hp⟩ := exists_params hpm sepModel_names negativeValues
  have hv0 := linear_simulationValues sepModel_linear sepModel_names custom negativeValues_proper
  have hv : SimulationValues custom sepModel 1 negativeValues firstPeriodPolicy := ⟨hv0.positive, hv0.sum, hv0.usable, fun p h _ => by
    simp only [firstPeriodPolicy, List.mem_cons, List.not_mem_nil, or_false] at h
    subst h
    exact ⟨(sepModel_latent "a").mpr (Or.inl rfl), le_rfl⟩⟩
  obtain ⟨x', x, out', out, h1, h2, h3, h4, h5⟩ := C135_policy_effects root hpm sepModel_simulation (fun f spec h => sepModel_linear.transitions f spec h) custom nan hv hv0 hp
    (sepData_individuals none) (by norm_num) (draws := ones) (draws' := ones) (fun h => absurd rfl h) (fun _ _ => ⟨rfl, fun _ => rfl, fun _ _ => rfl, fun _ _ => rfl⟩)
  have hp1 : IsPeriod sepModel 1 := (sepModel_period 1).mpr (by norm_num)
  have hp2 : IsPeriod sepModel 2 := (sepModel_period 2).mpr (by norm_num)
  have hc : ¬HasTransition sepModel "a" "constant" := by
    rintro ⟨spec, hmem, h⟩
    simp only [sepModel, List.mem_cons, Prod.mk.injEq, List.not_mem_nil, or_false] at hmem
    rcases hmem with ⟨_, rfl⟩ | ⟨_, rfl⟩ <;> simp at h
  have hl : Spec.latents sepModel = ["a", "b"] := rfl
  have hs : ∀ t f, anchorScale sepModel negativeValues t f = 1 := fun _ _ => rfl
  have hv1 : negativeValues ⟨.transition, 0, "a", "a"⟩ = -1 / 2 := if_pos ⟨rfl, rfl, rfl⟩
  refine ⟨params, out, out', x, x', hp, h2, h1, h4, h3, fun i hi h => ?_, fun i hi h => ?_⟩
  · have h6 := h5 i hi (.inl ⟨(0, "a"), h⟩)
    simp only [cellEffect, totalEffect, policyDifference, zero_add, hp1, if_true] at h6
    norm_num [policyEffect, firstPeriodPolicy, List.zipIdx, List.filter_cons] at h6
    linarith
  · have h6 := h5 i hi (.inl ⟨(1, "a"), h⟩)
    simp only [cellEffect, totalEffect, if_neg hc, hl, hs, policyDifference, zero_add, hp1, hp2, if_true, one_add_one_eq_two] at h6
    have hab : "a" ≠ "b" := by decide
    norm_num [hab, policyEffect, firstPeriodPolicy, List.zipIdx, List.filter_cons, hv1] at h6
    linarith

end Ex
end Skill
