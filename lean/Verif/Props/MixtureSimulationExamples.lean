import Verif.Props.MixtureSimulation
import Verif.Props.MovedSimulationExamples
/- **C136**: an example with simulated data. -/
namespace Skill
open Spec
namespace Ex

/-- Two equal elements with the weights 1/4 and 3/4. -/
noncomputable def twoLinearElements (l : Loc) : ℝ :=
  if l.cat = .mixtureWeights then (if l.name1 = Spec.mixtureName 0 then 1 / 4 else 3 / 4) else linearValues l

theorem anchoredModel_copies : Copies anchoredModel 1 2 (fun _ => 0) linearValues twoLinearElements where
  inRange := fun _ _ => Nat.zero_lt_one
  states := fun _ _ _ _ => by
    unfold twoLinearElements linearValues
    rw [if_neg (by simp), if_neg (by simp)]
  cholcovs := fun _ _ _ _ _ _ => by
    unfold twoLinearElements linearValues
    rw [if_neg (by simp), if_neg (by simp)]
  weights := by
    intro e he
    obtain rfl : e = 0 := by omega
    have h1 : Spec.mixtureName 1 ≠ Spec.mixtureName 0 := by decide +kernel
    rw [Finset.filter_true_of_mem (fun _ _ => rfl), Finset.sum_range_succ, Finset.sum_range_one]
    show (if Cat.mixtureWeights = Cat.mixtureWeights then (1 : ℝ) else 1 / 2) = (if Spec.mixtureName 0 = Spec.mixtureName 0 then 1 / 4 else 3 / 4) + (if Spec.mixtureName 1 = Spec.mixtureName 0 then 1 / 4 else 3 / 4)
    rw [if_pos rfl, if_pos rfl, if_neg h1]
    norm_num
  positive := fun e _ => by
    rw [show linearValues ⟨.mixtureWeights, 0, Spec.mixtureName e, "-"⟩ = 1 from if_pos rfl]
    norm_num
  positive' := by
    intro e' _
    show (0 : ℝ) < if Spec.mixtureName e' = Spec.mixtureName 0 then 1 / 4 else 3 / 4
    split <;> norm_num
  total := by
    rw [Finset.sum_range_one]
    exact if_pos rfl
  others := fun l _ _ h => if_neg h

/-- The same normally distributed random numbers; the second element is drawn for the second individual. -/
noncomputable def secondElement : DatasetDraws := { ones with element := fun i => if i = 1 then 1 else 0 }

/-- **C136**: the model with one anchored factor, three individuals and a policy, with one and with two mixture elements. The simulated datasets are the same although the second element is drawn for the second individual. -/
theorem C136_simulation_example (root : NormalRoot) (custom : String → CustomFn) (nan : ℝ) : ∃ (params params' : List (Loc × ℝ)) (x : Nat → Cell anchoredModel → ℝ) (out out' : SimulatedDataset),
    HasParams anchoredModel params linearValues ∧ HasParams (withMixtures anchoredModel 2) params' twoLinearElements ∧
    simulateDataset root custom nan anchoredModel params none (some anchoredData) anchoredPolicies ones = .ok out ∧ simulateDataset root custom nan (withMixtures anchoredModel 2) params' none (some anchoredData) anchoredPolicies secondElement = .ok out' ∧
    DatasetIs anchoredModel linearValues 3 x out ∧ DatasetIs anchoredModel linearValues 3 x out' ∧ out.measurements.rows.length = 6 ∧ out'.measurements.rows = out.measurements.rows := by
  obtain ⟨pm, hpm, hP, _⟩ := anchoredModel_ok
  obtain ⟨params, hp⟩ := exists_params hpm anchoredModel_names linearValues
  obtain ⟨params', hp'⟩ := exists_params (processModel_withMixtures hpm 2) (withMixtures_names anchoredModel_names 2) twoLinearElements
  have ha : IsLatent anchoredModel "a" := ⟨_, List.mem_cons_self⟩
  have hw : ∀ e, linearValues ⟨.mixtureWeights, 0, Spec.mixtureName e, "-"⟩ = 1 := fun e => if_pos rfl
  have hv : SimulationValues custom anchoredModel 1 linearValues anchoredPolicies := ⟨fun e _ => by rw [hw]; exact one_pos, by simp [hw], fun t _ => anchoredModel_usable custom _, fun p h _ => by
    simp only [anchoredPolicies, List.mem_cons, List.not_mem_nil, or_false] at h
    subst h
    exact ⟨ha, zero_le_one⟩⟩
  obtain ⟨x, out, out', h1, h2, h3, h4, h5⟩ := C136_simulation root hpm anchoredModel_simulation (by norm_num) custom nan anchoredModel_copies hv hp hp' (anchoredData_individuals none) (by norm_num) (draws := ones) (draws' := secondElement) rfl
    (fun _ i _ => by
      show (if i = 1 then 1 else 0) < 2
      split <;> norm_num) (fun h => absurd rfl h)
  have hN : IsNPeriods anchoredModel 2 := hP ▸ isNPeriods_of_ok hpm
  exact ⟨params, params', x, out, out', hp, hp', h1, h2, h3, h4, (h3.size 2 hN).2.2, h5⟩

end Ex
end Skill
