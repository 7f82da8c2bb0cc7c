import Verif.Props.TotalEffects
import Verif.Props.MovedSimulationExamples
/- An example for C150. -/
namespace Skill
open Spec
namespace Ex

/-- One policy that raises the factor a by 2 in the first period. -/
def onePolicy : List Policy := [{ period := 0, factor := "a", effectSize := 2, standardDeviation := 0 }]

/-- Two policies with the same total effect, and a policy in the last period. -/
def threePolicies : List Policy := [{ period := 0, factor := "a", effectSize := -1, standardDeviation := 0 }, { period := 1, factor := "a", effectSize := 7, standardDeviation := 0 }, { period := 0, factor := "a", effectSize := 3, standardDeviation := 0 }]

/-- The random numbers of `ones`, with other random numbers for policies. -/
noncomputable def otherPolicyDraws : DatasetDraws := { ones with normal := fun i d => match d with | .policy j => 5 + j | d => ones.normal i d }

theorem onePolicy_total : effectSizes onePolicy 0 "a" = 2 ∧ effectSizes threePolicies 0 "a" = 2 ∧ effectSizes threePolicies 1 "a" = 7 ∧ effectSizes onePolicy 1 "a" = 0 := by
  refine ⟨?_, ?_, ?_, ?_⟩ <;> norm_num [effectSizes, onePolicy, threePolicies]

/-- C150 is not vacuous: the model with one anchored factor and three individuals. One policy has the same effect as two policies and a third one in the last period. -/
theorem C150_example (root : NormalRoot) (custom : String → CustomFn) (nan : ℝ) : ∃ (params : List (Loc × ℝ)) (x : Nat → Cell anchoredModel → ℝ) (out out' : SimulatedDataset), HasParams anchoredModel params linearValues ∧
    simulateDataset root custom nan anchoredModel params none (some anchoredData) onePolicy ones = .ok out ∧ simulateDataset root custom nan anchoredModel params none (some anchoredData) threePolicies otherPolicyDraws = .ok out' ∧
    DatasetIs anchoredModel linearValues 3 x out ∧ DatasetIs anchoredModel linearValues 3 x out' ∧ out.measurements.rows.length = 6 ∧ out'.measurements.rows = out.measurements.rows := by
  obtain ⟨pm, hpm, hP, _⟩ := anchoredModel_ok
  obtain ⟨params, hp⟩ := exists_params hpm anchoredModel_names linearValues
  have ha : IsLatent anchoredModel "a" := ⟨_, List.mem_cons_self⟩
  have hw : ∀ e, linearValues ⟨.mixtureWeights, 0, Spec.mixtureName e, "-"⟩ = 1 := fun e => if_pos rfl
  have hdet : ∀ p ∈ onePolicy, p.factor = "a" ∧ p.standardDeviation = 0 := by
    intro p h
    simp only [onePolicy, List.mem_cons, List.not_mem_nil, or_false] at h
    subst h
    exact ⟨rfl, rfl⟩
  have hdet' : ∀ p ∈ threePolicies, p.factor = "a" ∧ p.standardDeviation = 0 := by
    intro p h
    simp only [threePolicies, List.mem_cons, List.not_mem_nil, or_false] at h
    rcases h with rfl | rfl | rfl <;> exact ⟨rfl, rfl⟩
  have hv : SimulationValues custom anchoredModel 1 linearValues onePolicy := ⟨fun e _ => by rw [hw]; exact one_pos, by simp [hw], fun t _ => anchoredModel_usable custom _, fun p h _ => by
    rw [(hdet p h).1, (hdet p h).2]
    exact ⟨ha, le_rfl⟩⟩
  have hv' : SimulationValues custom anchoredModel 1 linearValues threePolicies := ⟨fun e _ => by rw [hw]; exact one_pos, by simp [hw], fun t _ => anchoredModel_usable custom _, fun p h _ => by
    rw [(hdet' p h).1, (hdet' p h).2]
    exact ⟨ha, le_rfl⟩⟩
  obtain ⟨x, out, out', h1, h2, h3, h4, h5⟩ := C150_policies_add_up root hpm anchoredModel_simulation custom nan hv hv' (fun p h => (hdet p h).2) (fun p h => (hdet' p h).2) (fun t f ht _ => by
    have ht := (anchoredModel_period _).mp ht
    obtain rfl : t = 0 := by omega
    by_cases hf : f = "a"
    · subst hf
      rw [onePolicy_total.1, onePolicy_total.2.1]
    · have hf' : ¬ "a" = f := fun h => hf h.symm
      simp [effectSizes, onePolicy, threePolicies, hf']) hp (anchoredData_individuals none) (by norm_num) (draws := ones) (draws' := otherPolicyDraws) (fun h => absurd rfl h) ⟨rfl, fun i d hd => by
    cases d with
    | policy j => exact absurd rfl (hd j)
    | _ => rfl⟩
  have hN : IsNPeriods anchoredModel 2 := hP ▸ isNPeriods_of_ok hpm
  exact ⟨params, x, out, out', hp, h1, h2, h3, h4, (h3.size 2 hN).2.2, h5⟩

end Ex
end Skill
