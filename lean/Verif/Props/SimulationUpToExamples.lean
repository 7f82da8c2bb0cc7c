import Verif.Props.SimulationUpTo
import Verif.Props.SimulateDatasetExamples
/- Examples for C133. -/
namespace Skill
open Spec
namespace Ex

/-- Parameters with other values in the second period. -/
noncomputable def laterValues (l : Loc) : ℝ := linearValues l + if l.period = 1 then 5 else 0

/-- One more policy, in the second period. -/
noncomputable def morePolicies : List Policy := { period := 1, factor := "b", effectSize := 3, standardDeviation := 2 } :: linearPolicies

theorem laterValues_simulation (custom : String → CustomFn) : SimulationValues custom linearModel 1 laterValues morePolicies where
  positive := by
    intro e he
    have := linearValues_proper.positive e he
    simpa [laterValues] using this
  sum := by
    have := linearValues_proper.sum
    simpa [laterValues] using this
  usable := by
    rintro t _ ⟨f, spec⟩ hmem
    rcases linearModel_linear.transitions f spec hmem with h | h <;> rw [h] <;> exact ⟨rfl, fun h => by simp at h⟩
  policies := by
    intro p hp hper
    simp only [morePolicies, linearPolicies, List.mem_cons, List.not_mem_nil, or_false] at hp
    rcases hp with rfl | rfl
    · exact absurd ((linearModel_period _).mp hper) (by decide)
    · exact ⟨⟨_, List.mem_cons_self⟩, by norm_num⟩

/-- All random numbers are 1. -/
noncomputable def ones : DatasetDraws := { element := fun _ => 0, normal := fun _ _ => 1 }

/-- Other random numbers for the other individuals, for the second period and for the policy in the second period. -/
noncomputable def otherOnes : DatasetDraws where
  element := fun _ => 0
  normal := fun i d => if i = 0 then (match d with | .shock _ _ => 7 | .error t _ => if t = 0 then 1 else 8 | .policy k => if k = 0 then 9 else 1 | .start _ => 1) else 4

theorem otherOnes_same : SameInputsUpTo linearModel 0 linearValues (linearCovariatesOf 0) linearPolicies ones 0 laterValues (linearCovariatesOf 0) morePolicies otherOnes 0 where
  params := by
    intro l hl
    have : l.period ≠ 1 := by have := hl.1; omega
    simp [laterValues, this]
  controls := fun _ _ _ _ => rfl
  factors := fun _ _ _ _ => rfl
  element := rfl
  start := fun _ => rfl
  shocks := fun t ht => absurd ht (by omega)
  errors := by
    intro t ht k
    obtain rfl : t = 0 := by omega
    rfl
  policies := by simp [policiesUpTo, morePolicies, linearPolicies, ones, otherOnes, List.zipIdx]

/-- C133 is not vacuous: two simulations with other parameters, policies and random numbers in the second period and for the other individuals; all cells of the first individual in the first period are the same. -/
theorem C133_example : ∃ (root : NormalRoot) (params params' : List (Loc × ℝ)) (x x' : Nat → Cell linearModel → ℝ) (out out' : SimulatedDataset), params ≠ params' ∧
    simulateDataset root (fun _ => default) 0 linearModel params none (some linearData) linearPolicies ones = .ok out ∧
      simulateDataset root (fun _ => default) 0 linearModel params' none (some linearData) morePolicies otherOnes = .ok out' ∧ DatasetIs linearModel linearValues 3 x out ∧
      DatasetIs linearModel laterValues 3 x' out' ∧ ∀ c, cellPeriod c ≤ 0 → x 0 c = x' 0 c := by
  obtain ⟨root, hroot⟩ := exists_validRoot
  obtain ⟨pm, hpm, _⟩ := linearModel_ok
  obtain ⟨params, hparams⟩ := exists_params hpm linearModel_names linearValues
  obtain ⟨params', hparams'⟩ := exists_params hpm linearModel_names laterValues
  obtain ⟨x, x', out, out', h1, h2, h3, h4, h5⟩ := C133_no_look_ahead root hpm linearModel_simulation (fun _ => default) 0 (linearPolicies_values _) (laterValues_simulation _) hparams hparams' (linearData_individuals none)
    (linearData_individuals none) (draws := ones) (draws' := otherOnes) (fun h => absurd rfl h) (fun h => absurd rfl h) (i := 0) (i' := 0) (by norm_num) (by norm_num) otherOnes_same
  refine ⟨root, params, params', x, x', out, out', ?_, h1, h2, h3, h4, h5⟩
  rintro rfl
  have hl : IsParam linearModel ⟨.measSds, 1, "w", "-"⟩ := .measSd ((linearModel_update 1 "w").mpr ⟨by norm_num, by simp⟩)
  have e1 := lookup_of_mem hparams.unique (hparams.values _ hl)
  have e2 := lookup_of_mem hparams.unique (hparams'.values _ hl)
  have e3 := Option.some.inj (e1.symm.trans e2)
  simp [laterValues] at e3

end Ex
end Skill
