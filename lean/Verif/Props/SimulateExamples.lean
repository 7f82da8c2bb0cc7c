import Verif.Props.Simulate
import Mathlib.LinearAlgebra.Matrix.PosDef
/-
A concrete simulation that meets the hypotheses of C56, C57 and C68: the model of `FilterExamples` with two factors and two periods, two measurements in the first period and one in the second.
-/
namespace Skill
namespace Ex
open Matrix Spec

noncomputable def simRows : List (UpdateParams 2 1) :=
  [⟨0, "y1", true, ![1, 1], ![1], 1⟩, ⟨0, "y2", true, ![2, 0], ![1], 1 / 2⟩, ⟨1, "y1", true, ![1, 1], ![1], 1⟩]

def simFactors : Fin 2 → String := ![ "fac1", "fac2"]

theorem simFactors_injective : Function.Injective simFactors := by
  intro a b h
  fin_cases a <;> fin_cases b <;> first | rfl | exact absurd h (by decide)

/-- A policy in the first period, and one for the last period that names no factor. -/
noncomputable def policy : Policy := ⟨0, "fac2", 3, 1⟩
noncomputable def latePolicy : Policy := ⟨1, "nofactor", 3, 1⟩

/-- The simulation succeeds without policies, and with the policy of the first period. -/
theorem sim_ok (root : NormalRoot) (i : Fin 2) (d : Draws 2 2) (policies : List Policy) (hp : ∀ p ∈ policies, p = policy ∨ p = latePolicy) :
    ∃ s, simulateIndividual root fixed simRows simFactors policies (fun e _ => e.val) (fun _ => 1) i d = .ok s := by
  rw [C57_accepts_iff]
  refine ⟨fun p hp' hle => ?_, ?_⟩
  · rcases hp p hp' with rfl | rfl
    · exact ⟨⟨1, rfl⟩, by norm_num [policy]⟩
    · simp [latePolicy] at hle
  · intro t ht
    obtain rfl | rfl : t = 0 ∨ t = 1 := by omega
    · exact ⟨_, List.mem_cons_self, rfl⟩
    · exact ⟨_, List.mem_cons_of_mem _ (List.mem_cons_of_mem _ List.mem_cons_self), rfl⟩

/-- C68: for all draws, the policy of the first period, which raises the second factor by 3 plus a standard normal draw, also raises the first measurement of the first period by this amount. -/
theorem sim_policy (root : NormalRoot) (i : Fin 2) (d : Draws 2 2) :
    ∃ s s' ys ys' y, simulateIndividual root fixed simRows simFactors [] (fun e _ => e.val) (fun _ => 1) i d = .ok s ∧
      simulateIndividual root fixed simRows simFactors [policy] (fun e _ => e.val) (fun _ => 1) i d = .ok s' ∧
      s.measurements[0]? = some ys ∧ s'.measurements[0]? = some ys' ∧ ys[0]? = some ("y1", y) ∧ ys'[0]? = some ("y1", y + 1 * (3 + 1 * d.policies 0)) := by
  obtain ⟨s, hs⟩ := sim_ok root i d [] (by simp)
  obtain ⟨s', hs'⟩ := sim_ok root i d [policy] (by simp)
  obtain ⟨ys, ys', y, h1, h2, h3, h4⟩ := C68_same_period_measurements root simFactors_injective (p := policy) (policies := []) (Nat.zero_le _) hs hs' (f := 1) rfl
    (k := 0) (r := ⟨0, "y1", true, ![1, 1], ![1], 1⟩) rfl
  exact ⟨s, s', ys, ys', y, hs, hs', h1, h2, h3, h4⟩

/-- C57: the policy of the last period is ignored although it names no factor. -/
theorem sim_late (root : NormalRoot) (i : Fin 2) (d : Draws 2 2) :
    simulateIndividual root fixed simRows simFactors [latePolicy] (fun e _ => e.val) (fun _ => 1) i d =
      simulateIndividual root fixed simRows simFactors [] (fun e _ => e.val) (fun _ => 1) i d :=
  C57_last_period_ignored root fixed simRows simFactors [] (p := latePolicy) (by simp [latePolicy]) _ _ i d

end Ex
end Skill
