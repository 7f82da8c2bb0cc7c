import Verif.Spec.SimulatedDataset
import Verif.Spec.Rescaling

/-! Simulated datasets in other units. -/

namespace Skill.Spec

/-- Policies with the effect in the new units: the units of factor `f` in period t change from `x` to `c t f * x + d t f`. -/
noncomputable def policiesInUnits (c : Nat → String → ℝ) (policies : List Policy) : List Policy :=
  policies.map (fun p => { p with effectSize := c p.period p.factor * p.effectSize, standardDeviation := c p.period p.factor * p.standardDeviation })

/-- The latent factors of an individual in the new units; the measurements do not change. -/
def cellsInUnits {m : ModelDict ℝ} (c d : Nat → String → ℝ) (x : Cell m → ℝ) : Cell m → ℝ
  | .inl q => c q.1.1 q.1.2 * x (.inl q) + d q.1.1 q.1.2
  | .inr q => x (.inr q)

/-- The cells of a simulated dataset that have the units of observed variables: anchored factors in a period, and measurements in a period. -/
abbrev ObservableCell (m : ModelDict ℝ) := {p : Nat × String // (IsPeriod m p.1 ∧ p.2 ∈ latents m) ∧ ∃ o, AnchoredIn m p.2 o} ⊕ {p : Nat × String // IsUpdate m p.1 p.2}

/-- Anchored factors in the units of their outcomes, and measurements. -/
noncomputable def observableCells {m : ModelDict ℝ} (val : Loc → ℝ) (x : Cell m → ℝ) : ObservableCell m → ℝ
  | .inl q => anchoredValue m val q.1.1 q.1.2 (x (.inl ⟨q.1, q.2.1⟩))
  | .inr q => x (.inr q)

end Skill.Spec
