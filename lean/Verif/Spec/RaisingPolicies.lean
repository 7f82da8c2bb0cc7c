import Verif.Spec.SimulatedDataset
/-! Policies that raise factors. -/
namespace Skill.Spec

/-- The next value of each latent factor does not fall if latent factors rise. -/
def IncreasingTransitions (custom : String → CustomFn) (m : ModelDict ℝ) (val : Loc → ℝ) : Prop :=
  ∀ t, IsPeriod m (t + 1) → ∀ (cov : Covariates) (s s' : String → ℝ) (f : String), IsLatent m f → (∀ g, IsLatent m g → s g ≤ s' g) → factorNext custom m val cov t s f ≤ factorNext custom m val cov t s' f

/-- Parameters for which built-in transition functions are increasing: the loadings of anchoring equations are positive, coefficients of linear functions are not negative, weights of CES functions are positive, phi is not zero (it
may be negative), and tfp and all sigmas of log_ces_general have the same sign. -/
def IncreasingValues (m : ModelDict ℝ) (val : Loc → ℝ) : Prop :=
  (∀ t, IsPeriod m t → ∀ f o, AnchoredIn m f o → 0 < val ⟨.loadings, t, o ++ "_" ++ f, f⟩) ∧
  ∀ t, IsPeriod m (t + 1) → ∀ f spec, (f, spec) ∈ m.factors → ∃ name, spec.transition = .named name ∧ (name = "constant" ∨
    (name = "linear" ∧ ∀ g, IsLatent m g → 0 ≤ val ⟨.transition, t, f, g⟩) ∨
    (name = "log_ces" ∧ (∀ g ∈ allFactors m, 0 < val ⟨.transition, t, f, g⟩) ∧ val ⟨.transition, t, f, "phi"⟩ ≠ 0) ∨
    (name = "log_ces_general" ∧ (∀ g ∈ allFactors m, 0 < val ⟨.transition, t, f, g⟩) ∧ ((0 ≤ val ⟨.transition, t, f, "tfp"⟩ ∧ ∀ g, IsLatent m g → 0 ≤ val ⟨.transition, t, f, "sigma_" ++ g⟩) ∨
      (val ⟨.transition, t, f, "tfp"⟩ ≤ 0 ∧ ∀ g, IsLatent m g → val ⟨.transition, t, f, "sigma_" ++ g⟩ ≤ 0))))

end Skill.Spec
