import Verif.Spec.SameModel

/-! Groups of factors that have no influence on the other factors. -/

namespace Skill.Spec

variable {α : Type}

/-- The factors in the list `fs` have no influence on the other factors and their measurements: the rows of the Cholesky factor of the initial covariance matrix of the other factors have zeros in the columns of these factors, the
other factors do not depend on these factors in the last period, and a measurement of another factor has zero loadings on these factors. `k` is the number of mixture elements. -/
structure NoInfluence (m : ModelDict α) (k : Nat) (fs : List String) (val : Loc → ℝ) : Prop where
  initial : ∀ e < k, ∀ f g, IsLatent m f → f ∉ fs → IsLatent m g → g ∈ fs → cholEntry m val e f g = 0
  transition : ∀ t f g, IsPeriod m (t + 1) → HasTransition m f "linear" → f ∉ fs → IsLatent m g → g ∈ fs → val ⟨.transition, t, f, g⟩ = 0
  loadings : ∀ t v f g, Measures m t v f → f ∉ fs → Measures m t v g → g ∈ fs → val ⟨.loadings, t, v, g⟩ = 0

/-- The factors in the list `fs` and the other factors have nothing to do with each other: initial values are not correlated, no factor depends on factors of the other group in the last period, and no measurement measures factors of
both groups. -/
structure Unrelated (m : ModelDict α) (fs : List String) (val : Loc → ℝ) : Prop where
  initial : ∀ f g, IsLatent m f → IsLatent m g → ¬(f ∈ fs ↔ g ∈ fs) → cholEntry m val 0 f g = 0
  transition : ∀ t f g, IsPeriod m (t + 1) → HasTransition m f "linear" → IsLatent m g → ¬(f ∈ fs ↔ g ∈ fs) → val ⟨.transition, t, f, g⟩ = 0
  measurements : ∀ t v f g, Measures m t v f → Measures m t v g → (f ∈ fs ↔ g ∈ fs)

end Skill.Spec
