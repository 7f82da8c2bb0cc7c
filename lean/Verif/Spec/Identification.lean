import Verif.Spec.Rescaling

/-! Sufficient conditions for the identification of the parameters of a linear model (C119). -/

namespace Skill.Spec

variable {α : Type}

/-- `v` is a measurement of the factor `f` in period `t` and of no other factor. -/
def MeasuresOnly (m : ModelDict α) (t : Nat) (v f : String) : Prop := ∀ g, Measures m t v g ↔ g = f

/-- Each factor has in each period three measurements of its own. The loading (not zero) and the intercept of the first one are normalized, the loadings of the others have values that are not zero. -/
def HasOwnMeasurements (m : ModelDict ℝ) (val : Loc → ℝ) : Prop :=
  ∀ t f, IsPeriod m t → IsLatent m f → ∃ v1 v2 v3, v1 ≠ v2 ∧ v1 ≠ v3 ∧ v2 ≠ v3 ∧ MeasuresOnly m t v1 f ∧ MeasuresOnly m t v2 f ∧ MeasuresOnly m t v3 f ∧
    (∃ x, x ≠ 0 ∧ IsLoadingNorm m t f v1 x) ∧ (∃ g x, IsInterceptNorm m t g v1 x) ∧ val ⟨.loadings, t, v2, f⟩ ≠ 0 ∧ val ⟨.loadings, t, v3, f⟩ ≠ 0

/-- The values of parameters that the user allows: normalized parameters have the given values, standard deviations and the diagonal of the Cholesky factor of the initial covariance matrix are not negative. -/
structure Normalized (m : ModelDict ℝ) (val : Loc → ℝ) : Prop where
  loadings : ∀ t v f x, IsLoadingNorm m t f v x → val ⟨.loadings, t, v, f⟩ = x
  intercepts : ∀ t v f x, IsInterceptNorm m t f v x → val ⟨.controls, t, v, "constant"⟩ = x
  measSds : ∀ t v, IsUpdate m t v → 0 ≤ val ⟨.measSds, t, v, "-"⟩
  shockSds : ∀ t f, IsPeriod m (t + 1) → IsLatent m f → 0 ≤ val ⟨.shockSds, t, f, "-"⟩
  diagonal : ∀ f, IsLatent m f → 0 ≤ val ⟨.initialCholcovs, 0, mixtureName 0, f ++ "-" ++ f⟩

/-- No factor is a linear function of the other factors: the initial factors have an invertible covariance matrix, and there are shocks to all factors that are not constant. -/
structure NotCollinear (m : ModelDict ℝ) (val : Loc → ℝ) : Prop where
  start : ∀ f, IsLatent m f → val ⟨.initialCholcovs, 0, mixtureName 0, f ++ "-" ++ f⟩ ≠ 0
  shocks : ∀ t f, IsPeriod m (t + 1) → IsLatent m f → HasTransition m f "constant" ∨ val ⟨.shockSds, t, f, "-"⟩ ≠ 0

end Skill.Spec
