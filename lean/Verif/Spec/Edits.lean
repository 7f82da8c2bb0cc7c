import Verif.Spec.Params
import Verif.Spec.LabelModel
/- Specification for C118. -/
namespace Skill.Spec

/-- The parameters of the translog transition function of `factor` that a linear one does not have (of squares and interactions) are zero in period `t`. -/
def NoHigherOrderTerms (m : ModelDict ℝ) (val : Loc → ℝ) (factor : String) (t : ℕ) : Prop :=
  ∀ name, HasTransitionParam (allFactors m) (.named "translog") name → ¬HasTransitionParam (allFactors m) (.named "linear") name → val ⟨.transition, t, factor, name⟩ = 0

end Skill.Spec
