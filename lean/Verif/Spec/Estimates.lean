import Verif.Spec.Consistency

/-! Maximum likelihood estimates. -/

namespace Skill.Spec

/-- The rows of the parameter DataFrame `params` are the parameters of the model `m`, each once and in some order, with the values `val`. -/
structure ParamsWith (m : ModelDict ℝ) (params : List (Loc × ℝ)) (val : Loc → ℝ) : Prop where
  nodup : (params.map Prod.fst).Nodup
  labels : ∀ l, l ∈ params.map Prod.fst ↔ IsParam m l
  values : ∀ l x, (l, x) ∈ params → x = val l

/-- The values `val` maximize the function `loglike` of parameter DataFrames among the admissible values `Θ`: `loglike` can be evaluated at all admissible values and there are none at which it is higher. -/
structure Maximizes (loglike : List (Loc × ℝ) → Py ℝ) (m : ModelDict ℝ) (Θ : Set (Loc → ℝ)) (val : Loc → ℝ) : Prop where
  admissible : val ∈ Θ
  evaluates : ∀ val' ∈ Θ, ∀ params', ParamsWith m params' val' → ∃ x, loglike params' = .ok x
  highest : ∀ params x, ParamsWith m params val → loglike params = .ok x → ∀ val' ∈ Θ, ∀ params' x', ParamsWith m params' val' → loglike params' = .ok x' → x' ≤ x

end Skill.Spec
