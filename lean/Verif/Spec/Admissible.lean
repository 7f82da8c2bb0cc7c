import Verif.Spec.Constraints
import Verif.Model.Pipeline
import Mathlib.Data.Real.Basic
import Mathlib.Algebra.BigOperators.Group.Finset.Basic

/-! Parameters that satisfy the constraints and bounds of an estimation (C120). -/

namespace Skill.Spec

/-- How estimagic reads one constraint: the selected parameters have the given value or values, are probabilities, are increasing (not necessarily strictly), or the selections are equal element by element. -/
def Meets (index : List Loc) (val : Loc → ℝ) : Constr ℝ → Prop
  | .fixed sel (.scalar x) => ∀ l ∈ selected index sel, val l = x
  | .fixed sel (.vec xs) => (selected index sel).map val = xs
  | .probability sel => (∀ l ∈ selected index sel, 0 ≤ val l) ∧ ((selected index sel).map val).sum = 1
  | .increasing sel => ((selected index sel).map val).Pairwise (· ≤ ·)
  | .pairwiseEquality sels => ∀ s ∈ sels, ∀ s' ∈ sels, (selected index s).map val = (selected index s').map val

/-- The values are not smaller than the lower bounds in the template. -/
def WithinBounds (template : List (Loc × Option ℝ)) (val : Loc → ℝ) : Prop := ∀ l b, (l, some b) ∈ template → b ≤ val l

/-- The lower bound of standard deviations: the estimation option "bounds_distance" (default 0.001), or zero if "robust_bounds" is False. -/
def BoundsDistance (m : ModelDict ℝ) (d : ℝ) : Prop :=
  ∃ o, m.estimationOptions = some o ∧ ((o.robustBounds = some false ∧ d = 0) ∨ (o.robustBounds ≠ some false ∧ d = o.boundsDistance.getD (1 / 1000)))

/-- The values of parameters that a model allows. -/
structure Admissible (m : ModelDict ℝ) (val : Loc → ℝ) : Prop where
  /-- normalizations, constant factors, anchoring equations -/
  fixes : ∀ l x, ShouldFix m l x → val l = x
  /-- mixture weights are probabilities -/
  weights : ∀ k, HasNMixtures m k → (∀ e < k, 0 ≤ val ⟨.mixtureWeights, 0, "mixture_" ++ toString e, "-"⟩) ∧ ∑ e ∈ Finset.range k, val ⟨.mixtureWeights, 0, "mixture_" ++ toString e, "-"⟩ = 1
  /-- transition parameters do not change within a stage -/
  stages : ∀ p q s, StageOf m p s → StageOf m q s → ∀ f spec name, (f, spec) ∈ m.factors → HasTransitionParam (allFactors m) spec.transition name → val ⟨.transition, p, f, name⟩ = val ⟨.transition, q, f, name⟩
  /-- standard deviations of shocks do not change within a stage -/
  stageShocks : ∀ p q s, StageOf m p s → StageOf m q s → ∀ f, IsLatent m f → val ⟨.shockSds, p, f, "-"⟩ = val ⟨.shockSds, q, f, "-"⟩
  /-- mixture elements are ordered by the mean of the first factor -/
  order : ∀ k f, HasNMixtures m k → (m.factors.map Prod.fst).head? = some f → ∀ e e', e ≤ e' → e' < k →
    val ⟨.initialStates, 0, "mixture_" ++ toString e, f⟩ ≤ val ⟨.initialStates, 0, "mixture_" ++ toString e', f⟩
  /-- the shares of a CES function are probabilities -/
  shares : ∀ t f spec, IsPeriod m (t + 1) → (f, spec) ∈ m.factors → spec.transition = .named "log_ces" →
    (∀ g ∈ allFactors m, 0 ≤ val ⟨.transition, t, f, g⟩) ∧ ((allFactors m).map (fun g => val ⟨.transition, t, f, g⟩)).sum = 1
  /-- standard deviations of measurements are not below the bound -/
  measSds : ∀ d t v, BoundsDistance m d → IsUpdate m t v → d ≤ val ⟨.measSds, t, v, "-"⟩
  /-- standard deviations of shocks are not below the bound -/
  shockSds : ∀ d t f, BoundsDistance m d → IsPeriod m (t + 1) → IsLatent m f → d ≤ val ⟨.shockSds, t, f, "-"⟩
  /-- diagonal entries of the initial Cholesky factors are not below the bound -/
  diagonal : ∀ d k e f, BoundsDistance m d → HasNMixtures m k → e < k → IsLatent m f → d ≤ val ⟨.initialCholcovs, 0, "mixture_" ++ toString e, f ++ "-" ++ f⟩

/-- The values that an optimizer may choose: they satisfy the constraints and the lower bounds that get_maximization_inputs returns, and their absolute values are not larger than the numbers `B` of the user. -/
def Feasible (inputs : MaximizationInputs) (B : Loc → ℝ) : Set (Loc → ℝ) :=
  {val | (∀ id c, (id, c) ∈ inputs.constraints → Meets inputs.index val c) ∧ WithinBounds inputs.template val ∧ ∀ l, |val l| ≤ B l}

end Skill.Spec
