import Mathlib.Analysis.Calculus.Deriv.Basic
import Verif.Spec.LabelModel
import Verif.Model.Gradient
/-
Parameter values at which the likelihood function is differentiable.
-/
namespace Skill.Spec

/-- The transition function is differentiable at parameters `v` (at all states). The polynomials always are, the CES functions if the weights are positive (and phi is not zero). A custom function is
assumed to be a differentiable function of the values of its arguments: factors, states and parameters. robust_translog has kinks at -10^12 and 10^12 and is left out. -/
def TransFn.Smooth (factors : List String) (v : String → ℝ) : TransFn → Prop
  | .builtin name => name ∈ ["linear", "translog", "linear_and_squares", "constant"] ∨ (name = "log_ces" ∧ v "phi" ≠ 0 ∧ ∀ f ∈ factors, 0 < v f) ∨ (name = "log_ces_general" ∧ ∀ f ∈ factors, 0 < v f)
  | .custom args names body => (∀ a ∈ args, a ∈ factors) ∧ Differentiable ℝ (fun z : (Fin args.length → ℝ) × (Fin factors.length → ℝ) × (Fin names.length → ℝ) =>
      body (args.zip (List.ofFn z.1)) (List.ofFn z.2.1) (names.zip (List.ofFn z.2.2)))

/-- Parameters in the interior of the parameter space: no standard deviation is zero (except for the shocks of factors that are constant over time), the covariance matrices of the initial factors are
not singular, mixture weights are positive, anchoring does not multiply with zero, and transition functions are differentiable. -/
structure InteriorValues (custom : String → CustomFn) (m : ModelDict ℝ) (k : Nat) (val : Loc → ℝ) : Prop where
  measSds : ∀ t v, IsUpdate m t v → val ⟨.measSds, t, v, "-"⟩ ≠ 0
  shockSds : ∀ t, IsPeriod m (t + 1) → ∀ fs ∈ m.factors, val ⟨.shockSds, t, fs.1, "-"⟩ ≠ 0 ∨ fs.2.transition = .named "constant"
  initial : ∀ e < k, ∀ f, IsLatent m f → val ⟨.initialCholcovs, 0, mixtureName e, f ++ "-" ++ f⟩ ≠ 0
  weights : ∀ e < k, 0 < val ⟨.mixtureWeights, 0, mixtureName e, "-"⟩
  anchoring : ∀ t, IsPeriod m t → ∀ f o, AnchoredIn m f o → val ⟨.loadings, t, o ++ "_" ++ f, f⟩ ≠ 0
  transition : ∀ t, IsPeriod m (t + 1) → ∀ fs ∈ m.factors, TransFn.Smooth (allFactors m) (fun name => val ⟨.transition, t, fs.1, name⟩) (transFnOf (custom fs.1) fs.2.transition)

/-- The DataFrame `params` has exactly the labels of `index` and the values `val`. -/
structure ParamsAre (index : List Loc) (params : List (Loc × ℝ)) (val : Loc → ℝ) : Prop where
  unique : (params.map Prod.fst).Nodup
  labels : ∀ l, l ∈ params.map Prod.fst ↔ l ∈ index
  values : ∀ l x, (l, x) ∈ params → x = val l

/-- The entries of `g` are the partial derivatives of `V` at `val` with respect to the parameters in `index`, and they give the rate of change of `V` along every path on which the parameters change differentiably. -/
structure IsGradient (index : List Loc) (V : (Loc → ℝ) → ℝ) (val : Loc → ℝ) (g : List ℝ) : Prop where
  length : g.length = index.length
  partials : ∀ (k : Nat) (l : Loc), index[k]? = some l → HasDerivAt (fun s => V (Function.update val l s)) (g.getD k 0) (val l)
  paths : ∀ (path : ℝ → Loc → ℝ) (speed : Loc → ℝ), path 0 = val → (∀ l ∈ index, HasDerivAt (fun s => path s l) (speed l) 0) →
    HasDerivAt (fun s => V (path s)) (List.zipWith (fun l d => d * speed l) index g).sum 0

end Skill.Spec
