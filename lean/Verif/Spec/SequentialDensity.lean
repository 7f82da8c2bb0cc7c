import Verif.Spec.LabelModel
import Verif.Spec.TransitionFunctions
import Verif.Model.Pipeline

/-! What it means that likelihood contributions describe a probability distribution of the data of an individual, one measurement after the other. -/

namespace Skill.Spec

open MeasureTheory

/-- The integral of a function of `K` numbers, one number after the other (the last one first). -/
noncomputable def iteratedIntegral : {K : ℕ} → (Fin K → Measure ℝ) → ((Fin K → ℝ) → ENNReal) → ENNReal
  | 0, _, f => f Fin.elim0
  | _ + 1, μ, f => ∫⁻ x, iteratedIntegral (fun j => μ j.succ) (fun y => f (Fin.cons x y)) ∂(μ 0)

/-- The covariates if the measurement `u` is missing. -/
noncomputable def Covariates.without (cov : Covariates) (u : Nat × String) : Covariates := cov.only (fun t v => (t, v) ≠ u)

/-- The transition function has finite values at parameters `v`. (Otherwise the code computes with infinities or NaN, which the model does not describe.) -/
def TransFn.FiniteAt (factors : List String) (v : String → ℝ) : TransFn → Prop
  | .builtin name => (name = "log_ces" → v "phi" ≠ 0) ∧ (name = "log_ces" ∨ name = "log_ces_general" → (∀ f ∈ factors, 0 ≤ v f) ∧ ∃ f ∈ factors, 0 < v f)
  | .custom _ _ _ => True

/-- All transition functions have finite values. -/
def FiniteTransitions (custom : String → CustomFn) (m : ModelDict ℝ) (val : Loc → ℝ) : Prop :=
  ∀ t, IsPeriod m (t + 1) → ∀ fs ∈ m.factors, TransFn.FiniteAt (allFactors m) (fun name => val ⟨.transition, t, fs.1, name⟩) (transFnOf (custom fs.1) fs.2.transition)

/-- `density cov` is a probability density for the observed measurements of individuals with covariates `cov`; the measurements come in the order of `updates`.
* It is positive and does not depend on the measurements that are missing.
* If everything is missing then it is one.
* If the last observed measurement of an individual were missing then the density would be the marginal density of the other measurements.
* In total, the density has mass one. -/
structure SequentialDensity (updates : List (Nat × String)) (density : Covariates → (Fin updates.length → ℝ) → ℝ) : Prop where
  pos : ∀ cov y, 0 < density cov y
  observed : ∀ (cov : Covariates) (y y' : Fin updates.length → ℝ), (∀ j, cov.isObserved (updates.get j).1 (updates.get j).2 = true → y j = y' j) → density cov y = density cov y'
  nothing : ∀ (cov : Covariates) (y : Fin updates.length → ℝ), (∀ j, cov.isObserved (updates.get j).1 (updates.get j).2 = false) → density cov y = 1
  last : ∀ (cov : Covariates) (y : Fin updates.length → ℝ) (J : Fin updates.length), cov.isObserved (updates.get J).1 (updates.get J).2 = true →
    (∀ j, J < j → cov.isObserved (updates.get j).1 (updates.get j).2 = false) →
    ∫⁻ x, ENNReal.ofReal (density cov (Function.update y J x)) = ENNReal.ofReal (density (cov.without (updates.get J)) y)
  total : ∀ cov : Covariates, iteratedIntegral (fun j => if cov.isObserved (updates.get j).1 (updates.get j).2 then volume else Measure.dirac 0) (fun y => ENNReal.ofReal (density cov y)) = 1

end Skill.Spec
