import Verif.Model.Simulate
import Verif.Props.ExactLikelihood
/- What a simulated dataset should look like. -/
namespace Skill.Spec
open Matrix
variable {nObs nMix n nT nObserved nC : ℕ} {θ : Type}

/-- numpy's factorization of covariance matrices is a factorization. -/
def ValidRoot (root : NormalRoot) : Prop := ∀ (k : ℕ) (S : Matrix (Fin k) (Fin k) ℝ), S.PosSemidef → root k S * (root k S)ᵀ = S

/-- The sum of the shocks of all policies for a factor in a period. A policy has the effect "effect_size" plus "standard_deviation" times its standard normal draw. -/
noncomputable def policyEffect (policies : List Policy) (draws : Nat → ℝ) (t : Nat) (factor : String) : ℝ :=
  ((policies.zipIdx.filter (fun p => decide (p.1.period = t ∧ p.1.factor = factor))).map (fun p => p.1.effectSize + p.1.standardDeviation * draws p.2)).sum

/-- The shocks of the transition after period `t`: correlated by the root of the diagonal matrix of squared shock standard deviations. -/
noncomputable def transitionNoise (root : NormalRoot) (fixed : ScanFixed nObs nT n nObserved nC θ) (t : Nat) (z : Fin n → ℝ) : Fin n → ℝ :=
  root n (diagonal (fun f => fixed.shockSds (jaxIndex nT t) f ^ 2)) *ᵥ z

/-- The simulated states `xs` of individual `i` obey the transition equations: in each period but the last, the policies of the period are added to the states; the
states of the next period are the same anchored transition as in the filter's predict step, plus the shocks. -/
structure StatesFollow (root : NormalRoot) (fixed : ScanFixed nObs nT n nObserved nC θ) (factors : Fin n → String) (policies : List Policy) (i : Fin nObs) (d : Draws nMix n)
    (start : Fin n → ℝ) (xs : List (Fin n → ℝ)) : Prop where
  length : xs.length = nT + 2
  first : ∃ x, xs[0]? = some x ∧ ∀ f, x f = start f + policyEffect policies d.policies 0 (factors f)
  next : ∀ (t : Nat) x y, xs[t]? = some x → xs[t + 1]? = some y → ∀ f,
    y f = unanchoredTransition fixed i t x f + transitionNoise root fixed t (d.shocks t) f
      + if t + 1 = nT + 1 then 0 else policyEffect policies d.policies (t + 1) (factors f)

/-- The measurements of a period with updates `rows`: state times loadings plus controls times control parameters plus measurement errors. -/
structure MeasurementsFollow (root : NormalRoot) (x : Fin n → ℝ) (controls : Fin nC → ℝ) (rows : List (UpdateParams n nC)) (z : Nat → ℝ) (ys : List (String × ℝ)) : Prop where
  length : ys.length = rows.length
  values : ∀ (k : Fin rows.length), ys[k.val]? = some ((rows.get k).var,
    (rows.get k).loadings ⬝ᵥ x + controls ⬝ᵥ (rows.get k).controlParams + (root rows.length (diagonal (fun k => (rows.get k).sd ^ 2)) *ᵥ (fun j => z j.val)) k)

end Skill.Spec
