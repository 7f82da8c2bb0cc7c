import Mathlib.MeasureTheory.Integral.Bochner.Basic
import Mathlib.Analysis.SpecialFunctions.Log.Basic

/-! What it means that data come from certain parameters, in terms of the log likelihood values of these and other parameters. -/

namespace Skill.Spec

open MeasureTheory

/-- `value0 ω` is the log likelihood of the data in the state of the world `ω` at the true parameters, `value ω` the one at other parameters.
* The likelihood ratio is one on average.
* It is improbable that the other parameters fit much better than the true ones.
* Both log likelihoods have a mean, and the mean at the true parameters is at least as large.
* If the means are equal, then the likelihoods are the same for almost all data: nothing in the data can distinguish the other parameters from the true ones. -/
structure TruthIsBest {Ω : Type} [MeasurableSpace Ω] (P : Measure Ω) (value value0 : Ω → ℝ) : Prop where
  ratio : ∫⁻ ω, ENNReal.ofReal (Real.exp (value ω - value0 ω)) ∂P = 1
  beaten : ∀ c : ℝ, P {ω | value0 ω + c ≤ value ω} ≤ ENNReal.ofReal (Real.exp (-c))
  means : Integrable value P ∧ Integrable value0 P
  average : ∫ ω, value ω ∂P ≤ ∫ ω, value0 ω ∂P
  same : ∫ ω, value ω ∂P = ∫ ω, value0 ω ∂P → ∀ᵐ ω ∂P, value ω = value0 ω

end Skill.Spec
