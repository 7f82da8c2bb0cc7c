import Verif.Spec.SimulatedDataset
/- The effects of policies in models with linear transition functions. -/
namespace Skill.Spec

/-- All transition functions are linear or constant. -/
def LinearTransitions (m : ModelDict ℝ) : Prop := ∀ f spec, (f, spec) ∈ m.factors → spec.transition = .named "linear" ∨ spec.transition = .named "constant"

open Classical in
/-- By how much the latent factors change, if the factors of period t are changed by `d t`: the changes are handed on to the next period by the transition parameters. Transition functions use and return factors in the units
of their anchoring outcomes. -/
noncomputable def totalEffect (m : ModelDict ℝ) (val : Loc → ℝ) (d : Nat → String → ℝ) : Nat → String → ℝ
  | 0 => d 0
  | t + 1 => fun f => (if HasTransition m f "constant" then anchorScale m val t f * totalEffect m val d t f
      else ((latents m).map (fun g => val ⟨.transition, t, f, g⟩ * (anchorScale m val t g * totalEffect m val d t g))).sum) / anchorScale m val (t + 1) f + d (t + 1) f

open Classical in
/-- The difference between two lists of policies, for an individual with the random numbers `draw` and `draw'`. Policies in the last period have no effect. -/
noncomputable def policyDifference (m : ModelDict ℝ) (policies : List Policy) (draw : Nat → ℝ) (policies' : List Policy) (draw' : Nat → ℝ) (t : Nat) (f : String) : ℝ :=
  if IsPeriod m (t + 1) then policyEffect policies draw t f - policyEffect policies' draw' t f else 0

open Classical in
/-- By how much a cell of the simulated dataset changes if the latent factors change by `change`: a measurement changes according to its loadings. -/
noncomputable def cellEffect (m : ModelDict ℝ) (val : Loc → ℝ) (change : Nat → String → ℝ) : Cell m → ℝ
  | .inl c => change c.1.1 c.1.2
  | .inr c => ((latents m).map (fun f => if Measures m c.1.1 c.1.2 f ∨ Anchors m c.1.2 f then val ⟨.loadings, c.1.1, c.1.2, f⟩ * change c.1.1 f else 0)).sum

/-- The random numbers of two simulations are the same for individual `i`, except for those of the policies. -/
structure SameNoise (draws draws' : DatasetDraws) (i : Nat) : Prop where
  element : draws.element i = draws'.element i
  start : ∀ f, draws.normal i (.start f) = draws'.normal i (.start f)
  shocks : ∀ t f, draws.normal i (.shock t f) = draws'.normal i (.shock t f)
  errors : ∀ t k, draws.normal i (.error t k) = draws'.normal i (.error t k)

end Skill.Spec
