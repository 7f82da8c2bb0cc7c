import Verif.Model.SimulateDataset
/- The total effect of policies. -/
namespace Skill.Spec

/-- The sum of the effect sizes of all policies for factor `f` in period `t`. -/
def effectSizes (policies : List Policy) (t : Nat) (f : String) : ℝ := ((policies.filter (fun p => decide (p.period = t ∧ p.factor = f))).map (fun p => p.effectSize)).sum

/-- The draws of two simulations are the same, except for the random numbers of the policies. -/
structure SameDrawsExceptPolicies (draws draws' : DatasetDraws) : Prop where
  element : draws'.element = draws.element
  normal : ∀ i d, (∀ k, d ≠ .policy k) → draws'.normal i d = draws.normal i d

end Skill.Spec
