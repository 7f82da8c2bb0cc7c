import Verif.Spec.SimulatedDataset
/- Two simulations that are the same for an individual up to some period. -/
namespace Skill.Spec

/-- The parameters that matter up to period `T`: those of the periods up to `T`, without the transition from period `T` to the next period. -/
def ParamUpTo (T : Nat) (l : Loc) : Prop := l.period ≤ T ∧ (l.cat = .transition ∨ l.cat = .shockSds → l.period < T)

/-- The policies up to period `T` with the random numbers drawn for them, in the order of the list of policies. -/
def policiesUpTo (T : Nat) (policies : List Policy) (draw : Nat → ℝ) : List (Policy × ℝ) :=
  (policies.zipIdx.filter (fun p => decide (p.1.period ≤ T))).map (fun p => (p.1, draw p.2))

/-- Individual `i` of one simulation and individual `i'` of another simulation have the same inputs up to period `T`: the same values of the parameters, control variables, observed factors, random numbers and policies.
What comes later may be different. -/
structure SameInputsUpTo (m : ModelDict ℝ) (T : Nat) (val : Loc → ℝ) (cov : Covariates) (policies : List Policy) (draws : DatasetDraws) (i : Nat) (val' : Loc → ℝ) (cov' : Covariates) (policies' : List Policy)
    (draws' : DatasetDraws) (i' : Nat) : Prop where
  params : ∀ l, ParamUpTo T l → val l = val' l
  controls : ∀ t ≤ T, ∀ c ∈ "constant" :: m.controls.getD [], cov.control t c = cov'.control t c
  factors : ∀ t < T, ∀ f ∈ m.observedFactors.getD [], cov.factor t f = cov'.factor t f
  element : draws.element i = draws'.element i'
  start : ∀ f, draws.normal i (.start f) = draws'.normal i' (.start f)
  shocks : ∀ t < T, ∀ f, draws.normal i (.shock t f) = draws'.normal i' (.shock t f)
  errors : ∀ t ≤ T, ∀ k, draws.normal i (.error t k) = draws'.normal i' (.error t k)
  policies : policiesUpTo T policies (fun k => draws.normal i (.policy k)) = policiesUpTo T policies' (fun k => draws'.normal i' (.policy k))

/-- The period of a cell. -/
def cellPeriod {m : ModelDict ℝ} : Cell m → Nat
  | .inl c => c.1.1
  | .inr c => c.1.1

end Skill.Spec
