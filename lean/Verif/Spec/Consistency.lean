import Verif.Spec.Rescaling

/-! When the data can tell parameters apart. -/

namespace Skill.Spec

open MeasureTheory

/-- The observed data of an individual with the covariates `cov` (control variables, observed factors and pattern of missing values) are distributed differently with the values `val0` and `val` of the parameters of the model `m`: whatever the
mixture elements `E`, `E'` and random numbers `Z`, `Z'` (see `RandomNoise`) and the order in which the measurements are written down. -/
def DataDiffer (m : ModelDict ℝ) (k : ℕ) (val0 val : Loc → ℝ) (cov : Covariates) : Prop :=
  ∀ (Ω Ω' : Type) [MeasurableSpace Ω] [MeasurableSpace Ω'] (P : Measure Ω) (P' : Measure Ω') [IsProbabilityMeasure P] [IsProbabilityMeasure P'] (E : Ω → Fin k) (E' : Ω' → Fin k) (Z : Noise → Ω → ℝ) (Z' : Noise → Ω' → ℝ),
    RandomNoise P val0 E Z → RandomNoise P' val E' Z' → ∀ updates, Enumerates m updates →
      P.map (fun ω => observedData updates cov (measurementValue m val0 cov (E ω) (fun j => Z j ω))) ≠ P'.map (fun ω => observedData updates cov (measurementValue m val cov (E' ω) (fun j => Z' j ω)))

end Skill.Spec
