import Verif.Spec.LabelModel
import Verif.Spec.Consistent

/-! Parameters that describe the same distribution of the data. -/

namespace Skill.Spec
open MeasureTheory ProbabilityTheory

variable {α : Type}

/-- Two model dictionaries are about the same variables: they have the same periods, measurements, anchoring outcomes, controls and observed factors. They can have different factors and different equations. -/
structure SameVariables (m m' : ModelDict α) : Prop where
  periods : ∀ t, IsPeriod m t ↔ IsPeriod m' t
  measurements : ∀ t v, IsMeasurement m t v ↔ IsMeasurement m' t v
  anchored : ∀ f o, AnchoredIn m f o ↔ AnchoredIn m' f o
  controls : ∀ c, c ∈ m.controls.getD [] ↔ c ∈ m'.controls.getD []
  observed : ∀ f, f ∈ m.observedFactors.getD [] ↔ f ∈ m'.observedFactors.getD []

/-- The control variable "constant" is one in the periods with observed measurements. -/
def ConstantIsOne (m : ModelDict α) (cov : Covariates) : Prop := ∀ t v, IsUpdate m t v → cov.isObserved t v = true → cov.control t "constant" = 1

/-- The observed data of an individual have the same distribution in the model `m` with the values `val` of parameters and in the model `m'` with the values `val'`, for all values of controls and observed factors and all patterns of
missing values. `E`, `Z` and `E'`, `Z'` are the mixture elements and random numbers (see `RandomNoise`). -/
def SameDistribution {Ω Ω' : Type} [MeasurableSpace Ω] [MeasurableSpace Ω'] {k k' : ℕ} (P : Measure Ω) (E : Ω → Fin k) (Z : Noise → Ω → ℝ) (P' : Measure Ω') (E' : Ω' → Fin k') (Z' : Noise → Ω' → ℝ)
    (m : ModelDict ℝ) (val : Loc → ℝ) (m' : ModelDict ℝ) (val' : Loc → ℝ) : Prop :=
  ∀ updates, Enumerates m updates → ∀ cov, ConstantIsOne m cov →
    P.map (fun ω => observedData updates cov (measurementValue m val cov (E ω) (fun j => Z j ω))) = P'.map (fun ω => observedData updates cov (measurementValue m' val' cov (E' ω) (fun j => Z' j ω)))

/-- The observed data of an individual and the latent factor `f` of period t have the same joint distribution in the model `m` with the values `val` as the data and `c t * x + d t` in the model `m'` with the values `val'`, where `x` is
the latent factor `g` of that model; for all values of controls and observed factors and all patterns of missing values. -/
def SameJointDistribution {Ω Ω' : Type} [MeasurableSpace Ω] [MeasurableSpace Ω'] {k k' : ℕ} (P : Measure Ω) (E : Ω → Fin k) (Z : Noise → Ω → ℝ) (P' : Measure Ω') (E' : Ω' → Fin k') (Z' : Noise → Ω' → ℝ)
    (m : ModelDict ℝ) (val : Loc → ℝ) (f : String) (m' : ModelDict ℝ) (val' : Loc → ℝ) (g : String) (c d : Nat → ℝ) : Prop :=
  ∀ updates, Enumerates m updates → ∀ cov, ConstantIsOne m cov → ∀ t, IsPeriod m t →
    P.map (fun ω => (observedData updates cov (measurementValue m val cov (E ω) (fun j => Z j ω)), latentStates m val cov (E ω) (fun j => Z j ω) t f)) =
      P'.map (fun ω => (observedData updates cov (measurementValue m' val' cov (E' ω) (fun j => Z' j ω)), c t * latentStates m' val' cov (E' ω) (fun j => Z' j ω) t g + d t))

/-- Measurements, controls and observed factors are different columns of the data. -/
structure SeparateColumns (m : ModelDict α) : Prop where
  measurements : ∀ t v, IsUpdate m t v → v ≠ "constant" ∧ v ∉ m.controls.getD [] ∧ v ∉ m.observedFactors.getD []
  controls : ∀ c ∈ m.controls.getD [], c ∉ m.observedFactors.getD []
  constant : "constant" ∉ m.observedFactors.getD []

/-- Variable `v` of period `t` is a measurement of `f` or an outcome that is used to anchor `f`. -/
def Loads (m : ModelDict α) (t : Nat) (v f : String) : Prop := Measures m t v f ∨ Anchors m v f

open Classical in
/-- The change of the scale of a factor in the transition functions, if the scales of latent factors are changed by `c`: anchored factors do not change in the units of their outcomes, observed factors do not change. -/
noncomputable def unitScale (m : ModelDict α) (c : Nat → String → ℝ) (t : Nat) (f : String) : ℝ := if IsLatent m f ∧ ¬∃ o, AnchoredIn m f o then c t f else 1

open Classical in
/-- The change of the location of a factor in the transition functions, if the locations of latent factors are changed by `d`. -/
noncomputable def unitShift (m : ModelDict α) (d : Nat → String → ℝ) (t : Nat) (f : String) : ℝ := if IsLatent m f ∧ ¬∃ o, AnchoredIn m f o then d t f else 0

open Classical in
/-- `val'` are the values of the parameters after a change of the scale and location of latent factors: the factor `x` of period t becomes `c t f * x + d t f`. -/
structure Rescales (m : ModelDict α) (c d : Nat → String → ℝ) (val val' : Loc → ℝ) : Prop where
  weights : ∀ e, val' ⟨.mixtureWeights, 0, mixtureName e, "-"⟩ = val ⟨.mixtureWeights, 0, mixtureName e, "-"⟩
  means : ∀ e f, IsLatent m f → val' ⟨.initialStates, 0, mixtureName e, f⟩ = c 0 f * val ⟨.initialStates, 0, mixtureName e, f⟩ + d 0 f
  cholcovs : ∀ e f g, IsLatent m f → IsLatent m g → val' ⟨.initialCholcovs, 0, mixtureName e, f ++ "-" ++ g⟩ = c 0 f * val ⟨.initialCholcovs, 0, mixtureName e, f ++ "-" ++ g⟩
  loadings : ∀ t v f, IsLatent m f → Loads m t v f → val' ⟨.loadings, t, v, f⟩ = val ⟨.loadings, t, v, f⟩ / c t f
  intercepts : ∀ t v, val' ⟨.controls, t, v, "constant"⟩ = val ⟨.controls, t, v, "constant"⟩ - ((latents m).map (fun f => if Loads m t v f then val ⟨.loadings, t, v, f⟩ / c t f * d t f else 0)).sum
  controls : ∀ t v x, x ≠ "constant" → val' ⟨.controls, t, v, x⟩ = val ⟨.controls, t, v, x⟩
  measSds : ∀ t v, val' ⟨.measSds, t, v, "-"⟩ = val ⟨.measSds, t, v, "-"⟩
  shockSds : ∀ t f, IsLatent m f → val' ⟨.shockSds, t, f, "-"⟩ = c (t + 1) f * val ⟨.shockSds, t, f, "-"⟩
  coefficients : ∀ t f g, IsLatent m f → g ∈ allFactors m → val' ⟨.transition, t, f, g⟩ = unitScale m c (t + 1) f * val ⟨.transition, t, f, g⟩ / unitScale m c t g
  constants : ∀ t f, IsLatent m f → val' ⟨.transition, t, f, "constant"⟩ = unitScale m c (t + 1) f * val ⟨.transition, t, f, "constant"⟩ + unitShift m d (t + 1) f -
    ((allFactors m).map (fun g => unitScale m c (t + 1) f * val ⟨.transition, t, f, g⟩ / unitScale m c t g * unitShift m d t g)).sum

/-- Changes of scale and location that are possible in the model: factors with the transition function "constant" keep their scale and location, unless they are anchored. The location of anchored factors does not change if
the constants of anchoring equations are ignored. -/
structure CanRescale (m : ModelDict α) (c d : Nat → String → ℝ) : Prop where
  nonzero : ∀ t f, IsLatent m f → c t f ≠ 0
  constant : ∀ t f, HasTransition m f "constant" → (¬∃ o, AnchoredIn m f o) → c (t + 1) f = c t f ∧ d (t + 1) f = d t f
  anchored : AnchorFlag m AnchoringSpec.ignoreConstant → ∀ t f o, AnchoredIn m f o → d t f = 0

/-- The loading of measurement `v` of factor `f` in period `t` is normalized to `x`. -/
def IsLoadingNorm (m : ModelDict α) (t : ℕ) (f v : String) (x : α) : Prop := ∃ spec, (f, spec) ∈ m.factors ∧ LoadingNorm spec t v x

/-- The intercept of measurement `v` of period `t` is normalized to `x`, in the section on factor `f`. -/
def IsInterceptNorm (m : ModelDict α) (t : ℕ) (f v : String) (x : α) : Prop := ∃ spec, (f, spec) ∈ m.factors ∧ InterceptNorm spec t v x

/-- The model in which the transition function of the factors with `p f` is replaced by "linear". -/
def makeLinear (p : String → Bool) (m : ModelDict α) : ModelDict α :=
  { m with factors := m.factors.map (fun fs => (fs.1, if p fs.1 then { fs.2 with transition := .named "linear" } else fs.2)) }

/-- `val'` are the same values as `val`, except for the transition functions of the factors with `p f`: they have the coefficient one for the factor itself, all other coefficients and the constant are zero. -/
structure KeepsFactors (p : String → Bool) (m : ModelDict α) (val val' : Loc → ℝ) : Prop where
  others : ∀ l, ¬(l.cat = .transition ∧ p l.name1 = true) → val' l = val l
  own : ∀ t f, p f = true → IsLatent m f → val' ⟨.transition, t, f, f⟩ = 1
  cross : ∀ t f g, p f = true → IsLatent m f → g ∈ "constant" :: allFactors m → g ≠ f → val' ⟨.transition, t, f, g⟩ = 0

end Skill.Spec
