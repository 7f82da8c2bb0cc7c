import Verif.Spec.Params
import Verif.Spec.Data
import Verif.Spec.Constraints
import Verif.Spec.TransitionFunctions
import Mathlib.Probability.Distributions.Gaussian.Real
import Mathlib.Probability.Independence.Basic
/-
The statistical model that a user writes down with a model dictionary (linear transition functions), in terms of the names of the user: `val` gives the value of the parameter with a given
label. Nothing here uses the code of the package.
-/
namespace Skill.Spec
open MeasureTheory ProbabilityTheory
variable {α : Type}

/-- The latent factors. -/
def latents (m : ModelDict α) : List String := m.factors.map Prod.fst

/-- The name of a mixture element. -/
def mixtureName (e : Nat) : String := "mixture_" ++ toString e

/-- What is known about an individual besides the values of the measurements: which measurements are observed, and the values of control variables and observed factors, in each period. -/
structure Covariates where
  isObserved : Nat → String → Bool
  control : Nat → String → ℝ
  factor : Nat → String → ℝ

/-- The random numbers of an individual: for the initial value of each factor, the shock to each factor in each period and the error of each measurement. -/
inductive Noise where
  | start (f : String)
  | shock (t : Nat) (f : String)
  | error (t : Nat) (v : String)

/-- The initial value of factor `f` in mixture element `e`: the mean plus the row of the lower triangular Cholesky factor times standard normal numbers. -/
noncomputable def startState (m : ModelDict α) (val : Loc → ℝ) (e : Nat) (z : Noise → ℝ) (f : String) : ℝ :=
  val ⟨.initialStates, 0, mixtureName e, f⟩ +
    (((latents m).take ((latents m).idxOf f + 1)).map (fun g => val ⟨.initialCholcovs, 0, mixtureName e, f ++ "-" ++ g⟩ * z (.start g))).sum

/-- The user gave this name as transition function of `f`. -/
def HasTransition (m : ModelDict α) (f name : String) : Prop := ∃ spec, (f, spec) ∈ m.factors ∧ spec.transition = .named name

/-- The outcome in terms of which factor `f` is anchored. -/
def outcome (m : ModelDict α) (f : String) : Option String := ((m.anchoring.bind AnchoringSpec.outcomes).getD []).lookup f

/-- The scale of factor `f` in the units of its anchoring outcome: the loading in the anchoring equation. -/
def anchorScale (m : ModelDict α) (val : Loc → ℝ) (t : Nat) (f : String) : ℝ :=
  match outcome m f with
  | some o => val ⟨.loadings, t, o ++ "_" ++ f, f⟩
  | none => 1

open Classical in
/-- The constant of the anchoring equation, unless the user wants to ignore it. -/
noncomputable def anchorConstant (m : ModelDict α) (val : Loc → ℝ) (t : Nat) (f : String) : ℝ :=
  match outcome m f with
  | some o => if AnchorFlag m AnchoringSpec.ignoreConstant then 0 else val ⟨.controls, t, o ++ "_" ++ f, "constant"⟩
  | none => 0

/-- A value of factor `f` in period t in the units of its anchoring outcome (unchanged if it is not anchored). -/
noncomputable def anchoredValue (m : ModelDict α) (val : Loc → ℝ) (t : Nat) (f : String) (x : ℝ) : ℝ := anchorConstant m val t f + anchorScale m val t f * x

open Classical in
/-- The value of factor `f` in period t + 1 before the shock, in the units of its anchoring outcome, if the factors have the values `s` in period t in these units: unchanged for constant factors, otherwise linear in all
factors. -/
noncomputable def nextAnchored (m : ModelDict α) (val : Loc → ℝ) (t : Nat) (s : String → ℝ) (f : String) : ℝ :=
  if HasTransition m f "constant" then s f else linearValue (allFactors m) s (fun name => val ⟨.transition, t, f, name⟩)

/-- The value of factor `f` in period t + 1 before the shock, if the latent factors have the values `s` in period t: the transition function applies to anchored factors. -/
noncomputable def nextState (m : ModelDict α) (val : Loc → ℝ) (cov : Covariates) (t : Nat) (s : String → ℝ) (f : String) : ℝ :=
  (nextAnchored m val t (fun g => if g ∈ latents m then anchoredValue m val t g (s g) else cov.factor t g) f - anchorConstant m val (t + 1) f) / anchorScale m val (t + 1) f

/-- The latent factors in each period. -/
noncomputable def latentStates (m : ModelDict α) (val : Loc → ℝ) (cov : Covariates) (e : Nat) (z : Noise → ℝ) : Nat → String → ℝ
  | 0 => startState m val e z
  | t + 1 => fun f => nextState m val cov t (latentStates m val cov e z t) f + val ⟨.shockSds, t, f, "-"⟩ * z (.shock t f)

open Classical in
/-- The measurement or anchoring outcome `v` in period `t`: linear in the controls and in the factors it measures (or is used to anchor), plus an error. -/
noncomputable def measurementValue (m : ModelDict α) (val : Loc → ℝ) (cov : Covariates) (e : Nat) (z : Noise → ℝ) (t : Nat) (v : String) : ℝ :=
  (("constant" :: m.controls.getD []).map (fun c => val ⟨.controls, t, v, c⟩ * cov.control t c)).sum +
    ((latents m).map (fun f => if Measures m t v f ∨ Anchors m v f then val ⟨.loadings, t, v, f⟩ * latentStates m val cov e z t f else 0)).sum +
    val ⟨.measSds, t, v, "-"⟩ * z (.error t v)

/-- Models whose transition functions are "linear" or "constant" and which have at least two periods and measurements in every period. The names in the section on anchoring (if there is one) can be told apart from each other
and from measurements. `k` is the number of mixture elements (observed factors cannot be used with several elements). -/
structure LinearModel (m : ModelDict α) (k : Nat) : Prop where
  anchoring : CleanAnchoring m ∧ SameOrder m ∧ NoNameClash m
  periods : IsPeriod m 1
  measured : ∀ t, IsPeriod m t → ∃ v f, Measures m t v f
  transitions : ∀ f spec, (f, spec) ∈ m.factors → spec.transition = .named "linear" ∨ spec.transition = .named "constant"
  mixture : HasNMixtures m k
  single : k = 1 ∨ m.observedFactors.getD [] = []

/-- Parameter values for which the likelihood is defined: the mixture weights are positive and sum to one, standard deviations of measurements and the scales of anchored factors are not zero. -/
structure ProperValues (m : ModelDict ℝ) (k : Nat) (val : Loc → ℝ) : Prop where
  positive : ∀ e < k, 0 < val ⟨.mixtureWeights, 0, mixtureName e, "-"⟩
  sum : ∑ e : Fin k, val ⟨.mixtureWeights, 0, mixtureName e, "-"⟩ = 1
  sds : ∀ t v, IsUpdate m t v → val ⟨.measSds, t, v, "-"⟩ ≠ 0
  scales : ∀ t f, IsPeriod m t → anchorScale m val t f ≠ 0

/-- The user switched off the clipping of contributions (there is no upper bound by default). -/
def NoClipping (m : ModelDict α) : Prop :=
  ∃ o, m.estimationOptions = some o ∧ o.clippingLowerBound = some none ∧ (o.clippingUpperBound = none ∨ o.clippingUpperBound = some none)

/-- A smooth version of the maximum; it gets closer to the maximum with increasing `hardness`. -/
noncomputable def smoothMax (hardness a b : ℝ) : ℝ := Real.log (Real.exp (hardness * a) + Real.exp (hardness * b)) / hardness

/-- A smooth version of the minimum. -/
noncomputable def smoothMin (hardness a b : ℝ) : ℝ := -smoothMax hardness (-a) (-b)

/-- The clipped contribution: a smooth maximum with the lower bound (-1e250 if it is not given, no clipping if it is None), then a smooth minimum with the upper bound (no clipping if it is None or not given). The hardness is
1 if it is not given. -/
noncomputable def clippedContribution (o : EstSpec ℝ) (x : ℝ) : ℝ :=
  let atLeast : ℝ → ℝ := match o.clippingLowerBound with
    | none => smoothMax (o.clippingLowerHardness.getD 1) (-1e250)
    | some none => id
    | some (some lower) => smoothMax (o.clippingLowerHardness.getD 1) lower
  let atMost : ℝ → ℝ := match o.clippingUpperBound with
    | none => id
    | some none => id
    | some (some upper) => smoothMin (o.clippingUpperHardness.getD 1) upper
  atMost (atLeast x)

/-- The random numbers are independent and standard normal; the mixture element is drawn independently of them, with the mixture weights as probabilities. -/
structure RandomNoise {Ω : Type} [MeasurableSpace Ω] (P : Measure Ω) (val : Loc → ℝ) {k : ℕ} (E : Ω → Fin k) (Z : Noise → Ω → ℝ) : Prop where
  measurable_element : Measurable E
  measurable : ∀ j, Measurable (Z j)
  normal : ∀ j, P.map (Z j) = gaussianReal 0 1
  independent : iIndepFun Z P
  element_independent : IndepFun E (fun ω j => Z j ω) P
  element_weights : ∀ e : Fin k, P (E ⁻¹' {e}) = ENNReal.ofReal (val ⟨.mixtureWeights, 0, mixtureName e, "-"⟩)

/-- The covariates, if only the measurements that satisfy `p` (with period and name) are observed. -/
noncomputable def Covariates.only (cov : Covariates) (p : Nat → String → Prop) : Covariates :=
  { cov with isObserved := fun t v => @decide (p t v) (Classical.dec _) && cov.isObserved t v }

/-- `v` is a measurement of some factor in period `t` (not just an anchoring outcome). -/
def IsMeasurement (m : ModelDict α) (t : Nat) (v : String) : Prop := ∃ f, Measures m t v f

/-- All updates of the model, in some order. -/
structure Enumerates (m : ModelDict α) (updates : List (Nat × String)) : Prop where
  nodup : updates.Nodup
  all : ∀ t v, (t, v) ∈ updates ↔ IsUpdate m t v

/-- The data of an individual, indexed by the updates; missing measurements are recorded as 0. -/
noncomputable def observedData (updates : List (Nat × String)) (cov : Covariates) (y : Nat → String → ℝ) (k : Fin updates.length) : ℝ :=
  if cov.isObserved (updates.get k).1 (updates.get k).2 then y (updates.get k).1 (updates.get k).2 else 0

/-- Lebesgue measure for observed measurements, a point mass at 0 for missing ones. -/
noncomputable def referenceMeasure (updates : List (Nat × String)) (cov : Covariates) : Measure (Fin updates.length → ℝ) :=
  Measure.pi (fun k => if cov.isObserved (updates.get k).1 (updates.get k).2 then volume else Measure.dirac 0)

/-- `cov` and `y` describe the i-th individual of the dataset: `y` has the values of measurements. Values of controls only matter if they are complete (measurements of a period with incomplete controls count as
missing, see `Kept`). If there are observed factors then their values must be known in all periods. -/
def Describes (m : ModelDict α) (df : LongData ℝ) (ids pers : List Int) (i : Nat) (cov : Covariates) (y : Nat → String → ℝ) : Prop :=
  ∀ t, IsPeriod m t → ∃ r, RowOf df ids pers i t r ∧
    (∀ v, IsUpdate m t v → ∃ a w, ValueIs m r v a ∧ Kept m r t a w ∧ cov.isObserved t v = w.isSome ∧ ∀ b, w = some b → y t v = b) ∧
    (¬IncompleteControls m r t → ∀ c ∈ "constant" :: m.controls.getD [], ∀ a, ValueIs m r c (some a) → cov.control t c = a) ∧
    (∀ f ∈ m.observedFactors.getD [], ¬IncompleteControls m r t ∧ ValueIs m r f (some (cov.factor t f)))

end Skill.Spec
