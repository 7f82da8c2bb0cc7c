import Verif.Spec.LabelModel
import Verif.Spec.Simulation
import Verif.Spec.FilteredStates
import Verif.Model.SimulateDataset
/-
What simulate_dataset should do, in terms of the names of the user: `val` gives the value of the parameter with a given label.
-/
namespace Skill.Spec
open MeasureTheory ProbabilityTheory

/-! ### models, parameters and individuals -/

/-- Models that can be simulated: names that can be told apart, at least two periods, at least one update in every period, and `k` mixture elements. -/
structure SimulationModel (m : ModelDict ℝ) (k : Nat) : Prop where
  names : GoodNames m
  anchoring : CleanAnchoring m ∧ SameOrder m ∧ NoNameClash m
  safe : ∀ f, IsLatent m f → querySafe f
  columns : ∀ f, (IsLatent m f ∨ ∃ t, IsUpdate m t f) → f ≠ "period" ∧ f ≠ "id"
  periods : IsPeriod m 1
  updates : ∀ t, IsPeriod m t → ∃ v, IsUpdate m t v
  mixture : HasNMixtures m k
  elements : k ≠ 0

/-- The DataFrame of parameters has the value `val l` for each label `l` of the model. It may have other rows, and the order of the rows does not matter. -/
structure HasParams (m : ModelDict ℝ) (params : List (Loc × ℝ)) (val : Loc → ℝ) : Prop where
  unique : (params.map Prod.fst).Nodup
  values : ∀ l, IsParam m l → (l, val l) ∈ params

/-- Parameter values and policies for which the model can be simulated: positive mixture weights that sum to one, transition functions that can be evaluated, and policies (before the last period) for latent factors with a
standard deviation that is not negative. -/
structure SimulationValues (custom : String → CustomFn) (m : ModelDict ℝ) (k : Nat) (val : Loc → ℝ) (policies : List Policy) : Prop where
  positive : ∀ e < k, 0 < val ⟨.mixtureWeights, 0, mixtureName e, "-"⟩
  sum : ∑ e : Fin k, val ⟨.mixtureWeights, 0, mixtureName e, "-"⟩ = 1
  usable : ∀ t, IsPeriod m (t + 1) → ∀ fs ∈ m.factors, TransFn.Usable (allFactors m) (fun name => val ⟨.transition, t, fs.1, name⟩) (transFnOf (custom fs.1) fs.2.transition)
  policies : ∀ p ∈ policies, IsPeriod m (p.period + 1) → IsLatent m p.factor ∧ 0 ≤ p.standardDeviation

/-- `cov` has the values of the control variables and observed factors of the i-th individual of the dataset, in all periods. -/
def KnownCovariates (m : ModelDict ℝ) (df : LongData ℝ) (ids pers : List Int) (i : Nat) (cov : Covariates) : Prop :=
  ∀ t, IsPeriod m t → ∃ r, RowOf df ids pers i t r ∧ (∀ c ∈ "constant" :: m.controls.getD [], ValueIs m r c (some (cov.control t c))) ∧
    ∀ f ∈ m.observedFactors.getD [], ValueIs m r f (some (cov.factor t f))

/-- The arguments `n_obs` and `data` of simulate_dataset describe `n` individuals with the covariates `cov`: with a dataset, the individuals of the dataset (whatever n_obs is). Without a dataset the model must not have
control variables or observed factors, and n_obs is the number of individuals. -/
inductive Individuals (m : ModelDict ℝ) : Option Nat → Option (LongData ℝ) → (n : Nat) → (Nat → Covariates) → Prop
  | ofData {nObs : Option Nat} {df : LongData ℝ} {ids pers : List Int} {cov : Nat → Covariates} : IndexOk df → NoUnusedPeriods df → IdsOf df ids → PeriodsOf df pers → SimulationDataOk m df ids pers →
      (∀ i < ids.length, KnownCovariates m df ids pers i (cov i)) → Individuals m nObs (some df) ids.length cov
  | ofNumber {n : Nat} {cov : Nat → Covariates} : m.controls.getD [] = [] → m.observedFactors.getD [] = [] → (∀ i < n, ∀ t, (cov i).control t "constant" = 1) → Individuals m (some n) none n cov

/-! ### the statistical model -/

/-- The transition function of factor `f`. -/
def transitionOf (custom : String → CustomFn) (m : ModelDict ℝ) (f : String) : TransFn := ((m.factors.lookup f).map (fun spec => transFnOf (custom f) spec.transition)).getD (.builtin "constant")

/-- The value of factor `f` in period t + 1 before the shock, if the latent factors have the values `s` in period t: the transition function applies to anchored factors and gives an anchored factor. -/
noncomputable def factorNext (custom : String → CustomFn) (m : ModelDict ℝ) (val : Loc → ℝ) (cov : Covariates) (t : Nat) (s : String → ℝ) (f : String) : ℝ :=
  (nextValue (allFactors m) (fun g => if g ∈ latents m then anchoredValue m val t g (s g) else cov.factor t g) (fun name => val ⟨.transition, t, f, name⟩) f (transitionOf custom m f)
    - anchorConstant m val (t + 1) f) / anchorScale m val (t + 1) f

/-- User written transition functions are measurable functions of the factors. -/
def MeasurableCustom (custom : String → CustomFn) (m : ModelDict ℝ) : Prop :=
  ∀ fs ∈ m.factors, ∀ args names body, transFnOf (custom fs.1) fs.2.transition = .custom args names body → ∀ v, Measurable (fun x : String → ℝ => nextValue (allFactors m) x v fs.1 (.custom args names body))

/-- The random numbers of an individual in a simulation: those of the model, and one for each policy. -/
inductive SimulationNoise where
  | model (j : Noise)
  | policy (k : Nat)

open Classical in
/-- The sum of the effects of all policies on factor `f` in period `t`. Policies in the last period have no effect. -/
noncomputable def effectOf (m : ModelDict ℝ) (policies : List Policy) (z : SimulationNoise → ℝ) (t : Nat) (f : String) : ℝ :=
  if IsPeriod m (t + 1) then policyEffect policies (fun k => z (.policy k)) t f else 0

/-- The latent factors in each period: a start value, then transitions with shocks; the effects of the policies of a period are added to the factors of the period. -/
noncomputable def simulatedStates (custom : String → CustomFn) (m : ModelDict ℝ) (val : Loc → ℝ) (cov : Covariates) (policies : List Policy) (e : Nat) (z : SimulationNoise → ℝ) : Nat → String → ℝ
  | 0 => fun f => startState m val e (fun j => z (.model j)) f + effectOf m policies z 0 f
  | t + 1 => fun f => factorNext custom m val cov t (simulatedStates custom m val cov policies e z t) f + val ⟨.shockSds, t, f, "-"⟩ * z (.model (.shock t f)) + effectOf m policies z (t + 1) f

open Classical in
/-- The measurement or anchoring outcome `v` in period `t` if the latent factors are `states`: linear in the controls and in the factors it measures (or is used to anchor), plus an error. -/
noncomputable def measurementWith (m : ModelDict ℝ) (val : Loc → ℝ) (cov : Covariates) (states : Nat → String → ℝ) (error : ℝ) (t : Nat) (v : String) : ℝ :=
  (("constant" :: m.controls.getD []).map (fun c => val ⟨.controls, t, v, c⟩ * cov.control t c)).sum +
    ((latents m).map (fun f => if Measures m t v f ∨ Anchors m v f then val ⟨.loadings, t, v, f⟩ * states t f else 0)).sum + error

/-- The cells of a simulated dataset for one individual: a latent factor in a period, or a measurement in a period. -/
abbrev Cell (m : ModelDict ℝ) := {p : Nat × String // IsPeriod m p.1 ∧ p.2 ∈ latents m} ⊕ {p : Nat × String // IsUpdate m p.1 p.2}

/-- The values of all cells of an individual in the statistical model. -/
noncomputable def modelCells (custom : String → CustomFn) (m : ModelDict ℝ) (val : Loc → ℝ) (cov : Covariates) (policies : List Policy) (e : Nat) (z : SimulationNoise → ℝ) : Cell m → ℝ
  | .inl c => simulatedStates custom m val cov policies e z c.1.1 c.1.2
  | .inr c => measurementWith m val cov (simulatedStates custom m val cov policies e z) (val ⟨.measSds, c.1.1, c.1.2, "-"⟩ * z (.model (.error c.1.1 c.1.2))) c.1.1 c.1.2

/-- The random numbers are independent and standard normal; the mixture element is drawn independently of them, with the mixture weights as probabilities. -/
structure RandomSimulationNoise {Ω : Type} [MeasurableSpace Ω] (P : Measure Ω) (val : Loc → ℝ) {k : ℕ} (E : Ω → Fin k) (Z : SimulationNoise → Ω → ℝ) : Prop where
  measurable_element : Measurable E
  measurable : ∀ j, Measurable (Z j)
  normal : ∀ j, P.map (Z j) = gaussianReal 0 1
  independent : iIndepFun Z P
  element_independent : IndepFun E (fun ω j => Z j ω) P
  element_weights : ∀ e : Fin k, P (E ⁻¹' {e}) = ENNReal.ofReal (val ⟨.mixtureWeights, 0, mixtureName e, "-"⟩)

/-! ### the random number generator and the output -/

/-- The draws of the random number generator: mixture elements and standard normal numbers, by individual. -/
def drawsWith {k : ℕ} (element : Nat → Fin k) (normal : Nat → Draw → ℝ) : DatasetDraws := { element := fun i => (element i).val, normal := normal }

/-- The random number generator works as documented: for each individual, all standard normal draws are independent and standard normal, and the mixture element is drawn with the mixture weights as probabilities and
independently of them. The draws for different individuals are independent. -/
structure RandomDatasetDraws {Ω : Type} [MeasurableSpace Ω] (P : Measure Ω) (val : Loc → ℝ) {k : ℕ} (E : Nat → Ω → Fin k) (Z : Nat → Draw → Ω → ℝ) : Prop where
  measurable_element : ∀ i, Measurable (E i)
  measurable : ∀ i j, Measurable (Z i j)
  normal : ∀ i j, P.map (Z i j) = gaussianReal 0 1
  independent : ∀ i, iIndepFun (Z i) P
  element_independent : ∀ i, IndepFun (E i) (fun ω j => Z i j ω) P
  element_weights : ∀ i (e : Fin k), P (E i ⁻¹' {e}) = ENNReal.ofReal (val ⟨.mixtureWeights, 0, mixtureName e, "-"⟩)
  individuals : iIndepFun (fun i ω => (E i ω, fun j => Z i j ω)) P

/-- The simulated dataset `out` has `n` individuals with the cells `x`: all DataFrames have one row for each individual and period, sorted by individual and period. The anchored states are in the units of the anchoring
outcomes. A variable that is not measured in a period is missing there. -/
structure DatasetIs (m : ModelDict ℝ) (val : Loc → ℝ) (n : Nat) (x : Nat → Cell m → ℝ) (out : SimulatedDataset) : Prop where
  size : ∀ N, IsNPeriods m N → out.unanchored.states.rows.length = n * N ∧ out.anchored.states.rows.length = n * N ∧ out.measurements.rows.length = n * N
  columns : (∀ c, c ∈ out.unanchored.states.columns ↔ c ∈ latents m ∨ c = "period" ∨ c = "id") ∧ (∀ c, c ∈ out.anchored.states.columns ↔ c ∈ latents m ∨ c = "period" ∨ c = "id") ∧
    ∀ v, v ∈ out.measurements.columns ↔ ∃ t, IsUpdate m t v
  unanchored : ∀ N, IsNPeriods m N → ∀ i < n, ∀ t < N, ∃ cells, out.unanchored.states.rows[i * N + t]? = some (t, cells) ∧ cells "id" = i ∧ cells "period" = t ∧
    ∀ c : {p : Nat × String // IsPeriod m p.1 ∧ p.2 ∈ latents m}, c.1.1 = t → cells c.1.2 = x i (.inl c)
  anchored : ∀ N, IsNPeriods m N → ∀ i < n, ∀ t < N, ∃ cells, out.anchored.states.rows[i * N + t]? = some (t, cells) ∧ cells "id" = i ∧ cells "period" = t ∧
    ∀ c : {p : Nat × String // IsPeriod m p.1 ∧ p.2 ∈ latents m}, c.1.1 = t → cells c.1.2 = anchoredValue m val t c.1.2 (x i (.inl c))
  measurements : ∀ N, IsNPeriods m N → ∀ i < n, ∀ t < N, ∃ r, out.measurements.rows[i * N + t]? = some r ∧ r.id = i ∧ r.period = t ∧
    (∀ c : {p : Nat × String // IsUpdate m p.1 p.2}, c.1.1 = t → r.cell c.1.2 = some (x i (.inr c))) ∧ ∀ v, ¬ IsUpdate m t v → r.cell v = none
  ranges : RangesOf (latents m) out.unanchored.states.rows out.unanchored.stateRanges ∧ RangesOf (latents m) out.anchored.states.rows out.anchored.stateRanges

/-- The dataset with the same index and cells, as in `df.set_index(["id", "period"])`. -/
def asDataset (df : DataFrame ℝ) : LongData ℝ :=
  { columns := df.columns
    idLevel := (df.rows.map (fun r => (r.id : Int))).dedup
    periodLevel := (df.rows.map (fun r => (r.period : Int))).dedup
    rows := df.rows.map (fun r => { id := r.id, period := r.period, cell := r.cell }) }

/-- The cell of a measurement. -/
def measurementCell {m : ModelDict ℝ} {updates : List (Nat × String)} (h : Enumerates m updates) (j : Fin updates.length) : Cell m := .inr ⟨updates.get j, (h.all _ _).mp (List.get_mem updates j)⟩

/-- An individual without control variables and observed factors, all of whose measurements are observed. -/
def noCovariates : Covariates := { control := fun _ _ => 1, factor := fun _ _ => 0, isObserved := fun _ _ => true }

end Skill.Spec
