import Verif.Model.Likelihood
/-
skillmodels/simulate_data.py, over the reals, and the construction of the loop arguments of the likelihood.

The random number generators are modelled by standard normal draws: `multivariate_normal(mean, cov)` is `mean + root cov *ᵥ z` where `root` is
the factorization of numpy (the theorems assume that `root cov * (root cov)ᵀ = cov` for positive semidefinite matrices) and z are the draws.
-/
namespace Skill
open Matrix
variable {nObs nMix n nT nObserved nC : ℕ} {θ : Type}

/-- One row of the parameter DataFrames that are indexed like update_info (simulate_data.py:167-178): loadings, control_params, meas_sds, and the purpose
of the update. -/
structure UpdateParams (n nC : ℕ) where
  period : Nat
  var : String
  isMeasurement : Bool
  loadings : Fin n → ℝ
  controlParams : Fin nC → ℝ
  sd : ℝ

/-- likelihood_function.py:73-81 and 246-254: the arguments of the loop of the filter, for the measurements `data` (one list entry per update). -/
def loopArgs (lastPeriod : Nat) (rows : List (UpdateParams n nC)) (data : List (Fin nObs → Option ℝ)) : List (LoopArgs nObs n nC) :=
  ((rows.zip data).zip ((iterationToPeriod lastPeriod (rows.map (fun r => r.period))).zip (isPredictIteration (rows.map (fun r => r.period))))).map
    (fun x => { period := x.2.1, loadings := x.1.1.loadings, controlParams := x.1.1.controlParams, measSd := x.1.1.sd, measurements := x.1.2
                isMeasurement := x.1.1.isMeasurement, isPredict := x.2.2 })

/-- The factorization of covariance matrices used by numpy's `multivariate_normal`. (simulate_data.py:230, 308, 313, 340) -/
abbrev NormalRoot := (k : ℕ) → Matrix (Fin k) (Fin k) ℝ → Matrix (Fin k) (Fin k) ℝ

/-- numpy.random.multivariate_normal for one individual, with the standard normal draws `z`. (simulate_data.py:230, 308, 313, 340) -/
noncomputable def multivariateNormal (root : NormalRoot) {k : ℕ} (mean : Fin k → ℝ) (cov : Matrix (Fin k) (Fin k) ℝ) (z : Fin k → ℝ) : Fin k → ℝ :=
  mean + root k cov *ᵥ z

/-- An element of the argument `policies`. (simulate_data.py:196-201) -/
structure Policy where
  period : Nat
  factor : String
  effectSize : ℝ
  standardDeviation : ℝ

/-- All random draws of one individual: the mixture element (numpy.random.choice), and standard normal draws for the start state, the shocks of each
transition, the measurement errors of each period (by period and position in the period) and the policies (by their position in the list). (simulate_data.py:198-201, 230, 308-313, 340) -/
structure Draws (nMix n : ℕ) where
  element : Fin nMix
  start : Fin n → ℝ
  shocks : Nat → Fin n → ℝ
  errors : Nat → Nat → ℝ
  policies : Nat → ℝ

/-- simulate_data.py:270-288 `_get_shock` for one individual. -/
noncomputable def getShock (mean sd z : ℝ) : Py ℝ :=
  if sd = 0 then .ok mean else if 0 < sd then .ok (mean + sd * z) else .error .valueError

/-- simulate_data.py:195-201: add the shocks of the policies of period t; `labels["latent_factors"].index` raises a ValueError for other names. -/
noncomputable def applyPolicies (factors : Fin n → String) (t : Nat) (draws : Nat → ℝ) : List (Policy × Nat) → (Fin n → ℝ) → Py (Fin n → ℝ)
  | [], x => .ok x
  | (p, k) :: ps, x =>
    if p.period = t then do
      match (List.finRange n).find? (fun f => factors f == p.factor) with
      | none => .error .valueError
      | some f =>
        let shock ← getShock p.effectSize p.standardDeviation (draws k)
        applyPolicies factors t draws ps (Function.update x f (x f + shock))
    else applyPolicies factors t draws ps x

/-- simulate_data.py:203-235: the states of the next period of individual i. -/
noncomputable def nextStates (root : NormalRoot) (fixed : ScanFixed nObs nT n nObserved nC θ) (i : Fin nObs) (t : Nat) (x z : Fin n → ℝ) : Fin n → ℝ :=
  let states : Fin (n + nObserved) → ℝ := Fin.append x (fixed.observed (jaxIndex (nT + 1) t) i)
  let next := transformSigmaPoints (nObs := 1) (nMix := 1) (nSigma := 1) (fun _ _ _ => states) (fixed.func (fixed.transition (jaxIndex nT t)))
    ![fixed.scaling (jaxIndex (nT + 1) t), fixed.scaling (jaxIndex (nT + 1) (t + 1))]
    ![fixed.constants (jaxIndex (nT + 1) t), fixed.constants (jaxIndex (nT + 1) (t + 1))] 0 0 0
  next + multivariateNormal root 0 (diagonal (fun f => fixed.shockSds (jaxIndex nT t) f ^ 2)) z

/-- simulate_data.py:191-235: the latent states of one individual from period `t` on, when `k` transitions are left. -/
noncomputable def simulateStates (root : NormalRoot) (fixed : ScanFixed nObs nT n nObserved nC θ) (factors : Fin n → String) (policies : List Policy) (i : Fin nObs)
    (d : Draws nMix n) : (k t : Nat) → (Fin n → ℝ) → Py (List (Fin n → ℝ))
  | 0, _, x => .ok [x]
  | k + 1, t, x => do
    let x' ← applyPolicies factors t d.policies policies.zipIdx x
    let rest ← simulateStates root fixed factors policies i d k (t + 1) (nextStates root fixed i t x' (d.shocks t))
    pure (x' :: rest)

/-- simulate_data.py:318-344 `measurements_from_states` for one individual and the measurements `rows` of a period. -/
noncomputable def measurementsFromStates (root : NormalRoot) (x : Fin n → ℝ) (controls : Fin nC → ℝ) (rows : List (UpdateParams n nC)) (z : Nat → ℝ) :
    List (String × ℝ) :=
  let epsilon := multivariateNormal root 0 (diagonal (fun k => (rows.get k).sd ^ 2)) (fun k => z k.val)
  (List.finRange rows.length).map (fun k => ((rows.get k).var, x ⬝ᵥ (rows.get k).loadings + controls ⬝ᵥ (rows.get k).controlParams + epsilon k))

/-- simulate_data.py:237-255: the measurements of one individual in all periods; `loadings_df.loc[t]` is a KeyError if there are no updates in a period. -/
noncomputable def simulateMeasurements (root : NormalRoot) (fixed : ScanFixed nObs nT n nObserved nC θ) (rows : List (UpdateParams n nC)) (i : Fin nObs) (d : Draws nMix n)
    (states : List (Fin n → ℝ)) : Py (List (List (String × ℝ))) :=
  states.zipIdx.mapM (fun x =>
    let rowsT := rows.filter (fun r => r.period == x.2)
    if rowsT = [] then .error .keyError
    else .ok (measurementsFromStates root x.1 (fixed.controls (jaxIndex (nT + 1) x.2) i) rowsT (d.errors x.2)))

/-- simulate_data.py:183-192 and 291-315 `generate_start_states`, for one individual: with one mixture element the element is the only one. Simplification: the weights are only used
for the law of `element`; `choice` raises a ValueError if they do not sum to one. -/
noncomputable def generateStartStates (root : NormalRoot) (means : Fin nMix → Fin n → ℝ) (upperChols : Fin nMix → Matrix (Fin n) (Fin n) ℝ) (d : Draws nMix n) : Fin n → ℝ :=
  multivariateNormal root (means d.element) ((upperChols d.element)ᵀ * upperChols d.element) d.start

/-- The simulated data of one individual: for each period the latent states and the measurements with their names. (result of simulate_data.py:138-267) -/
structure Simulated (n : ℕ) where
  states : List (Fin n → ℝ)
  measurements : List (List (String × ℝ))

/-- simulate_data.py:138-267 `_simulate_dataset`, for one individual: the rows of observed_data and latent_data with this id, sorted by period. -/
noncomputable def simulateIndividual (root : NormalRoot) (fixed : ScanFixed nObs nT n nObserved nC θ) (rows : List (UpdateParams n nC)) (factors : Fin n → String)
    (policies : List Policy) (means : Fin nMix → Fin n → ℝ) (upperChols : Fin nMix → Matrix (Fin n) (Fin n) ℝ) (i : Fin nObs) (d : Draws nMix n) : Py (Simulated n) := do
  let states ← simulateStates root fixed factors policies i d (nT + 1) 0 (generateStartStates root means upperChols d)
  let measurements ← simulateMeasurements root fixed rows i d states
  pure { states := states, measurements := measurements }

end Skill
