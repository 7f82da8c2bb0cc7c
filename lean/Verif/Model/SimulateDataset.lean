import Verif.Model.FilteredStates
/-
simulate_data.py `simulate_dataset`: from the model dictionary, the parameter DataFrame and the data to the simulated dataset. The simulation of one individual with given arrays is
`simulateIndividual` in Model/Simulate.lean.

Simplifications: as in Model/Pipeline.lean and Model/Simulate.lean; no variable or factor is called "id" or "period" (its column would be overwritten). The warning of lines 64-68 is not modelled.
-/
namespace Skill

/-- The standard normal draws of one individual: for the start state (by factor), the shocks (by period and factor), the measurement errors (by period and position in the period) and the policies (by
position in the list of policies). (simulate_data.py:198-201, 230, 308-313, 340) -/
inductive Draw
  | start (f : Nat)
  | shock (t f : Nat)
  | error (t k : Nat)
  | policy (k : Nat)
  deriving DecidableEq

/-- All random draws of a simulation, by individual: what `numpy.random.choice` returns, and standard normal draws. (simulate_data.py:198-201, 230, 308-313, 340) -/
structure DatasetDraws where
  element : Nat → Nat
  normal : Nat → Draw → ℝ

/-- The draws of one individual. simulate_data.py:307-310: with one mixture element nothing is drawn, otherwise `choice` returns one of the numbers of mixture elements. -/
def drawsFor (nMix n : ℕ) (draws : DatasetDraws) (i : Nat) : Py (Draws nMix n) :=
  let e := if nMix = 1 then 0 else draws.element i
  if h : e < nMix then
    .ok { element := ⟨e, h⟩, start := fun f => draws.normal i (.start f), shocks := fun t f => draws.normal i (.shock t f), errors := fun t k => draws.normal i (.error t k)
          policies := fun k => draws.normal i (.policy k) }
  else .error .valueError

/-- simulate_data.py:83 `params.reindex(params_index)`, the column "value": additional labels are dropped, missing labels become NaN; a ValueError if the labels are not unique (and not those of the index). -/
def reindexParams (nan : ℝ) (params : List (Loc × ℝ)) (index : List Loc) : Py (List ℝ) :=
  if params.map Prod.fst = index then .ok (params.map Prod.snd)
  else if (params.map Prod.fst).Nodup then .ok (index.map (fun l => (params.lookup l).getD nan))
  else .error .valueError

/-- simulate_data.py:166, 310: `choice` raises a ValueError if the weights do not sum to one (up to a small tolerance, which is not modelled). With one mixture element the weight is not used. -/
noncomputable def checkWeights (nMix : ℕ) (logWeights : Fin nMix → ℝ) : Py Unit :=
  if nMix = 1 ∨ ∑ e, Real.exp (logWeights e) = 1 then .ok () else .error .valueError

/-- simulate_data.py:138-267 `_simulate_dataset`: the simulated states and measurements of each individual. The start distribution is the one of the first individual (lines 166, 183-189). Without individuals line 228
fails (`reshape(0, -1)`). The transition functions are traced with the shapes of the arrays, as in `logLikelihoodJax`. -/
noncomputable def simulateArrays (root : NormalRoot) (nObs nMix nT n nObserved nC : ℕ) (nan : ℝ) (allFactors factors : List String) (fns : Dict TransFn) (kappa : ℝ) (u : List URow) (p : Parsed ℝ)
    (controls observed : List (List (List (Option ℝ)))) (policies : List Policy) (draws : DatasetDraws) : Py (List (Simulated n)) := do
  let fixed ← scanInputs nObs nT n nObserved nC nan allFactors fns kappa p controls observed
  let carry ← initialCarry nObs nMix n p
  let rows ← loopParams n nC u p
  if h : 0 < nObs then
    checkWeights nMix (carry.logWeights ⟨0, h⟩)
    let _ ← transitionFunction allFactors fns (fixed.transition 0) (List.replicate (n + nObserved) 0)
    (List.finRange nObs).mapM (fun (i : Fin nObs) => do
      let d ← drawsFor nMix n draws i.val
      simulateIndividual root fixed rows (fun f => factors.getD f "") policies (carry.states ⟨0, h⟩) (carry.upperChols ⟨0, h⟩) i d)
  else .error .valueError

/-- simulate_data.py:257-265: the rows of the DataFrame of latent states, sorted by id and period. -/
def stateRows {n : ℕ} (sims : List (Simulated n)) : List (FilteredRow n) :=
  sims.zipIdx.flatMap (fun s => s.1.states.zipIdx.map (fun x => { values := x.1, period := x.2, id := s.2 }))

/-- simulate_data.py:237-255: the DataFrame of measurements, sorted by id and period. A variable that is not measured in a period is missing there (`pd.concat`). The order of the columns is not modelled; the columns
"id" and "period" are the index of the rows here. -/
def measurementFrame {n : ℕ} (u : List URow) (sims : List (Simulated n)) : DataFrame ℝ :=
  { columns := (u.map (fun r => r.var)).dedup
    rows := sims.zipIdx.flatMap (fun s => s.1.measurements.zipIdx.map (fun ys =>
      { id := s.2, period := ys.2, cell := fun v => (ys.1.find? (fun y => y.1 == v)).map (fun y => y.2) })) }

/-- simulate_data.py:119-133: the output of simulate_dataset. -/
structure SimulatedDataset where
  unanchored : StatesAndRanges
  anchored : StatesAndRanges
  measurements : DataFrame ℝ

/-- simulate_data.py:54-74: the number of individuals, the controls and the observed factors. Without data, the array of controls of line 72 has no axis for periods: `control_data[t]` is the single control variable 1 for every t
(jax indexing does not raise errors and uses the last entry if t is too large), which is the same as an array of ones for each period. -/
noncomputable def simulationData (pm : Processed ℝ) (nObs : Option ℕ) (data : Option (LongData ℝ)) : Py (ℕ × List (List (List (Option ℝ))) × List (List (List (Option ℝ)))) :=
  match data with
  | some df => do
    let d ← processData df pm.labels pm.updateInfo pm.anchoring .simulation
    pure ((d.controls.headD []).length, d.controls, d.observedFactors)
  | none =>
    let n := nObs.getD 0
    pure (n, List.replicate pm.dimensions.nPeriods (List.replicate n [some 1]), List.replicate pm.dimensions.nPeriods (List.replicate n []))

/-- simulate_data.py:100-133: the simulation and the DataFrames of the output; `n` is the number of individuals and `vec` are the values of the parameters. -/
noncomputable def simulateProcessed (root : NormalRoot) (custom : String → CustomFn) (nan : ℝ) (m : ModelDict ℝ) (pm : Processed ℝ) (vec : List ℝ) (n : ℕ) (controls observed : List (List (List (Option ℝ))))
    (policies : List Policy) (draws : DatasetDraws) (p : Parsed ℝ) : Py SimulatedDataset := do
  let d := pm.dimensions
  let sims ← simulateArrays root n d.nMixtures (d.nPeriods - 2) d.nLatentFactors d.nObservedFactors d.nControls nan pm.labels.allFactors pm.labels.latentFactors (transitionFns custom m)
    pm.estimationOptions.sigmaPointsScale pm.updateInfo p controls observed policies draws
  let states := filteredFrame pm.labels.latentFactors (stateRows sims)
  let anchored ← anchorStatesDf Real.log states m (pm.paramsIndex.zip vec)
  pure { unanchored := { states := states, stateRanges := createStateRanges states pm.labels.latentFactors }
         anchored := { states := anchored, stateRanges := createStateRanges anchored pm.labels.latentFactors }
         measurements := measurementFrame pm.updateInfo sims }

/-- simulate_data.py:20-135 `simulate_dataset`. A model with fewer than two periods fails in parse_params (C64). -/
noncomputable def simulateDataset (root : NormalRoot) (custom : String → CustomFn) (nan : ℝ) (m : ModelDict ℝ) (params : List (Loc × ℝ)) (nObs : Option ℕ) (data : Option (LongData ℝ)) (policies : List Policy)
    (draws : DatasetDraws) : Py SimulatedDataset :=
  if data.isNone && nObs.isNone then .error .valueError
  else do
    let pm ← processModel m
    if data.isNone && decide (pm.labels.observedFactors ≠ []) then .error .valueError
    else if data.isNone && decide (pm.labels.controls ≠ ["constant"]) then .error .valueError
    else do
      let (n, controls, observed) ← simulationData pm nObs data
      let vec ← reindexParams nan params pm.paramsIndex
      let info ← createParsingInfo pm.paramsIndex pm.updateInfo pm.labels pm.anchoring
      let p ← parseParams Real.log vec info pm.dimensions pm.labels n
      simulateProcessed root custom nan m pm vec n controls observed policies draws p

end Skill
