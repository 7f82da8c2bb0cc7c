import Verif.Model.Pipeline
import Verif.Model.DebugData
/-
skillmodels/filtered_states.py `get_filtered_states`, and `debug_loglike` with the processing of its output (process_debug_data.py `process_debug_data`).

Simplifications: as in Model/Pipeline.lean; no latent factor is called "period" or "id" (its column would be overwritten).
-/
namespace Skill

/-- The DataFrame of filtered states as it is used by anchor_states_df and create_state_ranges (process_debug_data.py:138-144): the columns are the factors, "period" and "id". -/
noncomputable def filteredFrame {n : ℕ} (factors : List String) (rows : List (FilteredRow n)) : StatesFrame ℝ :=
  { columns := factors ++ ["period", "id"]
    rows := rows.map (fun r => (r.period, fun col => if col = "id" then (r.id : ℝ) else if col = "period" then (r.period : ℝ) else (List.ofFn r.values).getD (factors.idxOf col) 0)) }

/-- process_debug_data.py:149-157 `create_state_ranges`: one DataFrame for each factor. -/
noncomputable def createStateRanges (frame : StatesFrame ℝ) (factors : List String) : Dict (List (Nat × ℝ × ℝ)) :=
  factors.map (fun f => (f, createStateRange (frame.rows.map (fun r => (r.1, r.2 f)))))

/-- process_debug_data.py:77-90: the output of debug_loglike. -/
structure DebugData where
  value : ℝ
  contributions : List ℝ
  postUpdateStates : List (DebugRow (List ℝ))
  filteredStates : StatesFrame ℝ
  stateRanges : Dict (List (Nat × ℝ × ℝ))
  residuals : List (DebugRow (Option ℝ))
  residualSds : List (DebugRow (Option ℝ))
  allContributions : List ContributionRow

/-- process_debug_data.py:5-90 `process_debug_data`. -/
noncomputable def processDebugData (u : List URow) (factors : List String) (nObs nMix n : ℕ) (r : LoglikeResult nObs nMix n) : Py DebugData := do
  let post ← createPostUpdateStates (r.outs.map (fun o => o.states)) u
  let filtered ← createFilteredStates r.outs u
  let frame := filteredFrame factors filtered
  let residuals ← processResiduals (r.outs.map (fun o => o.residuals)) u
  let residualSds ← processResiduals (r.outs.map (fun o => o.residualSds)) u
  let contributions ← processAllContributions r.allContributions u
  pure { value := r.value, contributions := List.ofFn r.contributions
         postUpdateStates := post.map (fun d => { value := List.ofFn d.value, mixture := d.mixture, period := d.period, id := d.id, measurement := d.measurement })
         filteredStates := frame, stateRanges := createStateRanges frame factors, residuals := residuals, residualSds := residualSds, allContributions := contributions }

/-- likelihood_function.py:114-122: `debug_loglike(params)`. -/
noncomputable def MaximizationInputs.debugLoglike (qr : QR) (custom : String → CustomFn) (nan : ℝ) (m : ModelDict ℝ) (inputs : MaximizationInputs) (params : List (Loc × ℝ)) : Py DebugData :=
  inputs.evaluate (processDebugData inputs.model.updateInfo inputs.model.labels.latentFactors) qr custom nan m params

/-- filtered_states.py:29-38: a DataFrame of states and the ranges of the states. -/
structure StatesAndRanges where
  states : StatesFrame ℝ
  stateRanges : Dict (List (Nat × ℝ × ℝ))

/-- filtered_states.py:29-38: the output of get_filtered_states. -/
structure FilteredStates where
  anchored : StatesAndRanges
  unanchored : StatesAndRanges

/-- `params.loc[labels]` for a DataFrame with unique labels; a KeyError if a label is missing. (filtered_states.py:14) -/
def locParams {β : Type} (params : List (Loc × β)) (labels : List Loc) : Py (List (Loc × β)) :=
  labels.mapM (fun l =>
    match params.lookup l with
    | some x => .ok (l, x)
    | none => .error .keyError)

/-- filtered_states.py:12-40 `get_filtered_states`. -/
noncomputable def getFilteredStates (qr : QR) (custom : String → CustomFn) (nan : ℝ) (m : ModelDict ℝ) (df : LongData ℝ) (params : List (Loc × ℝ)) : Py FilteredStates := do
  let inputs ← getMaximizationInputs m df
  let params ← locParams params (inputs.template.map Prod.fst)
  let debug ← inputs.debugLoglike qr custom nan m params
  let pm ← processModel m
  let anchored ← anchorStatesDf Real.log debug.filteredStates m params
  pure { anchored := { states := anchored, stateRanges := createStateRanges anchored pm.labels.latentFactors }
         unanchored := { states := debug.filteredStates, stateRanges := debug.stateRanges } }

end Skill
