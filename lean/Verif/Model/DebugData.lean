import Verif.Model.Likelihood
import Verif.Model.ParseParams
/-
skillmodels/process_debug_data.py and `anchor_states_df` of skillmodels/filtered_states.py.

Rows of DataFrames are structures; the columns with the latent factors are the field `values`.
-/
namespace Skill
variable {nObs nMix n : ℕ}

/-- A row of the DataFrames residuals, residual_sds and post_update_states. (process_debug_data.py:96-99, 164-168) -/
structure DebugRow (β : Type) where
  value : β
  mixture : Nat
  period : Nat
  id : Nat
  measurement : String

/-- process_debug_data.py:114-116 and 164-165: `data.reshape(-1, k)` of an array of shape (n_obs, n_mixtures, k) and the column "mixture". -/
def flattenMixtures {β : Type} (data : Fin nObs → Fin nMix → β) : List (β × Nat) :=
  (List.finRange nObs).flatMap (fun i => (List.finRange nMix).map (fun e => (data i e, e.val)))

/-- The DataFrame of one update (process_debug_data.py:95-99 and 163-168); the id column is `np.arange(len(df))`. -/
def debugBlock {β : Type} (row : URow) (data : Fin nObs → Fin nMix → β) : List (DebugRow β) :=
  (flattenMixtures data).zipIdx.map (fun x => { value := x.1.1, mixture := x.1.2, period := row.period, id := x.2, measurement := row.var })

/-- process_debug_data.py:93-104 `_create_post_update_states`. `pd.concat` of an empty list is a ValueError. -/
def createPostUpdateStates (states : List (Fin nObs → Fin nMix → Fin n → ℝ)) (u : List URow) : Py (List (DebugRow (Fin n → ℝ))) :=
  let blocks := (u.zip states).map (fun x => debugBlock x.1 x.2)
  if blocks = [] then .error .valueError else .ok blocks.flatten

/-- process_debug_data.py:160-170 `_process_residuals` and 173-174 `_process_residual_sds`; `residuals[0]` is an IndexError without updates. -/
def processResiduals (residuals : List (Fin nObs → Fin nMix → Option ℝ)) (u : List URow) : Py (List (DebugRow (Option ℝ))) :=
  if residuals = [] then .error .indexError
  else
    let blocks := (u.zip residuals).map (fun x => debugBlock x.1 x.2)
    if blocks = [] then .error .valueError else .ok blocks.flatten

/-- A row of all_contributions. (process_debug_data.py:180-183) -/
structure ContributionRow where
  contribution : ℝ
  measurement : String
  period : Nat
  id : Nat

/-- process_debug_data.py:177-185 `_process_all_contributions` -/
noncomputable def processAllContributions (contributions : List (Fin nObs → ℝ)) (u : List URow) : Py (List ContributionRow) :=
  let blocks := (u.zip contributions).map (fun x => (List.finRange nObs).map (fun i => ({ contribution := x.2 i, measurement := x.1.var, period := x.1.period, id := i.val } : ContributionRow)))
  if blocks = [] then .error .valueError else .ok blocks.flatten

/-- A row of filtered_states. (process_debug_data.py:139-141) -/
structure FilteredRow (n : ℕ) where
  values : Fin n → ℝ
  period : Nat
  id : Nat

/-- process_debug_data.py:130-132: the last measurement of a period; an IndexError if there is none. -/
def lastMeasurement (u : List URow) (period : Nat) : Py String :=
  match (u.filter (fun r => decide (r.purpose = .measurement) && r.period == period)).getLast? with
  | some r => .ok r.var
  | none => .error .indexError

/-- process_debug_data.py:128-135: the positions of the updates that are kept. -/
def keepUpdates (u : List URow) : Py (List Nat) := do
  let keep ← u.zipIdx.mapM (fun x => do
    let last ← lastMeasurement u x.1.period
    pure (if x.1.var = last then [x.2] else []))
  pure keep.flatten

/-- process_debug_data.py:126: average over the mixture elements. -/
noncomputable def aggregate (states : Fin nObs → Fin nMix → Fin n → ℝ) (logWeights : Fin nObs → Fin nMix → ℝ) : Fin nObs → Fin n → ℝ :=
  fun i f => ∑ e, states i e f * Real.exp (logWeights i e)

/-- process_debug_data.py:120-146 `_create_filtered_states`: line 138 labels the kept updates 0, 1, 2, … -/
noncomputable def createFilteredStates (outs : List (StepOut nObs nMix n)) (u : List URow) : Py (List (FilteredRow n)) := do
  let keep ← keepUpdates u
  let blocks ← keep.zipIdx.mapM (fun x => do
    let out ← pyIndex outs x.1
    pure ((List.finRange nObs).map (fun i => ({ values := aggregate out.states out.logWeights i, period := x.2, id := i.val } : FilteredRow n))))
  if blocks = [] then .error .valueError else pure blocks.flatten

/-- The minimum of a non-empty list. (`min` in process_debug_data.py:151) -/
noncomputable def listMin : List ℝ → ℝ
  | [] => 0
  | x :: xs => xs.foldl min x

/-- The maximum of a non-empty list. (`max` in process_debug_data.py:152) -/
noncomputable def listMax : List ℝ → ℝ
  | [] => 0
  | x :: xs => xs.foldl max x

/-- process_debug_data.py:149-157 `create_state_ranges` for one factor, where `rows` are the pairs of period and state: `groupby("period")` has one group for each
period that occurs, in increasing order. The result has the columns period, minimum, maximum. -/
noncomputable def createStateRange (rows : List (Nat × ℝ)) : List (Nat × ℝ × ℝ) :=
  let periods := (List.range ((rows.map Prod.fst).foldl max 0 + 1)).filter (fun t => rows.any (fun r => r.1 == t))
  periods.map (fun t =>
    let group := (rows.filter (fun r => r.1 == t)).map Prod.snd
    (t, listMin group, listMax group))

/-! ### anchoring of states -/

/-- A DataFrame of states: it has a column "period" (integers) and other columns. (argument states_df of filtered_states.py:43) -/
structure StatesFrame (β : Type) where
  columns : List String
  rows : List (Nat × (String → β))

/-- filtered_states.py:83-91. `scaling` and `constants` are the arrays of parse_params; an IndexError for a period that the model does not have, a KeyError if there is
no column for a factor. The assigned values only use the columns of the original DataFrame. -/
def anchorStates {β : Type} [Add β] [Mul β] (df : StatesFrame β) (factors : List String) (scaling constants : List (List β)) : Py (StatesFrame β) := do
  let selected ← df.rows.mapM (fun r => do
    let s ← pyIndex scaling r.1
    let c ← pyIndex constants r.1
    pure (r, s, c))
  if factors.all (fun f => decide (f ∈ df.columns)) then
    let rows ← selected.mapM (fun (r, s, c) => do
      let new ← factors.zipIdx.mapM (fun f => do
        let sf ← pyIndex s f.2
        let cf ← pyIndex c f.2
        pure (f.1, cf + r.2 f.1 * sf))
      pure (r.1, fun col => (Dict.get? new col).getD (r.2 col)))
    pure { df with rows := rows }
  else .error .keyError

/-- filtered_states.py:43-93 `anchor_states_df`. Line 64 selects the parameters by their labels (KeyError if one is missing; simplification: labels of params are unique). -/
def anchorStatesDf {α β : Type} [OfScientific α] [Neg α] [Zero α] [One α] [OfNat α 2] [DecidableEq α] [Zero β] [One β] [Add β] [Mul β]
    (log : β → β) (df : StatesFrame β) (m : ModelDict α) (params : List (Loc × β)) : Py (StatesFrame β) := do
  let pm ← processModel m
  let values ← pm.paramsIndex.mapM (fun l =>
    match params.lookup l with
    | some x => .ok x
    | none => .error .keyError)
  let parsed ← pm.parse log values 1
  anchorStates df pm.labels.latentFactors parsed.scalingFactors parsed.anchoringConstants

end Skill
