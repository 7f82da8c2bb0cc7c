import Verif.Model.ParamsIndex
/-
skillmodels/parse_params.py and `_get_jnp_params_vec` of skillmodels/likelihood_function.py.

Arrays are nested lists; `β` is the type of numbers.
-/
namespace Skill
variable {α β : Type}

/-! ### array operations -/

/-- Cut a list into `n` pieces of length `k`. (part of `reshape` in parse_params.py:147, 160, 177, 185, 196, 206, 219, 243) -/
def chunks (n k : Nat) (xs : List β) : List (List β) :=
  (List.range n).map (fun i => (xs.drop (i * k)).take k)

/-- `x.reshape(n, -1)` for a 1d array; an error if `n` is 0 or does not divide the size. (parse_params.py:160, 206, 219, 243) -/
def reshapeRows (n : Nat) (xs : List β) : Py (List (List β)) :=
  if n = 0 then .error .valueError
  else if xs.length % n = 0 then .ok (chunks n (xs.length / n) xs)
  else .error .valueError

/-- `x.reshape(-1, k)` for a 1d array. (parse_params.py:177, 196) -/
def reshapeCols (k : Nat) (xs : List β) : Py (List (List β)) :=
  if k = 0 then .error .valueError
  else if xs.length % k = 0 then .ok (chunks (xs.length / k) k xs)
  else .error .valueError

/-- `x.reshape(n, k)` for a 1d array. (parse_params.py:147-149, 185) -/
def reshape2 (n k : Nat) (xs : List β) : Py (List (List β)) :=
  if xs.length = n * k then .ok (chunks n k xs) else .error .valueError

/-- `params[positions]`. Simplification: jax clamps positions that are out of bounds, here they are
an error; they do not occur for parameter vectors that have the length of the index. (parse_params.py:147, 160, 171, 177, 183, 191, 196, 206) -/
def gather (params : List β) (positions : List Nat) : Py (List β) :=
  positions.mapM (pyIndex params)

/-- Broadcast a 1d array to length `n` (assignment to `n` array elements). (assignments in parse_params.py:164, 184, 222, 246) -/
def broadcast (n : Nat) (xs : List β) : Py (List β) :=
  if xs.length = n then .ok xs
  else match xs with
    | [x] => .ok (List.replicate n x)
    | _ => .error .valueError

/-- `zeros(size).at[positions].set(values)`: values are assigned to distinct positions. (parse_params.py:184) -/
def scatter [Zero β] (size : Nat) (positions : List Nat) (values : List β) : Py (List β) := do
  let values ← broadcast positions.length values
  pure ((List.range size).map (fun i => ((positions.zip values).lookup i).getD 0))

/-- `jnp.tril_indices(n)`: positions of the lower triangle, row by row. (parse_params.py:164) -/
def trilIndices (n : Nat) : List (Nat × Nat) :=
  (List.range n).flatMap (fun i => (List.range (i + 1)).map (fun j => (i, j)))

/-- `zeros((n, n)).at[jnp.tril_indices(n)].set(values)` (parse_params.py:163-164) -/
def fillTril [Zero β] (n : Nat) (values : List β) : Py (List (List β)) := do
  let values ← broadcast (trilIndices n).length values
  pure ((List.range n).map (fun i => (List.range n).map (fun j =>
    (((trilIndices n).zip values).lookup (i, j)).getD 0)))

/-- Transpose of an n × n matrix. (`filler.T` in parse_params.py:165) -/
def transposeSq [Zero β] (n : Nat) (m : List (List β)) : List (List β) :=
  (List.range n).map (fun i => (List.range n).map (fun j => (m.getD j []).getD i 0))

/-- `rows.at[:, mask].set(values)`: in each row the elements where the mask is True are replaced
by the values of the row in order; shapes must agree or `values` has one column. (parse_params.py:222, 246) -/
def setMasked (mask : List Bool) (row values : List β) : List β :=
  match mask, row, values with
  | true :: ms, _ :: rs, v :: vs => v :: setMasked ms rs vs
  | false :: ms, r :: rs, vs => r :: setMasked ms rs vs
  | _, rs, _ => rs

/-- see `setMasked` (parse_params.py:222-224, 246) -/
def setMaskedCols (mask : List Bool) (rows values : List (List β)) : Py (List (List β)) :=
  if rows.length ≠ values.length then .error .valueError
  else (rows.zip values).mapM (fun (row, v) => do
    let v ← broadcast (mask.filter id).length v
    pure (setMasked mask row v))

/-! ### create_parsing_info -/

/-- parse_params.py:24-76 (result) -/
structure ParsingInfo where
  initialStates : List Nat
  initialCholcovs : List Nat
  mixtureWeights : List Nat
  controls : List Nat
  measSds : List Nat
  shockSds : List Nat
  loadingsSlice : List Nat
  loadingsFlatIndices : List Nat
  loadingsShape : Nat × Nat
  transition : Dict (List Nat)
  isAnchoringLoading : List (List Bool)
  isAnchoredFactor : List Bool
  isAnchoringUpdate : List Bool
  ignoreConstant : Bool
  deriving DecidableEq, Repr

/-- Positions of the elements that satisfy `p`. (parse_params.py:41-43, 85) -/
def positionsOf {γ : Type _} (p : γ → Bool) (xs : List γ) : List Nat :=
  (xs.zipIdx.filter (fun x => p x.1)).map Prod.snd

/-- parse_params.py:79-90 `_get_positional_selector_from_loc` with a category as loc. The KeyError
for a category that is not in the index leads to an empty selector, as here. -/
def selectCategory (index : List Loc) (c : Cat) : List Nat :=
  positionsOf (fun l => decide (l.cat = c)) index

/-- The characters at which Python's `str.splitlines` splits, and NUL. pandas splits the query of parse_params.py:56 into lines and raises an error if there is more
than one. -/
def lineBreaks : List Char := ['\n', '\r', '\x0b', '\x0c', '\x1c', '\x1d', '\x1e', '\u0085', '\u2028', '\u2029', '\x00']

/-- Characters that break or change the quoted string in the query of parse_params.py:56.
Simplification: such names are treated as an error. -/
def querySafe (name : String) : Bool :=
  name.toList.all (fun c => c != '\'' && c != '\\' && c != '`' && !decide (c ∈ lineBreaks))

/-- parse_params.py:55-57. The query gives the labels of the factor, `range_sr.loc[labels]` their
positions. -/
def selectTransition (index : List Loc) (factor : String) : Py (List Nat) :=
  if querySafe factor then
    let loc := index.filter (fun l => decide (l.cat = .transition ∧ l.name1 = factor))
    .ok (loc.flatMap (fun l => positionsOf (fun k => decide (k = l)) index))
  else .error .syntaxError

/-- `update_info[latent_factors].to_numpy()` (parse_params.py:41,62) -/
def updateMask (u : List URow) (factors : List String) : List (List Bool) :=
  u.map (fun r => factors.map (fun f => decide (f ∈ r.trueCols)))

/-- parse_params.py:8-76 `create_parsing_info`. -/
def createParsingInfo (index : List Loc) (u : List URow) (l : Labels) (a : AnchInfo) :
    Py ParsingInfo := do
  let mask := updateMask u l.latentFactors
  let flat := positionsOf id mask.flatten
  let transition ← l.latentFactors.mapM (fun f => do
    let pos ← selectTransition index f
    pure (f, pos))
  let isAnchoring := u.map (fun r => decide (r.purpose = .anchoring))
  pure { initialStates := selectCategory index .initialStates
         initialCholcovs := selectCategory index .initialCholcovs
         mixtureWeights := selectCategory index .mixtureWeights
         controls := selectCategory index .controls
         measSds := selectCategory index .measSds
         shockSds := selectCategory index .shockSds
         loadingsSlice := selectCategory index .loadings
         loadingsFlatIndices := flat
         loadingsShape := (u.length, l.latentFactors.length)
         transition := transition
         isAnchoringLoading := (mask.zip isAnchoring).map (fun (row, b) => row.map (fun x => x && b))
         isAnchoredFactor := l.latentFactors.map (fun f =>
           (u.filter (fun r => decide (r.purpose = .anchoring))).any (fun r => decide (f ∈ r.trueCols)))
         isAnchoringUpdate := isAnchoring
         ignoreConstant := a.ignoreConstant }

/-! ### parse_params -/

/-- parse_params.py:123-142 (result) -/
structure Parsed (β : Type) where
  states : List (List (List β))
  upperChols : List (List (List (List β)))
  logWeights : List (List β)
  controls : List (List β)
  loadings : List (List β)
  measSds : List β
  shockSds : List (List β)
  transition : Dict (List (List β))
  scalingFactors : List (List β)
  anchoringConstants : List (List β)
  deriving DecidableEq, Repr

/-- parse_params.py:145-150 `_get_initial_states`; `repeat` along the first axis gives the same array for each individual. -/
def getInitialStates (params : List β) (info : ParsingInfo) (d : Dimensions) (nObs : Nat) :
    Py (List (List (List β))) := do
  let xs ← gather params info.initialStates
  let state ← reshape2 d.nMixtures d.nLatentFactors xs
  pure (List.replicate nObs state)

/-- parse_params.py:153-166 `_get_initial_upper_chols` -/
def getInitialUpperChols [Zero β] (params : List β) (info : ParsingInfo) (d : Dimensions) (nObs : Nat) :
    Py (List (List (List (List β)))) := do
  let xs ← gather params info.initialCholcovs
  let cholParams ← reshapeRows d.nMixtures xs
  let uppers ← (List.range d.nMixtures).mapM (fun i => do
    let row ← pyIndex cholParams i
    let filler ← fillTril d.nLatentFactors row
    pure (transposeSq d.nLatentFactors filler))
  pure (List.replicate nObs uppers)

/-- parse_params.py:169-172 `_get_initial_log_mixture_weights` -/
def getInitialLogMixtureWeights (log : β → β) (params : List β) (info : ParsingInfo) (nObs : Nat) :
    Py (List (List β)) := do
  let xs ← gather params info.mixtureWeights
  pure (List.replicate nObs (xs.map log))

/-- parse_params.py:175-177 `_get_control_params` -/
def getControlParams (params : List β) (info : ParsingInfo) (d : Dimensions) : Py (List (List β)) := do
  let xs ← gather params info.controls
  reshapeCols d.nControls xs

/-- parse_params.py:180-186 `_get_loadings` -/
def getLoadings [Zero β] (params : List β) (info : ParsingInfo) : Py (List (List β)) := do
  let free ← gather params info.loadingsSlice
  let extended ← scatter (info.loadingsShape.1 * info.loadingsShape.2) info.loadingsFlatIndices free
  reshape2 info.loadingsShape.1 info.loadingsShape.2 extended

/-- parse_params.py:189-191 `_get_meas_sds` -/
def getMeasSds (params : List β) (info : ParsingInfo) : Py (List β) := gather params info.measSds

/-- parse_params.py:194-196 `_get_shock_sds` -/
def getShockSds (params : List β) (info : ParsingInfo) (d : Dimensions) : Py (List (List β)) := do
  let xs ← gather params info.shockSds
  reshapeCols d.nLatentFactors xs

/-- parse_params.py:199-207 `_get_transition_params` -/
def getTransitionParams (params : List β) (info : ParsingInfo) (l : Labels) :
    Py (Dict (List (List β))) :=
  l.latentFactors.mapM (fun factor => do
    let ilocs ← Dict.getItem info.transition factor
    let xs ← gather params ilocs
    let arr ← reshapeRows (l.periods.length - 1) xs
    pure (factor, arr))

/-- Boolean indexing `arr[mask]` of a 1d array. (parse_params.py:219, 243) -/
def boolIndex (mask : List Bool) (xs : List β) : List β :=
  ((mask.zip xs).filter (fun x => x.1)).map Prod.snd

/-- parse_params.py:210-232 `_get_anchoring_scaling_factors` -/
def getAnchoringScalingFactors [One β] (loadings : List (List β)) (info : ParsingInfo)
    (d : Dimensions) : Py (List (List β)) := do
  let ones := List.replicate d.nPeriods (List.replicate d.nLatentFactors (1 : β))
  let free ← reshapeRows d.nPeriods (boolIndex info.isAnchoringLoading.flatten loadings.flatten)
  let scaling ← setMaskedCols info.isAnchoredFactor ones free
  pure (scaling.map (fun row => row ++ List.replicate d.nObservedFactors 1))

/-- parse_params.py:235-254 `_get_anchoring_constants`; `controls[:, 0]` is the first column. -/
def getAnchoringConstants [Zero β] (controls : List (List β)) (info : ParsingInfo)
    (d : Dimensions) : Py (List (List β)) := do
  let zeros := List.replicate d.nPeriods (List.replicate d.nLatentFactors (0 : β))
  let constants ←
    if !info.ignoreConstant then do
      let col ← controls.mapM (fun row => pyIndex row 0)
      let values ← reshapeRows d.nPeriods (boolIndex info.isAnchoringUpdate col)
      setMaskedCols info.isAnchoredFactor zeros values
    else pure zeros
  pure (constants.map (fun row => row ++ List.replicate d.nObservedFactors 0))

/-- parse_params.py:93-142 `parse_params`; `log` stands for jnp.log. -/
def parseParams [Zero β] [One β] (log : β → β) (params : List β) (info : ParsingInfo)
    (d : Dimensions) (l : Labels) (nObs : Nat) : Py (Parsed β) := do
  let states ← getInitialStates params info d nObs
  let upperChols ← getInitialUpperChols params info d nObs
  let logWeights ← getInitialLogMixtureWeights log params info nObs
  let controls ← getControlParams params info d
  let loadings ← getLoadings params info
  let measSds ← getMeasSds params info
  let shockSds ← getShockSds params info d
  let transition ← getTransitionParams params info l
  let scaling ← getAnchoringScalingFactors loadings info d
  let constants ← getAnchoringConstants controls info d
  pure { states := states, upperChols := upperChols, logWeights := logWeights, controls := controls
         loadings := loadings, measSds := measSds, shockSds := shockSds, transition := transition
         scalingFactors := scaling, anchoringConstants := constants }

/-- likelihood_function.py:60-62 and 235-238: parsing in the likelihood function of a model. -/
def Processed.parse [Zero β] [One β] (pm : Processed α) (log : β → β) (params : List β)
    (nObs : Nat) : Py (Parsed β) := do
  let info ← createParsingInfo pm.paramsIndex pm.updateInfo pm.labels pm.anchoring
  parseParams log params info pm.dimensions pm.labels nObs

/-! ### the parameter vector -/

/-- likelihood_function.py:434-446 `_get_jnp_params_vec`: `params` is the DataFrame as a list of
(label, value). `params.reindex(target_index)` raises a ValueError if the index of `params` has
duplicates (and differs from the target index). -/
def getJnpParamsVec (params : List (Loc × β)) (target : List Loc) : Py (List β) :=
  let index := params.map Prod.fst
  if ¬ (index.all (fun l => target.contains l) && target.all (fun l => index.contains l)) then
    .error .valueError
  else if index = target then .ok (params.map Prod.snd)
  else if ¬ index.Nodup then .error .valueError
  else target.mapM (fun l =>
    match params.lookup l with
    | some x => .ok x
    | none => .error .valueError)

end Skill
