import Verif.Model.ParamsIndex
/-
skillmodels/utilities.py. A function that is called with params returns the model and the params; the
model here has separate functions for the model dictionary (`removeFactors` …) and for the params of
the reduced model (`reduceParams`, `extendParams`). A single name given as a string is the
list with this name (utilities.py:27,49,266,272). Warnings are not modelled.
-/
namespace Skill
variable {α : Type}

/-- utilities.py:265-268 `_remove_from_list` -/
def removeFromList (xs toRemove : List String) : List String := xs.filter (fun x => decide (x ∉ toRemove))

/-- utilities.py:271-275 `_remove_from_dict` -/
def removeFromDict {β : Type _} (d : Dict β) (toRemove : List String) : Dict β := d.filter (fun kv => decide (kv.1 ∉ toRemove))

/-- utilities.py:331-334 `_shorten_if_necessary`; `length` can be -1 (utilities.py:256 with 0 periods). -/
def shortenIfNecessary {β : Type _} (xs : List β) (length : Int) : List β :=
  if (xs.length : Int) > length then
    (if 0 ≤ length then xs.take length.toNat else xs.take (xs.length - (-length).toNat))
  else xs

/-- utilities.py:239-253: one factor. -/
def reduceFactorPeriods (n : Nat) (spec : FactorSpec α) : FactorSpec α :=
  { spec with
    measurements := shortenIfNecessary spec.measurements n
    normalizations := spec.normalizations.map (fun ns =>
      { loadings := ns.loadings.map (fun ls => shortenIfNecessary ls n)
        intercepts := ns.intercepts.map (fun ls => shortenIfNecessary ls n) }) }

/-- utilities.py:225-262 `reduce_n_periods` (model). Simplification: the new number of periods is not negative. -/
def reduceNPeriods (m : ModelDict α) (n : Nat) : ModelDict α :=
  { m with
    factors := m.factors.map (fun fs => (fs.1, reduceFactorPeriods n fs.2))
    stagemap := m.stagemap.map (fun sm => shortenIfNecessary sm ((n : Int) - 1)) }

/-- utilities.py:81-87: the anchoring section without the removed factors. -/
def removeFromAnchoring (anchoring : Option AnchoringSpec) (factors : List String) : Py (Option AnchoringSpec) :=
  match anchoring with
  | none => .ok none
  | some a =>
    match a.outcomes with
    | none => .error .keyError
    | some os =>
      let reduced := removeFromDict os factors
      if reduced.isEmpty then .ok none else .ok (some { a with outcomes := some reduced })

/-- utilities.py:59-97 `remove_factors` (model) -/
def removeFactors (factors : List String) (m : ModelDict α) : Py (ModelDict α) := do
  let anchoring ← removeFromAnchoring m.anchoring factors
  let out := { m with factors := removeFromDict m.factors factors, anchoring := anchoring }
  let dims ← getDimensions out
  pure (reduceNPeriods out dims.nPeriods)

/-- utilities.py:12-32 `extract_factors` (model); `set(...)` only matters by its elements. -/
def extractFactors (factors : List String) (m : ModelDict α) : Py (ModelDict α) :=
  removeFactors ((Dict.keys m.factors).filter (fun f => decide (f ∉ factors))) m

/-- utilities.py:118-135: one factor. -/
def removeFactorMeasurements (measurements : List String) (spec : FactorSpec α) : FactorSpec α :=
  { spec with
    measurements := spec.measurements.map (fun ms => removeFromList ms measurements)
    normalizations := spec.normalizations.map (fun ns =>
      { loadings := ns.loadings.map (fun ls => ls.map (fun d => removeFromDict d measurements))
        intercepts := ns.intercepts.map (fun ls => ls.map (fun d => removeFromDict d measurements)) }) }

/-- utilities.py:100-141 `remove_measurements` (model) -/
def removeMeasurements (measurements : List String) (m : ModelDict α) : ModelDict α :=
  { m with factors := m.factors.map (fun fs => (fs.1, removeFactorMeasurements measurements fs.2)) }

/-- utilities.py:144-168 `remove_controls` (model) -/
def removeControls (controls : List String) (m : ModelDict α) : Py (ModelDict α) :=
  match m.controls with
  | none => .error .keyError
  | some cs =>
    let reduced := removeFromList cs controls
    .ok { m with controls := if reduced = [] then none else some reduced }

/-- utilities.py:186-188, 214-216: change the name of a transition function. -/
def switchTransition (old new : String) (m : ModelDict α) : ModelDict α :=
  { m with factors := m.factors.map (fun fs =>
      (fs.1, { fs.2 with transition := if fs.2.transition = .named old then .named new else fs.2.transition })) }

/-- utilities.py:171-194 `switch_translog_to_linear` (model) -/
def switchTranslogToLinear (m : ModelDict α) : ModelDict α := switchTransition "translog" "linear" m

/-- utilities.py:197-222 `switch_linear_to_translog` (model) -/
def switchLinearToTranslog (m : ModelDict α) : ModelDict α := switchTransition "linear" "translog" m

/-! ### params -/

/-- An entry of a bound column. (constraints.py:48-73, utilities.py:297-307) -/
inductive Bnd (α : Type)
  | num (x : α)
  | negInf
  | posInf
  deriving DecidableEq, Repr

/-- One row of a params DataFrame; `none` is NaN (or a column that does not exist). Other columns than
value, lower_bound and upper_bound are not modelled. (argument params of utilities.py:278-307) -/
structure ParamsRow (α : Type) where
  value : Option α
  lower : Option (Bnd α) := none
  upper : Option (Bnd α) := none
  deriving DecidableEq, Repr

/-- A params DataFrame. (argument params of utilities.py:278-307) -/
structure ParamsFrame (α : Type) where
  rows : List (Loc × ParamsRow α)
  hasLower : Bool := false
  hasUpper : Bool := false
  deriving DecidableEq, Repr

/-- The index of a params DataFrame. (`params.index` in utilities.py:278-307) -/
def ParamsFrame.index (p : ParamsFrame α) : List Loc := p.rows.map Prod.fst

/-- utilities.py:310-318 `_get_params_index_from_model_dict` -/
def paramsIndexOfModel [OfScientific α] [Neg α] [Zero α] [One α] [OfNat α 2] [DecidableEq α] (m : ModelDict α) : Py (List Loc) := do
  let mod ← processModel m
  pure mod.paramsIndex

/-- utilities.py:278-294 `_reduce_params`: `params.loc[index]` has for every label in index the rows with this
label; a label without row is a KeyError. -/
def reduceParams [OfScientific α] [Neg α] [Zero α] [One α] [OfNat α 2] [DecidableEq α] (p : ParamsFrame α) (m : ModelDict α) : Py (ParamsFrame α) := do
  let index ← paramsIndexOfModel m
  let rows ← index.mapM (fun l =>
    let found := p.rows.filter (fun r => decide (r.1 = l))
    if found.isEmpty then .error .keyError else .ok found)
  pure { p with rows := rows.flatten }

/-- utilities.py:297-307 `_extend_params`: reindex (a ValueError if labels of params are not unique) and fill. -/
def extendParams [OfScientific α] [Neg α] [Zero α] [One α] [OfNat α 2] [DecidableEq α] (p : ParamsFrame α) (m : ModelDict α) (fill : α) : Py (ParamsFrame α) := do
  let index ← paramsIndexOfModel m
  if p.index.Nodup then
    let rows := index.map (fun l =>
      let row : ParamsRow α := ((p.rows.find? (fun r => decide (r.1 = l))).map Prod.snd).getD { value := none }
      (l, { value := some (row.value.getD fill)
            lower := if p.hasLower then some (row.lower.getD .negInf) else row.lower
            upper := if p.hasUpper then some (row.upper.getD .posInf) else row.upper : ParamsRow α }))
    pure { p with rows := rows }
  else .error .valueError

section WithParams
variable [OfScientific α] [Neg α] [Zero α] [One α] [OfNat α 2] [DecidableEq α]

/-- utilities.py:59-97 `remove_factors` with params -/
def removeFactorsParams (factors : List String) (m : ModelDict α) (p : ParamsFrame α) : Py (ModelDict α × ParamsFrame α) := do
  let out ← removeFactors factors m
  let q ← reduceParams p out
  pure (out, q)

/-- utilities.py:12-32 `extract_factors` with params -/
def extractFactorsParams (factors : List String) (m : ModelDict α) (p : ParamsFrame α) : Py (ModelDict α × ParamsFrame α) :=
  removeFactorsParams ((Dict.keys m.factors).filter (fun f => decide (f ∉ factors))) m p

/-- utilities.py:100-141 `remove_measurements` with params -/
def removeMeasurementsParams (measurements : List String) (m : ModelDict α) (p : ParamsFrame α) : Py (ModelDict α × ParamsFrame α) := do
  let out := removeMeasurements measurements m
  let q ← reduceParams p out
  pure (out, q)

/-- utilities.py:144-168 `remove_controls` with params -/
def removeControlsParams (controls : List String) (m : ModelDict α) (p : ParamsFrame α) : Py (ModelDict α × ParamsFrame α) := do
  let out ← removeControls controls m
  let q ← reduceParams p out
  pure (out, q)

/-- utilities.py:171-194 `switch_translog_to_linear` with params -/
def switchTranslogToLinearParams (m : ModelDict α) (p : ParamsFrame α) : Py (ModelDict α × ParamsFrame α) := do
  let out := switchTranslogToLinear m
  let q ← reduceParams p out
  pure (out, q)

/-- utilities.py:197-222 `switch_linear_to_translog` with params -/
def switchLinearToTranslogParams (m : ModelDict α) (p : ParamsFrame α) : Py (ModelDict α × ParamsFrame α) := do
  let out := switchLinearToTranslog m
  let q ← extendParams p out 0.05
  pure (out, q)

/-- utilities.py:225-262 `reduce_n_periods` with params -/
def reduceNPeriodsParams (m : ModelDict α) (n : Nat) (p : ParamsFrame α) : Py (ModelDict α × ParamsFrame α) := do
  let out := reduceNPeriods m n
  let q ← extendParams p out 0.05
  pure (out, q)

end WithParams

/-- utilities.py:53-54: `out["value"].update(other["value"])` for one DataFrame. Labels that are not unique in
`other` are a ValueError. -/
def updateValues (p : ParamsFrame α) (other : List (Loc × Option α)) : Py (ParamsFrame α) :=
  if (other.map Prod.fst).Nodup then
    .ok { p with rows := p.rows.map (fun (l, row) =>
      match (other.find? (fun r => decide (r.1 = l))).bind Prod.snd with
      | some x => (l, { row with value := some x })
      | none => (l, row)) }
  else .error .valueError

/-- utilities.py:35-56 `update_parameter_values`; only the column "value" of the others is read. A single
DataFrame is the list with this DataFrame. -/
def updateParameterValues (p : ParamsFrame α) (others : List (List (Loc × Option α))) : Py (ParamsFrame α) :=
  others.foldlM updateValues p

end Skill
