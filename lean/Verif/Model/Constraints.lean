import Verif.Model.ParamsIndex
/-
skillmodels/constraints.py and `constraints_log_ces` of skillmodels/transition_functions.py
-/
namespace Skill
variable {α : Type}

/-- What a constraint can have as "loc" (or as an element of "locs"): the name of a category
("mixture_weights", constraints.py:142,150), a pair (category, period) (lines 174-175), one index tuple
(line 212) or a list of index tuples (line 124). -/
inductive LocSel
  | category (c : Cat)
  | catPeriod (c : Cat) (period : Nat)
  | one (l : Loc)
  | many (ls : List Loc)
  deriving DecidableEq, Repr

/-- The "value" entry of a fixed constraint: one number or a list. (constraints.py:126, 144, 214) -/
inductive FixVal (α : Type)
  | scalar (x : α)
  | vec (xs : List α)
  deriving DecidableEq, Repr

/-- The constraint types that occur. Descriptions are not modelled. (constraints.py:122-129, 140-150, 176-189, 210-217) -/
inductive Constr (α : Type)
  | fixed (loc : LocSel) (value : FixVal α)
  | probability (loc : LocSel)
  | increasing (loc : LocSel)
  | pairwiseEquality (locs : List LocSel)
  deriving DecidableEq, Repr

/-- constraints.py:90-133 `_get_normalization_constraints`. The key "variances" (line 108) never
occurs in processed normalizations. The two lists that are appended to in parallel are built as one
list of pairs here. -/
def getNormalizationConstraints (norms : Dict (NormInfo α)) (factors : List String) :
    Py (List (Constr α)) := do
  let first ← pyIndex factors 0
  let firstNorm ← Dict.getItem norms first
  let periods := List.range firstNorm.loadings.length
  let pairs ← factors.mapM (fun factor => do
    let info ← Dict.getItem norms factor
    let perPeriod ← periods.mapM (fun period => do
      let load ← pyIndex info.loadings period
      let inter ← pyIndex info.intercepts period
      pure (load.map (fun (meas, val) => ((⟨.loadings, period, meas, factor⟩ : Loc), val))
        ++ inter.map (fun (meas, val) => ((⟨.controls, period, meas, "constant"⟩ : Loc), val))))
    pure perPeriod.flatten)
  let pairs := pairs.flatten
  pure (if pairs ≠ [] then [.fixed (.many (pairs.map Prod.fst)) (.vec (pairs.map Prod.snd))] else [])

/-- constraints.py:136-150 `_get_mixture_weights_constraints`. -/
def getMixtureWeightsConstraints [One α] (nMixtures : Nat) : List (Constr α) :=
  if nMixtures = 1 then [.fixed (.category .mixtureWeights) (.scalar 1)]
  else [.probability (.category .mixtureWeights)]

/-- constraints.py:153-191 `_get_stage_constraints`. `stages_to_periods` (lines 168-170) is computed
by filtering instead of by appending; every stage of the stagemap is a key because `stages` are the
distinct entries of the stagemap. -/
def getStageConstraints (stagemap stages : List Int) : List (Constr α) :=
  stages.flatMap (fun stage =>
    let stagePeriods := (stagemap.zipIdx.filter (fun (s, _) => decide (s = stage))).map Prod.snd
    if stagePeriods.length > 1 then
      [.pairwiseEquality (stagePeriods.map (fun p => .catPeriod .transition p)),
       .pairwiseEquality (stagePeriods.map (fun p => .catPeriod .shockSds p))]
    else [])

/-- constraints.py:194-218 `_get_constant_factors_constraints`. `zip` instead of indexing
`transition_names[f]`; both lists have the same length. -/
def getConstantFactorsConstraints [Zero α] (latent transitionNames : List String)
    (periods : List Nat) : List (Constr α) :=
  (latent.zip transitionNames).flatMap (fun (factor, tname) =>
    if tname = "constant" then
      periods.dropLast.map (fun p => .fixed (.one ⟨.shockSds, p, factor, "-"⟩) (.scalar 0))
    else [])

/-- constraints.py:221-249 `_get_initial_states_constraints`. -/
def getInitialStatesConstraints (nMixtures : Nat) (factors : List String) : Py (List (Constr α)) := do
  if nMixtures > 1 then
    let first ← pyIndex factors 0
    pure [.increasing (.many ((List.range nMixtures).map
      (fun k => ⟨.initialStates, 0, mixtureName k, first⟩)))]
  else pure []

/-- transition_functions.py:103-106 `constraints_log_ces`. -/
def constraintsLogCes (factor : String) (factors : List String) (period : Nat) : Constr α :=
  .probability (.many ((paramsLogCes factors).dropLast.map
    (fun name => ⟨.transition, period, factor, name⟩)))

/-- constraints.py:252-275 `_get_transition_constraints`. The only attribute of the module
transition_functions that starts with "constraints_" is `constraints_log_ces`. -/
def getTransitionConstraints (latent transitionNames allFactors : List String)
    (periods : List Nat) : List (Constr α) :=
  (latent.zip transitionNames).flatMap (fun (factor, tname) =>
    periods.dropLast.flatMap (fun period =>
      if tname = "log_ces" then [constraintsLogCes factor allFactors period] else []))

/-- constraints.py:336: `c["loc"] != []`. -/
def Constr.locNonempty : Constr α → Bool
  | .fixed (.many []) _ => false
  | _ => true

/-- constraints.py:278-338 `_get_anchoring_constraints`. -/
def getAnchoringConstraints [Zero α] [One α] (u : List URow) (controls : List String)
    (a : AnchInfo) (periods : List Nat) : Py (List (Constr α)) := do
  let anchoringUpdates := u.filter (fun r => decide (r.purpose = .anchoring))
  let c1 : List (Constr α) :=
    if !a.freeConstant then
      [.fixed (.many (anchoringUpdates.map (fun r => ⟨.controls, r.period, r.var, "constant"⟩)))
        (.scalar 0)]
    else []
  let c2 : List (Constr α) :=
    if !a.freeControls then
      [.fixed (.many (anchoringUpdates.flatMap (fun r =>
        (controls.filter (fun c => decide (c ≠ "constant"))).map
          (fun cont => ⟨.controls, r.period, r.var, cont⟩)))) (.scalar 0)]
    else []
  let c3 : List (Constr α) ←
    if !a.freeLoadings then do
      let tups ← periods.mapM (fun period => a.factors.mapM (fun factor => do
        let outcome ← Dict.getItem a.outcomes factor
        pure (⟨.loadings, period, anchoringName outcome factor, factor⟩ : Loc)))
      pure [.fixed (.many tups.flatten) (.scalar 1)]
    else pure []
  pure ((c1 ++ c2 ++ c3).filter Constr.locNonempty)

/-- constraints.py:9-45 `get_constraints`; a pair (id, constraint) per entry. -/
def getConstraints [Zero α] [One α] (d : Dimensions) (l : Labels) (a : AnchInfo) (u : List URow)
    (norms : Dict (NormInfo α)) : Py (List (Nat × Constr α)) := do
  let c1 ← getNormalizationConstraints norms l.latentFactors
  let c2 := getMixtureWeightsConstraints d.nMixtures
  let c3 := getStageConstraints l.stagemap l.stages
  let c4 := getConstantFactorsConstraints l.latentFactors l.transitionNames l.periods
  let c5 ← getInitialStatesConstraints d.nMixtures l.latentFactors
  let c6 := getTransitionConstraints l.latentFactors l.transitionNames l.allFactors l.periods
  let c7 ← getAnchoringConstraints u l.controls a l.periods
  let constr := c1 ++ c2 ++ c3 ++ c4 ++ c5 ++ c6 ++ c7
  pure (constr.zipIdx.map (fun (c, i) => (i, c)))

/-- likelihood_function.py:149-155: the call of get_constraints. -/
def Processed.constraints [Zero α] [One α] (pm : Processed α) : Py (List (Nat × Constr α)) :=
  getConstraints pm.dimensions pm.labels pm.anchoring pm.updateInfo pm.normalizations

/-- constraints.py:76-87 `_is_diagonal_entry` on the last entry of an index tuple. -/
def isDiagonalEntry (name2 : String) : Bool :=
  let cs := name2.toList
  let middle := cs.length / 2
  if cs.length % 2 = 0 then false
  else if cs[middle]? ≠ some '-' then false
  else if cs.take middle ≠ cs.drop (middle + 1) then false
  else true

/-- constraints.py:48-73 `add_bounds` for a params template without lower bounds (as it is called in
likelihood_function.py:157-160): the lower bound of each row, `none` is minus infinity.
Simplification: pandas' behaviour if a category does not occur at all in the index (models with one
period, which cannot be estimated, see C64) is not modelled. -/
def addBounds (index : List Loc) (dist : α) : List (Loc × Option α) :=
  index.map (fun l => (l,
    if l.cat = .measSds then some dist
    else if l.cat = .shockSds then some dist
    else if l.cat = .initialCholcovs ∧ isDiagonalEntry l.name2 then some dist
    else none))

/-- likelihood_function.py:157-160: params_template. -/
def Processed.paramsTemplate (pm : Processed α) : List (Loc × Option α) :=
  addBounds pm.paramsIndex pm.estimationOptions.boundsDistance

end Skill
