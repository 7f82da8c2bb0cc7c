import Verif.Model.ProcessModel
/-
skillmodels/params_index.py
-/
namespace Skill

/-- The values of the index level "category". (params_index.py:43-194) -/
inductive Cat
  | controls | loadings | measSds | shockSds | initialStates | mixtureWeights | initialCholcovs
  | transition
  deriving DecidableEq, Repr

/-- One index tuple (category, period, name1, name2); params_index.py:37-39. -/
structure Loc where
  cat : Cat
  period : Nat
  name1 : String
  name2 : String
  deriving DecidableEq, Repr

/-- f"mixture_{emf}" (params_index.py:129,145,169). -/
def mixtureName (k : Nat) : String := "mixture_" ++ toString k

/-- params_index.py:43-57 -/
def controlParamsIndexTuples (controls : List String) (u : List URow) : List Loc :=
  u.flatMap (fun r => controls.map (fun c => ⟨.controls, r.period, r.var, c⟩))

/-- params_index.py:60-77 -/
def loadingsIndexTuples (factors : List String) (u : List URow) : List Loc :=
  u.flatMap (fun r => (factors.filter (fun f => decide (f ∈ r.trueCols))).map
    (fun f => ⟨.loadings, r.period, r.var, f⟩))

/-- params_index.py:80-94 -/
def measSdsIndexTuples (u : List URow) : List Loc :=
  u.map (fun r => ⟨.measSds, r.period, r.var, "-"⟩)

/-- params_index.py:97-112; `periods[:-1]` is `dropLast`. -/
def shockSdsIndexTuples (periods : List Nat) (factors : List String) : List Loc :=
  periods.dropLast.flatMap (fun p => factors.map (fun f => ⟨.shockSds, p, f, "-"⟩))

/-- params_index.py:115-130 -/
def initialMeanIndexTuples (nMixtures : Nat) (factors : List String) : List Loc :=
  (List.range nMixtures).flatMap (fun k => factors.map (fun f => ⟨.initialStates, 0, mixtureName k, f⟩))

/-- params_index.py:133-146 -/
def mixtureWeightsIndexTuples (nMixtures : Nat) : List Loc :=
  (List.range nMixtures).map (fun k => ⟨.mixtureWeights, 0, mixtureName k, "-"⟩)

/-- params_index.py:149-173; rows are the first, columns the second factor of the name. -/
def initialCholcovsIndexTuples (nMixtures : Nat) (factors : List String) : List Loc :=
  (List.range nMixtures).flatMap (fun k =>
    factors.zipIdx.flatMap (fun (factor1, row) =>
      (factors.zipIdx.filter (fun (_, col) => decide (col ≤ row))).map (fun (factor2, _) =>
        ⟨.initialCholcovs, 0, mixtureName k, factor1 ++ "-" ++ factor2⟩)))

/-- params_index.py:176-194 -/
def transitionIndexTuples (paramNames : Dict (List String)) (periods : List Nat) : List Loc :=
  paramNames.flatMap (fun (factor, names) =>
    periods.dropLast.flatMap (fun p => names.map (fun n => ⟨.transition, p, factor, n⟩)))

/-- params_index.py:4-40 `get_params_index`. -/
def getParamsIndex (u : List URow) (l : Labels) (d : Dimensions) (t : TransInfo) : List Loc :=
  controlParamsIndexTuples l.controls u
  ++ loadingsIndexTuples l.latentFactors u
  ++ measSdsIndexTuples u
  ++ shockSdsIndexTuples l.periods l.latentFactors
  ++ initialMeanIndexTuples d.nMixtures l.latentFactors
  ++ mixtureWeightsIndexTuples d.nMixtures
  ++ initialCholcovsIndexTuples d.nMixtures l.latentFactors
  ++ transitionIndexTuples t.paramNames l.periods

/-- The index of the params template of a processed model (likelihood_function.py and
utilities.py:310-318 call get_params_index in this way). -/
def Processed.paramsIndex {α : Type} (pm : Processed α) : List Loc :=
  getParamsIndex pm.updateInfo pm.labels pm.dimensions pm.transitionInfo

end Skill
