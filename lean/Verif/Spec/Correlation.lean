import Verif.Spec.Data
import Verif.Spec.Params
import Verif.Model.CorrelationHeatmap
import Mathlib.Analysis.SpecialFunctions.Pow.Real
import Mathlib.Data.Fintype.BigOperators
/- What correlation tables and heatmaps should contain. -/
namespace Skill.Spec
variable {α : Type}

/-! ### heatmaps -/

/-- The cell in row i and column j of a heatmap is requested. -/
def Shown (showUpper showDiagonal : Bool) (i j : Nat) : Prop := j < i ∨ (j = i ∧ showDiagonal = true) ∨ (i < j ∧ showUpper = true)

/-- `z` is `y` rounded to a number of digits. -/
def IsRounded (digits : Nat) (y z : ℝ) : Prop := (∃ k : ℤ, z = k / 10 ^ digits) ∧ |z - y| ≤ 1 / 2 / 10 ^ digits

/-- What the heatmap has in the place of the value `x`. -/
def ShownValue (digits : Nat) (shown : Prop) (x z : Option ℝ) : Prop :=
  (shown → ∀ y, x = some y → ∃ w, z = some w ∧ IsRounded digits y w) ∧ (¬shown ∨ x = none → z = none)

/-- The cells of a table fit to its labels. -/
def TableShape (t : CorrTable) : Prop := t.cells.length = t.rows.length ∧ ∀ row ∈ t.cells, row.length = t.cols.length

/-- A cell is shown and not empty. -/
def Visible (showUpper showDiagonal : Bool) (corr : CorrTable) (i j : ℕ) : Prop := Shown showUpper showDiagonal i j ∧ ∃ y, entry2 corr.cells i j = some (some y)

/-! ### correlations -/

section
variable {ι : Type}

/-- Sample mean. -/
noncomputable def sampleMean (s : Finset ι) (x : ι → ℝ) : ℝ := (∑ i ∈ s, x i) / s.card

/-- Sum of the products of the deviations from the means. -/
noncomputable def sumOfProducts (s : Finset ι) (x y : ι → ℝ) : ℝ := ∑ i ∈ s, (x i - sampleMean s x) * (y i - sampleMean s y)

/-- Pearson's correlation coefficient; it is not defined if one of the variables is constant. -/
noncomputable def correlation (s : Finset ι) (x y : ι → ℝ) : Option ℝ :=
  open Classical in
  if sumOfProducts s x x = 0 ∨ sumOfProducts s y y = 0 then none
  else some (sumOfProducts s x y / (Real.sqrt (sumOfProducts s x x) * Real.sqrt (sumOfProducts s y y)))

/-- The correlation of two variables with missing values, over the individuals for which both are observed. -/
noncomputable def observedCorrelation [Fintype ι] (x y : ι → Option ℝ) : Option ℝ :=
  correlation (Finset.univ.filter (fun i => (x i).isSome ∧ (y i).isSome)) (fun i => (x i).getD 0) (fun i => (y i).getD 0)

end

/-- `w` is the value of a column of the dataset for the i-th individual in the t-th period. -/
def CellIs (df : LongData ℝ) (ids pers : List Int) (i t : Nat) (c : String) (w : Option ℝ) : Prop :=
  ∃ r, RowOf df ids pers i t r ∧ w = r.bind (fun row => row.cell c)

/-- The label of a variable in a table of correlations: its name if there is only one period. -/
def corrLabel (severalPeriods : Prop) [Decidable severalPeriods] (name : String) (t : Nat) : String := if severalPeriods then name ++ ", " ++ toString t else name

/-- `v` is a measurement of `f` in period `t` (and not the name of an anchoring equation). -/
def MeasurementOf (m : ModelDict α) (t : Nat) (v f : String) : Prop := Measures m t v f ∧ ¬∃ g, Anchors m v g

/-- `v` is a measurement of `f` in period `t` and of no other factor. -/
def DedicatedTo (m : ModelDict α) (t : Nat) (v f : String) : Prop := MeasurementOf m t v f ∧ ∀ g, Measures m t v g → g = f

/-! ### tables of correlations -/

/-- The latent and observed factors that a user asks for: all factors, or the factors in a list in the order of the list (latent factors before observed factors, other names are ignored). -/
def RequestedFactors (m : ModelDict α) (arg : FactorsArg) (latent observed : List String) : Prop :=
  open Classical in
  match arg with
  | .all => latent = m.factors.map Prod.fst ∧ observed = m.observedFactors.getD []
  | .name f => f ≠ "" ∧ ((IsLatent m f ∧ latent = [f] ∧ observed = []) ∨ (¬IsLatent m f ∧ f ∈ m.observedFactors.getD [] ∧ latent = [] ∧ observed = [f]))
  | .names fs => fs ≠ [] ∧ latent = fs.filter (fun f => IsLatent m f) ∧ observed = fs.filter (fun f => ¬IsLatent m f ∧ f ∈ m.observedFactors.getD [])

/-- The periods that a user asks for. -/
def RequestedPeriods (m : ModelDict α) : PeriodsArg → List Nat → Prop
  | .all, periods => ∃ n, IsNPeriods m n ∧ periods = List.range n
  | .single p, periods => periods = [p]
  | .list ps, periods => periods = ps

/-- Words that cannot be used as a column name in a query: keywords of Python and the names of other columns and levels of the index. -/
def queryReserved : List String :=
  ["and", "or", "not", "in", "is", "if", "else", "True", "False", "None", "as", "assert", "async", "await", "break", "class", "continue", "def", "del", "elif", "except", "finally",
    "for", "from", "global", "import", "lambda", "nonlocal", "pass", "raise", "return", "try", "while", "with", "yield", "purpose", "variable", "index", "level_0", "period"]

/-- Names that can be used in a query: identifiers (letters, digits and underscores, not starting with a digit) that are not reserved. -/
structure IsQueryName (name : String) : Prop where
  nonempty : name ≠ ""
  characters : ∀ c ∈ name.toList, c.isAlpha = true ∨ c.isDigit = true ∨ c = '_'
  start : ∀ c, name.toList.head? = some c → c.isDigit = false
  free : name ∉ queryReserved

/-- The requirements on a dataset for correlations of measurements and scores. -/
structure CorrDataOk (m : ModelDict α) (df : LongData ℝ) (latent observed : List String) (periods : List Nat) : Prop where
  keys : UniqueKeys df
  some : periods ≠ []
  distinct : periods.Nodup
  measured : ∀ t ∈ periods, ∃ v f, Measures m t v f
  names : ∀ f ∈ latent, IsQueryName f
  measurements : ∀ t ∈ periods, ∀ f ∈ latent, ∀ v, MeasurementOf m t v f → v ∈ df.columns
  observed : ∀ f ∈ observed, f ∈ df.columns

/-- The average of some numbers, none if there are no numbers. -/
noncomputable def average (xs : List ℝ) : Option ℝ := if xs = [] then none else some (xs.sum / xs.length)

/-- `s` is the average of the values that are observed, over all variables with a property. -/
def AverageOver (P : String → Prop) (ValueIs : String → Option ℝ → Prop) (s : Option ℝ) : Prop :=
  ∃ (vs : List String) (z : String → Option ℝ), vs.Nodup ∧ (∀ v, v ∈ vs ↔ P v) ∧ (∀ v ∈ vs, ValueIs v (z v)) ∧ s = average (vs.filterMap z)

/-- The score of a latent factor: the average of (measurement - intercept) / loading over the dedicated measurements that are observed. -/
def ScoreIs (m : ModelDict α) (val : Loc → ℝ) (df : LongData ℝ) (ids pers : List Int) (i t : Nat) (f : String) (s : Option ℝ) : Prop :=
  AverageOver (fun v => DedicatedTo m t v f)
    (fun v w => ∃ y, CellIs df ids pers i t v y ∧ w = y.map (fun y => (y - val ⟨.controls, t, v, "constant"⟩) / val ⟨.loadings, t, v, f⟩)) s

/-- A variable standardized to mean zero and (sample) variance one; missing if it does not vary. -/
noncomputable def standardized {ι : Type} [Fintype ι] (x : ι → Option ℝ) (i : ι) : Option ℝ :=
  let s := Finset.univ.filter (fun i => (x i).isSome)
  let X := fun i => (x i).getD 0
  open Classical in if sumOfProducts s X X = 0 then none else (x i).map (fun y => (y - sampleMean s X) / Real.sqrt (sumOfProducts s X X / (s.card - 1)))

/-- The quasi score of a latent factor: the average of its standardized measurements that are observed. -/
def QuasiScoreIs (m : ModelDict α) (df : LongData ℝ) (ids pers : List Int) (i t : Nat) (f : String) (s : Option ℝ) : Prop :=
  AverageOver (fun v => MeasurementOf m t v f)
    (fun v w => ∃ (hi : i < ids.length) (x : Fin ids.length → Option ℝ), (∀ j : Fin ids.length, CellIs df ids pers j t v (x j)) ∧ w = standardized x ⟨i, hi⟩) s

/-- The params DataFrame has all parameters of the model, with the given values, and nonzero loadings. -/
structure ScoreParams (m : ModelDict α) (params : List (Loc × ℝ)) (val : Loc → ℝ) (periods : List Nat) : Prop where
  labels : ∀ l, l ∈ params.map Prod.fst ↔ IsParam m l
  distinct : (params.map Prod.fst).Nodup
  values : ∀ lx ∈ params, lx.2 = val lx.1
  nonzero : ∀ t ∈ periods, ∀ v f, Measures m t v f → val ⟨.loadings, t, v, f⟩ ≠ 0

/-- A column of a table of correlations of scores. -/
inductive ScoreItem
  | latent (f : String) (t : Nat)
  | observed (f : String) (t : Nat)

/-- Name and period of a column. -/
def ScoreItem.name : ScoreItem → String × Nat
  | .latent f t => (f, t)
  | .observed f t => (f, t)

/-- The value of a column for the i-th individual; `score` says what the score of a latent factor is. -/
def ScoreItem.ValueIs (score : Nat → Nat → String → Option ℝ → Prop) (df : LongData ℝ) (ids pers : List Int) (i : Nat) : ScoreItem → Option ℝ → Prop
  | .latent f t, s => score i t f s
  | .observed f t, s => CellIs df ids pers i t f s

/-- The columns that are requested: period by period, latent factors before observed factors. -/
def scoreItems (latent observed : List String) (periods : List Nat) : List ScoreItem :=
  periods.flatMap (fun t => latent.map (fun f => .latent f t) ++ observed.map (fun f => .observed f t))

/-- `out` is the table of the correlations of some variables, of which `n` individuals have the given values. -/
structure IsCorrelationTable {κ : Type} (n : Nat) (items : List κ) (label : κ → String) (ValueIs : Nat → κ → Option ℝ → Prop) (out : CorrTable) : Prop where
  rows : out.rows = items.map label
  cols : out.cols = items.map label
  shape : TableShape out
  /-- all variables have values -/
  values : ∀ k ∈ items, ∀ i < n, ∃ x, ValueIs i k x
  /-- the entries are correlations over the individuals for which both values are observed -/
  entries : ∀ (a b : Nat) k l, items[a]? = some k → items[b]? = some l → ∀ x y : Fin n → Option ℝ, (∀ i : Fin n, ValueIs i k (x i)) → (∀ i : Fin n, ValueIs i l (y i)) →
    entry2 out.cells a b = some (observedCorrelation x y)
  symmetric : ∀ a b : Nat, entry2 out.cells a b = entry2 out.cells b a
  diagonal : ∀ (a : Nat) r, entry2 out.cells a a = some (some r) → r = 1
  bounded : ∀ (a b : Nat) r, entry2 out.cells a b = some (some r) → |r| ≤ 1

/-- The same data with other units: a value `y` of column `c` in data period `p` becomes `a p c * y + b p c`. -/
noncomputable def changeUnits (a b : Int → String → ℝ) (df : LongData ℝ) : LongData ℝ :=
  { df with rows := df.rows.map (fun r => { r with cell := fun c => (r.cell c).map (fun y => a r.period c * y + b r.period c) }) }

end Skill.Spec
