import Verif.Model.ProcessData
import Verif.Spec.ModelSpec
/- What the data arrays of a model should contain. -/
namespace Skill.Spec
variable {α V : Type}

/-- The values of a list of integers in increasing order, without repetition. -/
def Ascending (xs : List Int) (occurs : Int → Prop) : Prop := xs.Pairwise (· < ·) ∧ ∀ x, x ∈ xs ↔ occurs x

/-- `ids` are the individuals of the dataset in increasing order. -/
def IdsOf (df : LongData V) (ids : List Int) : Prop := Ascending ids (fun x => ∃ r ∈ df.rows, r.id = x)

/-- `pers` are the periods of the dataset in increasing order. -/
def PeriodsOf (df : LongData V) (pers : List Int) : Prop := Ascending pers (fun p => ∃ r ∈ df.rows, r.period = p)

/-- A pandas index: the levels contain the values of all rows, without repetition. -/
structure IndexOk (df : LongData V) : Prop where
  idNodup : df.idLevel.Nodup
  periodNodup : df.periodLevel.Nodup
  ids : ∀ r ∈ df.rows, r.id ∈ df.idLevel
  periods : ∀ r ∈ df.rows, r.period ∈ df.periodLevel

/-- Each individual has at most one row in each period. -/
def UniqueKeys (df : LongData V) : Prop := (df.rows.map (fun r => (r.id, r.period))).Nodup

/-- Each value of the period level occurs in a row. -/
def NoUnusedPeriods (df : LongData V) : Prop := ∀ p ∈ df.periodLevel, ∃ r ∈ df.rows, r.period = p

/-- The row of the i-th individual in the t-th period of the dataset, `none` if the dataset does not have it. -/
def RowOf (df : LongData V) (ids pers : List Int) (i t : Nat) : Option (LongRow V) → Prop
  | some r => r ∈ df.rows ∧ ids[i]? = some r.id ∧ pers[t]? = some r.period
  | none => i < ids.length ∧ ∀ r ∈ df.rows, ¬(ids[i]? = some r.id ∧ pers[t]? = some r.period)

/-- The value of a column in a row of the dataset; "constant" is always one, otherwise a value that is not in the data is missing. -/
def baseValue [One V] (r : Option (LongRow V)) (c : String) : Option V :=
  if c = "constant" then some 1 else r.bind (fun row => row.cell c)

/-- `v` is the value of the model variable `c`: a variable "outcome_factor" of an anchoring equation has the value of the
outcome, every other variable is a column of the data. -/
def ValueIs [One V] (m : ModelDict α) (r : Option (LongRow V)) (c : String) (v : Option V) : Prop :=
  (∃ f o, AnchoredIn m f o ∧ c = o ++ "_" ++ f ∧ v = baseValue r o) ∨ ((¬∃ f, Anchors m c f) ∧ v = baseValue r c)

/-- No outcome is itself named like the variable of an anchoring equation, and no such name belongs to two outcomes. -/
def NoNameClash (m : ModelDict α) : Prop :=
  ∀ f o g p, AnchoredIn m f o → AnchoredIn m g p → o ≠ p ++ "_" ++ g ∧ (o ++ "_" ++ f = p ++ "_" ++ g → o = p)

/-- Measurements are observed although a control variable is missing. -/
def IncompleteControls [One V] (m : ModelDict α) (r : Option (LongRow V)) (t : Nat) : Prop :=
  (∃ c ∈ "constant" :: m.controls.getD [], ValueIs m r c none) ∧ ∃ w y, IsUpdate m t w ∧ ValueIs m r w (some y)

/-- What process_data makes of a value: it is deleted if measurements are observed although a control variable is missing. -/
def Kept [One V] (m : ModelDict α) (r : Option (LongRow V)) (t : Nat) (v w : Option V) : Prop :=
  (IncompleteControls m r t ∧ w = none) ∨ (¬IncompleteControls m r t ∧ w = v)

/-- `a[i, j]` -/
def entry2 {β : Type} (a : List (List β)) (i j : Nat) : Option β := a[i]?.bind (fun row => row[j]?)

/-- `a[i, j, k]` -/
def entry3 {β : Type} (a : List (List (List β))) (i j k : Nat) : Option β := a[i]?.bind (fun x => entry2 x j k)

/-- `c` is a variable of the dataset that process_data builds: a column of the data, the constant or the variable of an anchoring equation. -/
def HasVariable (m : ModelDict α) (df : LongData V) (c : String) : Prop := c ∈ df.columns ∨ c = "constant" ∨ ∃ f, Anchors m c f

/-- Individual i has the value `v` for variable `c` in the t-th period. -/
def HasValue [One V] (m : ModelDict α) (df : LongData V) (ids pers : List Int) (i t : Nat) (c : String) (v : Option V) : Prop :=
  i < ids.length ∧ ∃ r, RowOf df ids pers i t r ∧ ValueIs m r c v

/-- The requirements on a dataset for the estimation of a model. -/
structure DataOk [One V] (m : ModelDict α) (df : LongData V) (ids pers : List Int) : Prop where
  keys : UniqueKeys df
  outcomes : ∀ f o, AnchoredIn m f o → o ∈ df.columns ∨ o = "constant"
  controls : ∀ t, IsPeriod m t → ∀ c ∈ "constant" :: m.controls.getD [], HasVariable m df c ∧ ∃ i y, HasValue m df ids pers i t c (some y)
  measurements : ∀ t v, IsUpdate m t v → HasVariable m df v ∧ ¬∃ y, ∀ y', (∃ i, HasValue m df ids pers i t v (some y')) ↔ y' = y
  observed : ∀ t, IsPeriod m t → ∀ f ∈ m.observedFactors.getD [], HasVariable m df f ∧ ∀ i, ¬HasValue m df ids pers i t f none

/-- The requirements on a dataset for the simulation of a model. -/
structure SimulationDataOk [One V] (m : ModelDict α) (df : LongData V) (ids pers : List Int) : Prop where
  keys : UniqueKeys df
  outcomes : ∀ f o, AnchoredIn m f o → o ∈ df.columns ∨ o = "constant"
  controls : ∀ t, IsPeriod m t → ∀ c ∈ "constant" :: m.controls.getD [], HasVariable m df c ∧ ∃ i y, HasValue m df ids pers i t c (some y)
  measurements : ∀ t v, IsUpdate m t v → HasVariable m df v
  observed : ∀ t, IsPeriod m t → ∀ f ∈ m.observedFactors.getD [], HasVariable m df f ∧ ∀ i, ¬HasValue m df ids pers i t f none

end Skill.Spec
