import Verif.Spec.Data
/- Individuals of two datasets that have the same data. -/
namespace Skill.Spec
variable {α V : Type}

/-- `c` is a column of the data that the model uses: a measurement, an anchoring outcome, a control variable or an observed factor. -/
def UsedColumn (m : ModelDict α) (c : String) : Prop :=
  (∃ t f, Measures m t c f) ∨ (∃ f, AnchoredIn m f c) ∨ c ∈ m.controls.getD [] ∨ c ∈ m.observedFactors.getD []

/-- Two rows have the same values in the columns that the model uses; a row that does not exist has no values. -/
def SameCells (m : ModelDict α) (r r' : Option (LongRow V)) : Prop := ∀ c, UsedColumn m c → r.bind (fun row => row.cell c) = r'.bind (fun row => row.cell c)

/-- The i-th individual of one dataset has the same data as the i'-th individual of another dataset in all periods of the model. -/
def SameHistory (m : ModelDict α) (df : LongData V) (ids pers : List Int) (i : Nat) (df' : LongData V) (ids' pers' : List Int) (i' : Nat) : Prop :=
  i < ids.length ∧ i' < ids'.length ∧ ∀ t, IsPeriod m t → ∀ r r', RowOf df ids pers i t r → RowOf df' ids' pers' i' t r' → SameCells m r r'

end Skill.Spec
