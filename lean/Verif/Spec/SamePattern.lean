import Verif.Spec.OwnData
/- Individuals of two datasets that have missing values at the same places. -/
namespace Skill.Spec
variable {α V : Type}

/-- Two rows have missing values in the same columns; in a row that does not exist all values are missing. -/
def SameMissings (m : ModelDict α) (r r' : Option (LongRow V)) : Prop := ∀ c, UsedColumn m c → (r.bind (fun row => row.cell c) = none ↔ r'.bind (fun row => row.cell c) = none)

/-- In the periods up to `T`, the i-th individual of one dataset has missing values at the same places as the i'-th individual of another dataset. The values may be different. -/
def SamePatternUpTo (m : ModelDict α) (T : Nat) (df : LongData V) (ids pers : List Int) (i : Nat) (df' : LongData V) (ids' pers' : List Int) (i' : Nat) : Prop :=
  i < ids.length ∧ i' < ids'.length ∧ ∀ t, IsPeriod m t → t ≤ T → ∀ r r', RowOf df ids pers i t r → RowOf df' ids' pers' i' t r' → SameMissings m r r'

end Skill.Spec
