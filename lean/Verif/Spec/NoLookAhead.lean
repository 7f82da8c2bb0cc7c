import Verif.Spec.OwnData
/- Individuals of two datasets that have the same data up to some period. -/
namespace Skill.Spec
variable {α V : Type}

/-- The i-th individual of one dataset has the same data as the i'-th individual of another dataset in all periods of the model up to period `T`; the data of later periods may be different. -/
def SameHistoryUpTo (m : ModelDict α) (T : Nat) (df : LongData V) (ids pers : List Int) (i : Nat) (df' : LongData V) (ids' pers' : List Int) (i' : Nat) : Prop :=
  i < ids.length ∧ i' < ids'.length ∧ ∀ t, IsPeriod m t → t ≤ T → ∀ r r', RowOf df ids pers i t r → RowOf df' ids' pers' i' t r' → SameCells m r r'

end Skill.Spec
