import Verif.Spec.OwnData
/- Individuals of two datasets that have the same data up to some period, except for one measurement of this period. -/
namespace Skill.Spec
variable {α V : Type}

/-- The i-th individual of one dataset and the i'-th individual of another dataset have the same data in all periods before `T`, and also in period `T`, except for the column `v`. Both have a value in this column in
period `T`, and the value of the second one is at least as high. The data of later periods may be different. -/
structure HigherMeasurement [LE V] (m : ModelDict α) (T : Nat) (v : String) (df : LongData V) (ids pers : List Int) (i : Nat) (df' : LongData V) (ids' pers' : List Int) (i' : Nat) : Prop where
  first : i < ids.length
  second : i' < ids'.length
  before : ∀ t, IsPeriod m t → t < T → ∀ r r', RowOf df ids pers i t r → RowOf df' ids' pers' i' t r' → SameCells m r r'
  others : ∀ r r', RowOf df ids pers i T r → RowOf df' ids' pers' i' T r' → ∀ c, UsedColumn m c → c ≠ v → r.bind (fun row => row.cell c) = r'.bind (fun row => row.cell c)
  higher : ∀ r r', RowOf df ids pers i T r → RowOf df' ids' pers' i' T r' → ∃ y y', r.bind (fun row => row.cell v) = some y ∧ r'.bind (fun row => row.cell v) = some y' ∧ y ≤ y'

/-- The column `v` is used only as a measurement of factor `f` in period `T`: it measures no other factor in this period, and it is no control variable, no observed factor and no anchoring outcome. -/
structure OnlyMeasures (m : ModelDict α) (T : Nat) (v f : String) : Prop where
  measures : ∀ g, Measures m T v g ↔ g = f
  notConstant : v ≠ "constant"
  notControl : v ∉ m.controls.getD []
  notObserved : v ∉ m.observedFactors.getD []
  notOutcome : ¬∃ g, AnchoredIn m g v

end Skill.Spec
