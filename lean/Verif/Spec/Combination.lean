import Verif.Spec.OwnData
import Mathlib.Data.Real.Basic
/- An individual whose data are a combination of the data of two other individuals. -/
namespace Skill.Spec

/-- All three values are missing, or the third value is `a` times the first plus `1 - a` times the second. -/
def Combines (a : ℝ) (x y z : Option ℝ) : Prop := (x = none ∧ y = none ∧ z = none) ∨ ∃ u v, x = some u ∧ y = some v ∧ z = some (a * u + (1 - a) * v)

/-- The same in all columns of a row that the model uses; in a row that does not exist all values are missing. -/
def CombinesRows (m : ModelDict ℝ) (a : ℝ) (r₁ r₂ r₃ : Option (LongRow ℝ)) : Prop :=
  ∀ c, UsedColumn m c → Combines a (r₁.bind (fun row => row.cell c)) (r₂.bind (fun row => row.cell c)) (r₃.bind (fun row => row.cell c))

/-- A position in the (sorted) individuals of a dataset. -/
structure Person where
  df : LongData ℝ
  ids : List Int
  pers : List Int
  i : Nat
  index : IndexOk df
  used : NoUnusedPeriods df
  isIds : IdsOf df ids
  isPers : PeriodsOf df pers
  lt : i < ids.length

/-- In the periods up to `T`, the data of the third individual are the combination of the data of the first and the second individual. -/
def CombinesUpTo (m : ModelDict ℝ) (a : ℝ) (T : Nat) (p₁ p₂ p₃ : Person) : Prop :=
  ∀ t, IsPeriod m t → t ≤ T → ∀ r₁ r₂ r₃, RowOf p₁.df p₁.ids p₁.pers p₁.i t r₁ → RowOf p₂.df p₂.ids p₂.pers p₂.i t r₂ → RowOf p₃.df p₃.ids p₃.pers p₃.i t r₃ → CombinesRows m a r₁ r₂ r₃

end Skill.Spec
