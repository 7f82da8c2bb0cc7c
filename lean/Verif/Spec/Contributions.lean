import Verif.Spec.LabelModel

/-! The order of the measurements of an individual. -/

namespace Skill.Spec

/-- `v` is a measurement of period `t` and comes before the update with number `j`. Anchoring outcomes are not measurements. -/
def EarlierMeasurement (m : ModelDict α) (updates : List (Nat × String)) (j : Fin updates.length) (t : Nat) (v : String) : Prop :=
  IsMeasurement m t v ∧ ∃ i < j, updates.get i = (t, v)

/-- `v` is a measurement of period `t` and comes before the update with number `j`, or is the variable of this update. -/
def MeasuredUpTo (m : ModelDict α) (updates : List (Nat × String)) (j : Fin updates.length) (t : Nat) (v : String) : Prop :=
  IsMeasurement m t v ∧ ∃ i ≤ j, updates.get i = (t, v)

end Skill.Spec
