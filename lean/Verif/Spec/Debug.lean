import Verif.Model.ProcessModel
/- Vocabulary for the debug data (the rows of the table of updates are described by C01). -/
namespace Skill.Spec

/-- The row with number `k` of the table of updates is the last measurement update of period `t`. -/
def LastMeasurement (u : List URow) (t k : Nat) : Prop :=
  ∃ r, u[k]? = some r ∧ r.period = t ∧ r.purpose = .measurement ∧ ∀ k' r', u[k']? = some r' → r'.period = t → r'.purpose = .measurement → k' ≤ k

end Skill.Spec
