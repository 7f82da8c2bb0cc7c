import Verif.Spec.Simulation
import Mathlib.Probability.Independence.Basic
/- The random draws of a simulated dataset, and the simulated values by name. -/
namespace Skill.Spec
open MeasureTheory ProbabilityTheory
variable {nMix n : ℕ}

/-- All standard normal draws of an individual: for the start state, for the shocks of each transition, for the measurement errors of each period and for the policies. -/
inductive DrawIndex (n : ℕ) where
  | start (f : Fin n)
  | shock (t : Nat) (f : Fin n)
  | error (t k : Nat)
  | policy (k : Nat)

/-- The draws of the simulation with mixture element `e` and standard normal draws `z`. -/
def drawsOf (e : Fin nMix) (z : DrawIndex n → ℝ) : Draws nMix n where
  element := e
  start := fun f => z (.start f)
  shocks := fun t f => z (.shock t f)
  errors := fun t k => z (.error t k)
  policies := fun k => z (.policy k)

/-- The random number generator works as documented: all standard normal draws are independent and standard normal, and the mixture element is drawn with the probabilities `weights` and independently
of them. -/
structure RandomDraws {Ω : Type} [MeasurableSpace Ω] (P : Measure Ω) (weights : Fin nMix → ℝ) (E : Ω → Fin nMix) (Z : DrawIndex n → Ω → ℝ) : Prop where
  measurable_element : Measurable E
  measurable : ∀ j, Measurable (Z j)
  normal : ∀ j, P.map (Z j) = gaussianReal 0 1
  independent : iIndepFun Z P
  element_independent : IndepFun E (fun ω j => Z j ω) P
  element_weights : ∀ e, P (E ⁻¹' {e}) = ENNReal.ofReal (weights e)

/-- The simulated value of variable `v` in period `t`. -/
noncomputable def valueOf (s : Simulated n) (t : Nat) (v : String) : ℝ :=
  (((s.measurements.getD t []).find? (fun y => y.1 == v)).map (fun y => y.2)).getD 0

/-- The simulated data of individual `i`, in the order of the updates `rows`; the measurements that are missing in `data` are recorded as 0. -/
noncomputable def simulatedData {nObs nC K : ℕ} (rows : List (UpdateParams n nC)) (data : List (Fin nObs → Option ℝ)) (i : Fin nObs) (s : Simulated n) (k : Fin K) : ℝ :=
  match rows[k.val]?, data[k.val]? with
  | some r, some y => if (y i).isSome then valueOf s r.period r.var else 0
  | _, _ => 0

end Skill.Spec
