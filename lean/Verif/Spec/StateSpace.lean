import Mathlib.Probability.Distributions.Gaussian.Real
import Mathlib.MeasureTheory.Constructions.Pi
import Mathlib.LinearAlgebra.Matrix.PosDef
/-
The data generating process of one individual, driven by independent standard normal draws.
-/
namespace Skill.Spec
open Matrix MeasureTheory

/-- One step of the process: a measurement h'x + c + sd * ε of the current state x, which may be missing in
the data, and possibly a transition to the next period: x' = g x + q * η. -/
structure Step (n : ℕ) where
  h : Fin n → ℝ
  c : ℝ
  sd : ℝ
  observed : Bool
  transition : Option (((Fin n → ℝ) → Fin n → ℝ) × (Fin n → ℝ))

/-- The state after a step. -/
def Step.next {n : ℕ} (s : Step n) (x η : Fin n → ℝ) : Fin n → ℝ :=
  match s.transition with
  | none => x
  | some (g, q) => fun f => g x f + q f * η f

/-- The data of one individual: the measurements of all steps, missing ones are recorded as 0. Each
step has its own draws of the measurement error and of the shocks. -/
def simulate {n : ℕ} : (steps : List (Step n)) → (x : Fin n → ℝ) → (draws : Fin steps.length → ℝ × (Fin n → ℝ)) → Fin steps.length → ℝ
  | [], _, _ => Fin.elim0
  | s :: ss, x, draws =>
    Fin.cons (α := fun _ => ℝ) (if s.observed then s.h ⬝ᵥ x + s.c + s.sd * (draws 0).1 else 0)
      (simulate ss (s.next x (draws 0).2) (fun k => draws k.succ))

/-- Independent standard normal draws. -/
noncomputable def stdNormal (ι : Type) [Fintype ι] : Measure (ι → ℝ) := Measure.pi (fun _ => ProbabilityTheory.gaussianReal 0 1)

/-- Independent standard normal draws of measurement errors and shocks for `k` steps. -/
noncomputable def stdDraws (k n : ℕ) : Measure (Fin k → ℝ × (Fin n → ℝ)) :=
  Measure.pi (fun _ => (ProbabilityTheory.gaussianReal 0 1).prod (stdNormal (Fin n)))

/-- Distribution of the data of an individual whose initial state is m + Uᵀ z (so it has mean m and
covariance matrix UᵀU) where z, the measurement errors and the shocks are independent standard
normal draws. -/
noncomputable def dataLaw {n : ℕ} (m : Fin n → ℝ) (U : Matrix (Fin n) (Fin n) ℝ) (steps : List (Step n)) : Measure (Fin steps.length → ℝ) :=
  ((stdNormal (Fin n)).prod (stdDraws steps.length n)).map (fun d => simulate steps (m + Uᵀ *ᵥ d.1) d.2)

/-- The measure with respect to which densities are taken: Lebesgue measure for observed
measurements and a point mass at 0 for missing ones. -/
noncomputable def baseMeasure {n : ℕ} (steps : List (Step n)) : Measure (Fin steps.length → ℝ) :=
  Measure.pi (fun k => if (steps.get k).observed then volume else Measure.dirac 0)

end Skill.Spec
