import Verif.Spec.Data
import Verif.Spec.Correlation
/- Data in other units, and the parameters that belong to them. -/
namespace Skill.Spec
variable {α : Type}

/-- `a` and `b` change the units of the measurements and control variables of the model, and not those of anchoring outcomes and observed factors: a value `y` of column `c` in data period `p` becomes `a p c * y + b p c`. -/
structure UnitsOk (m : ModelDict α) (a b : Int → String → ℝ) : Prop where
  nonzero : ∀ p c, a p c ≠ 0
  constant : ∀ p, a p "constant" = 1 ∧ b p "constant" = 0
  observed : ∀ p, ∀ f ∈ m.observedFactors.getD [], a p f = 1 ∧ b p f = 0
  /-- the anchored factors depend on the constants of the anchoring equations, so the zero of a control variable may only change if there is no anchoring -/
  controls : (∃ f o, AnchoredIn m f o) → ∀ p, ∀ x ∈ m.controls.getD [], b p x = 0
  outcomes : ∀ p f o, AnchoredIn m f o → a p o = 1 ∧ b p o = 0 ∧ a p (o ++ "_" ++ f) = 1 ∧ b p (o ++ "_" ++ f) = 0

/-- The parameters for data in other units. The equation y = constant + Σ controls + Σ loading * factor + sd * ε of a measurement becomes an equation for a * y + b, in terms of control variables a * x + b. -/
noncomputable def unitParams (m : ModelDict α) (a b : Nat → String → ℝ) (val : Loc → ℝ) (l : Loc) : ℝ :=
  match l.cat with
  | .loadings => a l.period l.name1 * val l
  | .measSds => |a l.period l.name1| * val l
  | .controls =>
    if l.name2 = "constant" then
      a l.period l.name1 * (val l - ((m.controls.getD []).map (fun x => val ⟨.controls, l.period, l.name1, x⟩ * b l.period x / a l.period x)).sum) + b l.period l.name1
    else a l.period l.name1 * val l / a l.period l.name2
  | _ => val l

/-- The update of period `t` with variable `v` uses an observation of individual `i`: the variable is observed, and its value is not deleted because of missing control variables. -/
def UsesObservation (m : ModelDict α) (df : LongData ℝ) (ids pers : List Int) (i t : Nat) (v : String) : Prop :=
  ∃ r y, RowOf df ids pers i t r ∧ ValueIs m r v (some y) ∧ ¬IncompleteControls m r t

/-- The shift of the log likelihood of individual `i`: the logarithms of the units of all measurements that are used. -/
noncomputable def logUnits (m : ModelDict ℝ) (df : LongData ℝ) (ids pers : List Int) (a : Int → String → ℝ) (updates : List (ℕ × String)) (i : ℕ) : ℝ :=
  open Classical in (updates.map (fun u => if UsesObservation m df ids pers i u.1 u.2 then Real.log |a (pers.getD u.1 0) u.2| else 0)).sum

end Skill.Spec
