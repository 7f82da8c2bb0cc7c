import Verif.Spec.LabelModel
/- Values of parameters that differ only in signs that do not matter. -/
namespace Skill.Spec

/-- The values differ at most in the signs of standard deviations and in the signs of columns of the Cholesky factors of the initial covariance matrices; `k` is the number of mixture elements. -/
structure SameUpToSigns (m : ModelDict ℝ) (k : Nat) (val val' : Loc → ℝ) : Prop where
  measSds : ∀ l, l.cat = .measSds → |val' l| = |val l|
  shockSds : ∀ l, l.cat = .shockSds → |val' l| = |val l|
  chols : ∀ e < k, ∀ f, IsLatent m f → ∃ sign : ℝ, (sign = 1 ∨ sign = -1) ∧ ∀ g, IsLatent m g →
    val' ⟨.initialCholcovs, 0, mixtureName e, g ++ "-" ++ f⟩ = sign * val ⟨.initialCholcovs, 0, mixtureName e, g ++ "-" ++ f⟩
  others : ∀ l, l.cat ≠ .measSds → l.cat ≠ .shockSds → l.cat ≠ .initialCholcovs → val' l = val l

/-- All standard deviations and all diagonal entries of the Cholesky factors are nonnegative. -/
structure NonnegativeScales (m : ModelDict ℝ) (k : Nat) (val : Loc → ℝ) : Prop where
  measSds : ∀ l, l.cat = .measSds → 0 ≤ val l
  shockSds : ∀ l, l.cat = .shockSds → 0 ≤ val l
  chols : ∀ e < k, ∀ f, IsLatent m f → 0 ≤ val ⟨.initialCholcovs, 0, mixtureName e, f ++ "-" ++ f⟩

end Skill.Spec
