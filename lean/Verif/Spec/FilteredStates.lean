import Verif.Spec.LabelModel
/-
The ranges of filtered states.
-/
namespace Skill.Spec

/-- `ranges` has for each factor, and for each period in which there are rows, the smallest and the largest value of the factor in the rows of the period. -/
structure RangesOf (factors : List String) (rows : List (Nat × (String → ℝ))) (ranges : List (String × List (Nat × ℝ × ℝ))) : Prop where
  keys : ranges.map Prod.fst = factors
  sorted : ∀ f range, (f, range) ∈ ranges → range.Pairwise (fun a b => a.1 < b.1)
  periods : ∀ f range, (f, range) ∈ ranges → ∀ t, (∃ lo hi, (t, lo, hi) ∈ range) ↔ ∃ cells, (t, cells) ∈ rows
  bounds : ∀ f range t lo hi cells, (f, range) ∈ ranges → (t, lo, hi) ∈ range → (t, cells) ∈ rows → lo ≤ cells f ∧ cells f ≤ hi
  attained : ∀ f range t lo hi, (f, range) ∈ ranges → (t, lo, hi) ∈ range → (∃ cells, (t, cells) ∈ rows ∧ cells f = lo) ∧ ∃ cells, (t, cells) ∈ rows ∧ cells f = hi

end Skill.Spec
