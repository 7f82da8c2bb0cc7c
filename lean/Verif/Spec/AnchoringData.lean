import Verif.Spec.LabelModel
/-
Datasets that differ in the values of anchoring outcomes only.
-/
namespace Skill.Spec

/-- The variable `c` has a role in the model other than that of an anchoring outcome. -/
def UsedVariable {α : Type} (m : ModelDict α) (c : String) : Prop := (∃ t, IsMeasurement m t c) ∨ c ∈ "constant" :: m.controls.getD [] ∨ c ∈ m.observedFactors.getD []

/-- In both datasets the individuals have the same values of measurements, controls and observed factors in each period. The values of anchoring outcomes may differ, and so may the outcomes that are observed, unless control variables are missing: process_data deletes the values of an individual in a period if a control variable is missing but some measurement or outcome is observed. -/
def SameUpToOutcomes {α : Type} (m : ModelDict α) (df df' : LongData ℝ) (ids pers : List Int) : Prop :=
  ∀ i t r r', i < ids.length → IsPeriod m t → RowOf df ids pers i t r → RowOf df' ids pers i t r' →
    (∀ c, UsedVariable m c → ∀ v, ValueIs m r c v ↔ ValueIs m r' c v) ∧
    ((∃ c ∈ "constant" :: m.controls.getD [], ValueIs m r c none) → ∀ f o, AnchoredIn m f o → (baseValue r o = none ↔ baseValue r' o = none))

end Skill.Spec
