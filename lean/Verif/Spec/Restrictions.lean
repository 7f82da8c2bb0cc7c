import Verif.Spec.Admissible

/-! Restrictions of the parameters: what a model dictionary says about them besides the equations of the model (C130). -/

namespace Skill.Spec

/-- The model dictionary without stagemap, normalizations, the flags for free parameters of anchoring equations, and bounds. -/
def withoutRestrictions (m : ModelDict ℝ) : ModelDict ℝ :=
  { m with
    factors := m.factors.map (fun fs => (fs.1, { fs.2 with normalizations := none }))
    stagemap := none
    anchoring := m.anchoring.map (fun a => { a with freeControls := none, freeConstant := none, freeLoadings := none })
    estimationOptions := m.estimationOptions.map (fun o => { o with robustBounds := none, boundsDistance := none }) }

/-- Two model dictionaries that can differ only in their restrictions. -/
def SameUpToRestrictions (m m' : ModelDict ℝ) : Prop := withoutRestrictions m = withoutRestrictions m'

/-- The model `m'` has all restrictions of the model `m`, and possibly more: more normalizations, longer stages, fewer free parameters in anchoring equations, higher lower bounds. -/
structure HasRestrictionsOf (m m' : ModelDict ℝ) : Prop where
  same : SameUpToRestrictions m m'
  loadings : ∀ f spec t v x, (f, spec) ∈ m.factors → LoadingNorm spec t v x → ∃ spec', (f, spec') ∈ m'.factors ∧ LoadingNorm spec' t v x
  intercepts : ∀ f spec t v x, (f, spec) ∈ m.factors → InterceptNorm spec t v x → ∃ spec', (f, spec') ∈ m'.factors ∧ InterceptNorm spec' t v x
  stages : ∀ p q s, StageOf m p s → StageOf m q s → ∃ s', StageOf m' p s' ∧ StageOf m' q s'
  freeControls : AnchorFlag m' AnchoringSpec.freeControls → AnchorFlag m AnchoringSpec.freeControls
  freeConstant : AnchorFlag m' AnchoringSpec.freeConstant → AnchorFlag m AnchoringSpec.freeConstant
  freeLoadings : AnchorFlag m' AnchoringSpec.freeLoadings → AnchorFlag m AnchoringSpec.freeLoadings
  bounds : ∀ d d', BoundsDistance m d → BoundsDistance m' d' → d ≤ d'

end Skill.Spec
