import Verif.Spec.LabelModel

/-! Model dictionaries that say the same, in a different order. -/

namespace Skill.Spec

variable {α : Type}

/-- Two model dictionaries have the same factors, transition functions, measurements, controls, observed factors and anchoring. They can differ in the order in which these are listed. -/
structure SameModel (m m' : ModelDict α) : Prop where
  latent : ∀ f, IsLatent m f ↔ IsLatent m' f
  transitions : ∀ f name, HasTransition m f name ↔ HasTransition m' f name
  measures : ∀ t v f, Measures m t v f ↔ Measures m' t v f
  controls : ∀ c, c ∈ m.controls.getD [] ↔ c ∈ m'.controls.getD []
  observed : ∀ f, f ∈ m.observedFactors.getD [] ↔ f ∈ m'.observedFactors.getD []
  anchored : ∀ f o, AnchoredIn m f o ↔ AnchoredIn m' f o
  ignore : AnchorFlag m AnchoringSpec.ignoreConstant ↔ AnchorFlag m' AnchoringSpec.ignoreConstant

/-- The entry of the lower triangular Cholesky factor of the covariance matrix of the initial factors: zero if `g` is listed after `f`. -/
noncomputable def cholEntry (m : ModelDict α) (val : Loc → ℝ) (e : Nat) (f g : String) : ℝ :=
  if (latents m).idxOf g ≤ (latents m).idxOf f then val ⟨.initialCholcovs, 0, mixtureName e, f ++ "-" ++ g⟩ else 0

/-- The covariance of the factors `f` and `g` in the first period, in mixture element `e`. -/
noncomputable def initialCov (m : ModelDict α) (val : Loc → ℝ) (e : Nat) (f g : String) : ℝ := ((latents m).map (fun h => cholEntry m val e f h * cholEntry m val e g h)).sum

/-- The same values of the parameters, except that the mixture elements can be numbered differently (`σ`) and that Cholesky factors of the same covariance matrix of the initial factors can be different (they depend on the order
of the factors). -/
structure SameParameters (m m' : ModelDict α) {k : Nat} (σ : Equiv.Perm (Fin k)) (val val' : Loc → ℝ) : Prop where
  weights : ∀ e : Fin k, val' ⟨.mixtureWeights, 0, mixtureName (σ e), "-"⟩ = val ⟨.mixtureWeights, 0, mixtureName e, "-"⟩
  means : ∀ (e : Fin k) (f : String), IsLatent m f → val' ⟨.initialStates, 0, mixtureName (σ e), f⟩ = val ⟨.initialStates, 0, mixtureName e, f⟩
  covs : ∀ (e : Fin k) (f g : String), IsLatent m f → IsLatent m g → initialCov m' val' (σ e) f g = initialCov m val e f g
  others : ∀ l : Loc, l.cat ≠ .mixtureWeights → l.cat ≠ .initialStates → l.cat ≠ .initialCholcovs → val' l = val l

end Skill.Spec
