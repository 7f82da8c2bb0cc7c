import Verif.Spec.SimulatedDataset
import Verif.Spec.Rescaling
/-! Changes of the locations of latent factors. -/
namespace Skill.Spec

open Classical in
/-- `val'` are the values of the parameters after each latent factor `f` is moved by `τ t f` in period t. Initial means move with the factors. The intercept of a measurement, or of an anchoring equation, falls by the sum over its
factors of the loading times the move. The transition functions with the new parameters map moved factors of period t to the factors of period t + 1, moved. All other parameters (controls, loadings, standard deviations, Cholesky
factors and weights) stay as they are. -/
structure MovedLocations (custom : String → CustomFn) (m : ModelDict ℝ) (τ : Nat → String → ℝ) (val val' : Loc → ℝ) : Prop where
  means : ∀ e f, IsLatent m f → val' ⟨.initialStates, 0, mixtureName e, f⟩ = val ⟨.initialStates, 0, mixtureName e, f⟩ + τ 0 f
  intercepts : ∀ t v, IsUpdate m t v → val' ⟨.controls, t, v, "constant"⟩ = val ⟨.controls, t, v, "constant"⟩ - ((latents m).map (fun f => if Loads m t v f then val ⟨.loadings, t, v, f⟩ * τ t f else 0)).sum
  transitions : ∀ t, IsPeriod m (t + 1) → ∀ (cov : Covariates) (s : String → ℝ) (f : String), IsLatent m f → factorNext custom m val' cov t (fun g => s g + τ t g) f = factorNext custom m val cov t s f + τ (t + 1) f
  others : ∀ l, l.cat ≠ .initialStates → l.cat ≠ .transition → ¬(l.cat = .controls ∧ l.name2 = "constant") → val' l = val l

/-- Built-in transition functions, with values of parameters for which moves of the locations of factors are possible: CES functions have positive weights, phi and tfp are not zero. (robust_translog and functions written by
the user are not in this list.) -/
def MovableTransitions (m : ModelDict ℝ) (val : Loc → ℝ) : Prop :=
  ∀ t, IsPeriod m (t + 1) → ∀ f spec, (f, spec) ∈ m.factors → ∃ name, spec.transition = .named name ∧ (name = "linear" ∨ name = "linear_and_squares" ∨ name = "translog" ∨ name = "constant" ∨
    (name = "log_ces" ∧ (∀ g ∈ allFactors m, 0 < val ⟨.transition, t, f, g⟩) ∧ val ⟨.transition, t, f, "phi"⟩ ≠ 0) ∨
    (name = "log_ces_general" ∧ (∀ g ∈ allFactors m, 0 < val ⟨.transition, t, f, g⟩) ∧ val ⟨.transition, t, f, "tfp"⟩ ≠ 0))

/-- The weights of the function log_ces of each factor add up to one. -/
def CesWeightsSumToOne (m : ModelDict ℝ) (val : Loc → ℝ) : Prop :=
  ∀ t, IsPeriod m (t + 1) → ∀ f, HasTransition m f "log_ces" → ((allFactors m).map (fun g => val ⟨.transition, t, f, g⟩)).sum = 1

open Classical in
/-- The values of parameters after factors are moved by `τ`, without a change of transition functions: initial means move with the factors, intercepts of measurements and of anchoring equations are corrected, and all other
parameters stay as they are. -/
noncomputable def movedIntercepts (m : ModelDict ℝ) (τ : Nat → String → ℝ) (val : Loc → ℝ) (l : Loc) : ℝ :=
  if l.cat = .initialStates then val l + τ 0 l.name2
  else if l.cat = .controls ∧ l.name2 = "constant" then val l - ((latents m).map (fun f => if Loads m l.period l.name1 f then val ⟨.loadings, l.period, l.name1, f⟩ * τ l.period f else 0)).sum
  else val l

end Skill.Spec
