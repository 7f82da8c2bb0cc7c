import Mathlib.Analysis.SpecialFunctions.Log.Deriv
import Mathlib.Analysis.SpecialFunctions.ExpDeriv
import Mathlib.Analysis.Calculus.Deriv.Abs
import Verif.Lemmas.SmoothQR
/-
The filter is differentiable in the parameters.
-/
namespace Skill
open Matrix Spec
variable {nObs nMix n nT nObserved nC : ℕ} {θ : Type} {E : Type} [NormedAddCommGroup E] [NormedSpace ℝ E]

/-- States, Cholesky factors and weights depend differentiably on `x`; the Cholesky factors are regular at `x₀`. -/
structure SmoothCarry (c : E → Carry nObs nMix n) (x₀ : E) : Prop where
  states : ∀ i e f, DifferentiableAt ℝ (fun x => (c x).states i e f) x₀
  chols : ∀ i e f g, DifferentiableAt ℝ (fun x => (c x).upperChols i e f g) x₀
  weights : ∀ i e, DifferentiableAt ℝ (fun x => (c x).logWeights i e) x₀
  regular : ∀ i e, RegularUpper ((c x₀).upperChols i e)

/-- The parameters of an update depend differentiably on `x`, the rest does not depend on `x`. -/
structure SmoothArgs (a : E → LoopArgs nObs n nC) (x₀ : E) : Prop where
  period : ∀ x, (a x).period = (a x₀).period
  measurements : ∀ x, (a x).measurements = (a x₀).measurements
  isMeasurement : ∀ x, (a x).isMeasurement = (a x₀).isMeasurement
  isPredict : ∀ x, (a x).isPredict = (a x₀).isPredict
  loadings : ∀ f, DifferentiableAt ℝ (fun x => (a x).loadings f) x₀
  controlParams : ∀ f, DifferentiableAt ℝ (fun x => (a x).controlParams f) x₀
  measSd : DifferentiableAt ℝ (fun x => (a x).measSd) x₀
  measSd_ne : (a x₀).measSd ≠ 0

/-- The parameters of the transitions depend differentiably on `x`, the rest does not depend on `x`. -/
structure SmoothFixed (fixed : E → ScanFixed nObs nT n nObserved nC θ) (x₀ : E) : Prop where
  controls : ∀ x, (fixed x).controls = (fixed x₀).controls
  observed : ∀ x, (fixed x).observed = (fixed x₀).observed
  scalingFactor : ∀ x, (fixed x).sigmaScalingFactor = (fixed x₀).sigmaScalingFactor
  weights : ∀ x, (fixed x).sigmaWeights = (fixed x₀).sigmaWeights
  shockSds : ∀ t f, DifferentiableAt ℝ (fun x => (fixed x).shockSds t f) x₀
  scaling : ∀ t f, DifferentiableAt ℝ (fun x => (fixed x).scaling t f) x₀
  scaling_ne : ∀ t f, (fixed x₀).scaling t (Fin.castAdd nObserved f) ≠ 0
  constants : ∀ t f, DifferentiableAt ℝ (fun x => (fixed x).constants t f) x₀
  func : ∀ (t : Fin (nT + 1)) (σ : E → Fin (n + nObserved) → ℝ), (∀ f, DifferentiableAt ℝ (fun x => σ x f) x₀) →
    ∀ f, DifferentiableAt ℝ (fun x => (fixed x).func ((fixed x).transition t) (σ x) f) x₀

variable {x₀ : E}

theorem diff_logsumexp {k : ℕ} (hk : 0 < k) {w : E → Fin k → ℝ} (hw : ∀ e, DifferentiableAt ℝ (fun x => w x e) x₀) : DifferentiableAt ℝ (fun x => logsumexp (w x)) x₀ := by
  unfold logsumexp
  refine DifferentiableAt.log (DifferentiableAt.fun_sum (fun e _ => (hw e).exp)) ?_
  haveI : Nonempty (Fin k) := ⟨⟨0, hk⟩⟩
  exact (Finset.sum_pos (fun e _ => Real.exp_pos _) Finset.univ_nonempty).ne'

theorem diff_normLogpdf {r s : E → ℝ} (hr : DifferentiableAt ℝ r x₀) (hs : DifferentiableAt ℝ s x₀) (h : s x₀ ≠ 0) : DifferentiableAt ℝ (fun x => normLogpdf (r x) 0 (s x)) x₀ := by
  unfold normLogpdf
  have h2 : DifferentiableAt ℝ (fun x => s x ^ 2) x₀ := hs.fun_pow 2
  have h3 : s x₀ ^ 2 ≠ 0 := pow_ne_zero 2 h
  refine diff_div (f := fun x => -(Real.log (2 * Real.pi * s x ^ 2) + (r x - 0) ^ 2 / s x ^ 2)) (g := fun _ => 2) (DifferentiableAt.fun_neg (DifferentiableAt.fun_add (DifferentiableAt.log (h2.const_mul _) ?_)
    (diff_div (f := fun x => (r x - 0) ^ 2) (g := fun x => s x ^ 2) ((hr.sub_const 0).fun_pow 2) h2 h3))) (differentiableAt_const _) two_ne_zero
  exact mul_ne_zero (mul_ne_zero two_ne_zero Real.pi_ne_zero) h3

theorem updateMatrix_differentiable {sd : E → ℝ} {f : E → Fin n → ℝ} {U : E → Matrix (Fin n) (Fin n) ℝ} (hsd : DifferentiableAt ℝ sd x₀) (hf : ∀ i, DifferentiableAt ℝ (fun x => f x i) x₀)
    (hU : ∀ i j, DifferentiableAt ℝ (fun x => U x i j) x₀) (i j : Fin (n + 1)) : DifferentiableAt ℝ (fun x => updateMatrix (sd x) (f x) (U x) i j) x₀ := by
  refine Fin.cases ?_ (fun i' => ?_) i <;> refine Fin.cases ?_ (fun j' => ?_) j
  · exact hsd
  · exact differentiableAt_const _
  · exact hf i'
  · exact hU i' j'

/-- What an update computes depends differentiably on states, Cholesky factors, weights and parameters. -/
theorem kalmanUpdate_differentiable {c : E → Carry nObs nMix n} (hc : SmoothCarry c x₀) {loadings : E → Fin n → ℝ} {controlParams : E → Fin nC → ℝ} {measSd : E → ℝ}
    (hl : ∀ f, DifferentiableAt ℝ (fun x => loadings x f) x₀) (hp : ∀ f, DifferentiableAt ℝ (fun x => controlParams x f) x₀) (hs : DifferentiableAt ℝ measSd x₀) (hs0 : measSd x₀ ≠ 0)
    (measurements : Fin nObs → Option ℝ) (controls : Fin nObs → Fin nC → ℝ) (i : Fin nObs) :
    let r := fun x => kalmanUpdate smoothQR (c x).states (c x).upperChols (loadings x) (controlParams x) (measSd x) measurements controls (c x).logWeights
    (∀ e f, DifferentiableAt ℝ (fun x => (r x).states i e f) x₀) ∧ (∀ e f g, DifferentiableAt ℝ (fun x => (r x).upperChols i e f g) x₀) ∧
      (∀ e, DifferentiableAt ℝ (fun x => (r x).logWeights i e) x₀) ∧ DifferentiableAt ℝ (fun x => (r x).loglikes i) x₀ := by
  intro r
  cases hm : measurements i with
  | none =>
    have h := fun x => C30_missing_changes_nothing (c x).states (c x).upperChols (loadings x) (controlParams x) (measSd x) measurements controls (c x).logWeights smoothQR i hm
    refine ⟨fun e f => ?_, fun e f g => ?_, fun e => ?_, ?_⟩
    · simp only [r, (h _).1]; exact hc.states i e f
    · simp only [r, (h _).2.1]; exact hc.chols i e f g
    · simp only [r, (h _).2.2.1]; exact hc.weights i e
    · simp only [r, (h _).2.2.2.1]; exact differentiableAt_const _
  | some y =>
    -- the parts of the update
    have hF : ∀ e f, DifferentiableAt ℝ (fun x => ∑ g, (c x).upperChols i e f g * loadings x g) x₀ := fun e f =>
      DifferentiableAt.fun_sum (fun g _ => (hc.chols i e f g).fun_mul (hl g))
    have hM : ∀ e, ∀ a b, DifferentiableAt ℝ (fun x => updateMatrix (measSd x) (fun f => ∑ g, (c x).upperChols i e f g * loadings x g) ((c x).upperChols i e) a b) x₀ := fun e =>
      updateMatrix_differentiable hs (hF e) (hc.chols i e)
    have hdet : ∀ e, ((updateMatrix (measSd x₀) (fun f => ∑ g, (c x₀).upperChols i e f g * loadings x₀ g) ((c x₀).upperChols i e))ᵀ *
        updateMatrix (measSd x₀) (fun f => ∑ g, (c x₀).upperChols i e f g * loadings x₀ g) ((c x₀).upperChols i e)).det ≠ 0 := fun e => by
      rw [det_mul, det_transpose, det_updateMatrix]
      have := (hc.regular i e).det_ne_zero
      exact mul_ne_zero (mul_ne_zero hs0 this) (mul_ne_zero hs0 this)
    obtain ⟨R, hR⟩ : ∃ R : E → Fin nMix → Matrix (Fin (n + 1)) (Fin (n + 1)) ℝ, R = fun x e =>
        smoothQR (n + 1) (n + 1) (updateMatrix (measSd x) (fun f => ∑ g, (c x).upperChols i e f g * loadings x g) ((c x).upperChols i e)) := ⟨_, rfl⟩
    have hRd : ∀ e a b, DifferentiableAt ℝ (fun x => R x e a b) x₀ := fun e a b => by
      rw [hR]
      exact smoothQR_differentiable (hM e) (hdet e) a b
    have hR0 : ∀ e, R x₀ e 0 0 ≠ 0 := fun e => by
      have hu : ∀ a b, b < a → R x₀ e a b = 0 := fun a b h => by rw [hR]; exact smoothQR_valid.upper _ _ _ le_rfl a b h
      exact diag_ne_zero hu (by rw [hR]; dsimp only; rw [smoothQR_valid.gram _ _ _ le_rfl]; exact hdet e) 0
    obtain ⟨D, hD⟩ : ∃ D : E → Fin nMix → ℝ, D = fun x e => y - ((∑ f, (c x).states i e f * loadings x f) + ∑ k, controls i k * controlParams x k) := ⟨_, rfl⟩
    have hDd : ∀ e, DifferentiableAt ℝ (fun x => D x e) x₀ := fun e => by
      rw [hD]
      exact ((DifferentiableAt.fun_sum (fun f _ => (hc.states i e f).fun_mul (hl f))).fun_add (DifferentiableAt.fun_sum (fun k _ => (hp k).const_mul _))).const_sub y
    have hL : ∀ e, DifferentiableAt ℝ (fun x => normLogpdf (D x e) 0 |R x e 0 0|) x₀ := fun e =>
      diff_normLogpdf (hDd e) (DifferentiableAt.abs (hRd e 0 0) (hR0 e)) (abs_ne_zero.mpr (hR0 e))
    have hlog : DifferentiableAt ℝ (fun x => (r x).loglikes i) x₀ := by
      have : (fun x => (r x).loglikes i) = fun x => if nMix ≥ 2 then logsumexp (fun e => normLogpdf (D x e) 0 |R x e 0 0| + (c x).logWeights i e) else ∑ e, normLogpdf (D x e) 0 |R x e 0 0| := by
        funext x
        simp only [r, kalmanUpdate, hm, Option.isSome_some, if_true, hD, hR]
      rw [this]
      split_ifs with h2
      · exact diff_logsumexp (by omega) (fun e => (hL e).fun_add (hc.weights i e))
      · exact DifferentiableAt.fun_sum (fun e _ => hL e)
    refine ⟨fun e f => ?_, fun e f g => ?_, fun e => ?_, hlog⟩
    · have : (fun x => (r x).states i e f) = fun x => (c x).states i e f + R x e 0 f.succ / R x e 0 0 * D x e := by
        funext x
        simp only [r, kalmanUpdate, hm, Option.isSome_some, if_true, hD, hR]
      rw [this]
      exact (hc.states i e f).fun_add ((diff_div (f := fun x => R x e 0 f.succ) (g := fun x => R x e 0 0) (hRd _ _ _) (hRd _ _ _) (hR0 e)).fun_mul (hDd e))
    · have : (fun x => (r x).upperChols i e f g) = fun x => R x e f.succ g.succ := by
        funext x
        simp only [r, kalmanUpdate, hm, Option.isSome_some, if_true, hR, of_apply]
      rw [this]
      exact hRd _ _ _
    · have : (fun x => (r x).logWeights i e) = fun x => if nMix ≥ 2 then (normLogpdf (D x e) 0 |R x e 0 0| + (c x).logWeights i e) - (r x).loglikes i else (c x).logWeights i e := by
        funext x
        simp only [r, kalmanUpdate, hm, Option.isSome_some, if_true, hD, hR]
      rw [this]
      split_ifs
      · exact ((hL e).fun_add (hc.weights i e)).fun_sub hlog
      · exact hc.weights i e

theorem scanUpdate_smooth {fixed : E → ScanFixed nObs nT n nObserved nC θ} (hf : SmoothFixed fixed x₀) {c : E → Carry nObs nMix n} (hc : SmoothCarry c x₀) {a : E → LoopArgs nObs n nC} (ha : SmoothArgs a x₀) :
    SmoothCarry (fun x => (scanUpdate smoothQR (fixed x) (c x) (a x)).1) x₀ ∧ ∀ i, DifferentiableAt ℝ (fun x => (stepOut smoothQR (fixed x) (c x) (a x)).loglikes i) x₀ := by
  have hk := kalmanUpdate_differentiable hc ha.loadings ha.controlParams ha.measSd ha.measSd_ne (a x₀).measurements ((fixed x₀).controls (jaxIndex (nT + 1) (a x₀).period))
  have e1 : ∀ x, (scanUpdate smoothQR (fixed x) (c x) (a x)).2 = kalmanUpdate smoothQR (c x).states (c x).upperChols (a x).loadings (a x).controlParams (a x).measSd (a x₀).measurements
      ((fixed x₀).controls (jaxIndex (nT + 1) (a x₀).period)) (c x).logWeights := fun x => by
    rw [(scanUpdate_eq smoothQR (fixed x) (c x) (a x)).1, ha.measurements x, hf.controls x, ha.period x]
  have e2 : ∀ x, (scanUpdate smoothQR (fixed x) (c x) (a x)).1 = _ := fun x => (scanUpdate_eq smoothQR (fixed x) (c x) (a x)).2
  refine ⟨?_, fun i => ?_⟩
  · by_cases hm : (a x₀).isMeasurement
    · have e3 : (fun x => (scanUpdate smoothQR (fixed x) (c x) (a x)).1) = fun x =>
          ⟨(scanUpdate smoothQR (fixed x) (c x) (a x)).2.states, (scanUpdate smoothQR (fixed x) (c x) (a x)).2.upperChols, (scanUpdate smoothQR (fixed x) (c x) (a x)).2.logWeights⟩ := by
        funext x
        rw [e2, if_pos (by rw [ha.isMeasurement x]; exact hm)]
      rw [e3]
      simp only [e1]
      exact ⟨fun i => (hk i).1, fun i => (hk i).2.1, fun i => (hk i).2.2.1, fun i e => update_regular smoothQR_valid (c x₀).states _ _ (a x₀).controlParams ha.measSd_ne _
        ((fixed x₀).controls (jaxIndex (nT + 1) (a x₀).period)) (c x₀).logWeights i e (hc.regular i e)⟩
    · have e3 : (fun x => (scanUpdate smoothQR (fixed x) (c x) (a x)).1) = fun x =>
          ⟨(c x).states, (c x).upperChols, (scanUpdate smoothQR (fixed x) (c x) (a x)).2.logWeights⟩ := by
        funext x
        rw [e2, if_neg (by rw [ha.isMeasurement x]; exact hm)]
      rw [e3]
      simp only [e1]
      exact ⟨hc.states, hc.chols, fun i => (hk i).2.2.1, hc.regular⟩
  · simp only [stepOut, e1]
    exact (hk i).2.2.2

theorem latent_differentiable {c : E → Carry nObs nMix n} (hc : SmoothCarry c x₀) (s : ℝ) (i : Fin nObs) (e : Fin nMix) (k : Fin (2 * n + 1)) (f : Fin n) :
    DifferentiableAt ℝ (fun x => latentSigmaPoints (c x).states (c x).upperChols s i e k f) x₀ := by
  unfold latentSigmaPoints
  refine ((hc.states i e f).fun_add ?_).fun_add ?_
  · split
    · exact (hc.chols _ _ _ _).mul_const _
    · exact differentiableAt_const _
  · split
    · exact ((hc.chols _ _ _ _).mul_const _).fun_neg
    · exact differentiableAt_const _

theorem predict_smooth {fixed : E → ScanFixed nObs nT n nObserved nC θ} (hf : SmoothFixed fixed x₀) {kappa : ℝ} (hr : RegularFixed (fixed x₀) kappa) {c : E → Carry nObs nMix n} (hc : SmoothCarry c x₀) (t : Int) :
    SmoothCarry (fun x => predictCarry smoothQR (fixed x) (c x) t) x₀ := by
  obtain ⟨T, hT⟩ : ∃ T : E → Fin nObs → Fin nMix → Fin (2 * n + 1) → Fin n → ℝ, T = fun x => transformSigmaPoints (fun i e s => Fin.append (latentSigmaPoints (c x).states (c x).upperChols (fixed x).sigmaScalingFactor i e s)
      ((fixed x).observed (jaxIndex (nT + 1) t) i)) ((fixed x).func ((fixed x).transition (jaxIndex nT t)))
    ![(fixed x).scaling (jaxIndex (nT + 1) t), (fixed x).scaling (jaxIndex (nT + 1) (t + 1))]
    ![(fixed x).constants (jaxIndex (nT + 1) t), (fixed x).constants (jaxIndex (nT + 1) (t + 1))] := ⟨_, rfl⟩
  have hTd : ∀ i e s f, DifferentiableAt ℝ (fun x => T x i e s f) x₀ := by
    intro i e s f
    rw [hT]
    simp only [transformSigmaPoints, Matrix.cons_val_zero, Matrix.cons_val_one]
    refine diff_div (f := fun x => _ - (fixed x).constants (jaxIndex (nT + 1) (t + 1)) (Fin.castAdd nObserved f)) (g := fun x => (fixed x).scaling (jaxIndex (nT + 1) (t + 1)) (Fin.castAdd nObserved f)) ?_ (hf.scaling _ _) (hf.scaling_ne _ _)
    refine DifferentiableAt.fun_sub (hf.func (jaxIndex nT t) (fun x g => Fin.append (latentSigmaPoints (c x).states (c x).upperChols (fixed x).sigmaScalingFactor i e s)
      ((fixed x).observed (jaxIndex (nT + 1) t) i) g * (fixed x).scaling (jaxIndex (nT + 1) t) g + (fixed x).constants (jaxIndex (nT + 1) t) g) (fun g => ?_) f) (hf.constants _ _)
    refine DifferentiableAt.fun_add (DifferentiableAt.fun_mul ?_ (hf.scaling _ _)) (hf.constants _ _)
    refine Fin.addCases (fun g' => ?_) (fun g' => ?_) g
    · simp only [Fin.append_left, hf.scalingFactor]
      exact latent_differentiable hc _ _ _ _ _
    · simp only [Fin.append_right, hf.observed]
      exact differentiableAt_const _
  have hP : ∀ i e f, DifferentiableAt ℝ (fun x => ∑ s, (fixed x₀).sigmaWeights s * T x i e s f) x₀ := fun i e f =>
    DifferentiableAt.fun_sum (fun s _ => (hTd i e s f).const_mul _)
  have e1 : (fun x => predictCarry smoothQR (fixed x) (c x) t) = fun x =>
      ⟨(predictMoments smoothQR (fixed x₀).sigmaWeights ((fixed x).shockSds (jaxIndex nT t)) (T x)).1, (predictMoments smoothQR (fixed x₀).sigmaWeights ((fixed x).shockSds (jaxIndex nT t)) (T x)).2, (c x).logWeights⟩ := by
    funext x
    rw [hT]
    simp only [predictCarry, hf.weights x]
  have hreg := predictCarry_regular smoothQR_valid hr t hc.regular
  have e2 := congrFun e1 x₀
  refine ⟨?_, ?_, hc.weights, hreg⟩
  · intro i e f
    have : (fun x => (predictCarry smoothQR (fixed x) (c x) t).states i e f) = fun x => ∑ s, (fixed x₀).sigmaWeights s * T x i e s f := by
      funext x
      rw [congrFun e1 x]
      rfl
    rw [this]
    exact hP i e f
  · intro i e f g
    obtain ⟨M, hM⟩ : ∃ M : E → Matrix (Fin (2 * n + 1 + n)) (Fin n) ℝ, M = fun x => Matrix.of (Fin.append (fun s f => (T x i e s f - ∑ s, (fixed x₀).sigmaWeights s * T x i e s f) * Real.sqrt ((fixed x₀).sigmaWeights s))
        (fun f => Matrix.diagonal ((fixed x).shockSds (jaxIndex nT t)) f)) := ⟨_, rfl⟩
    have e3 : ∀ x, (predictCarry smoothQR (fixed x) (c x) t).upperChols i e = smoothQR (2 * n + 1 + n) n (M x) := by
      intro x
      rw [congrFun e1 x, hM]
      rfl
    simp only [e3]
    refine smoothQR_differentiable (fun a b => ?_) ?_ f g
    · rw [hM]
      simp only [of_apply]
      refine Fin.addCases (fun s => ?_) (fun k => ?_) a
      · simp only [Fin.append_left]
        exact ((hTd i e s b).fun_sub (hP i e b)).mul_const _
      · simp only [Fin.append_right, diagonal_apply]
        split_ifs
        · exact hf.shockSds _ _
        · exact differentiableAt_const _
    · rw [← smoothQR_valid.gram _ _ _ (Nat.le_add_left _ _), ← e3, det_mul, det_transpose]
      exact mul_ne_zero (hreg i e).det_ne_zero (hreg i e).det_ne_zero

theorem step_smooth {fixed : E → ScanFixed nObs nT n nObserved nC θ} (hf : SmoothFixed fixed x₀) {kappa : ℝ} (hr : RegularFixed (fixed x₀) kappa) {c : E → Carry nObs nMix n} (hc : SmoothCarry c x₀)
    {a : E → LoopArgs nObs n nC} (ha : SmoothArgs a x₀) : SmoothCarry (fun x => step smoothQR (fixed x) (c x) (a x)) x₀ := by
  have h1 := (scanUpdate_smooth hf hc ha).1
  unfold step
  by_cases hp : (a x₀).isPredict
  · have e1 : (fun x => if (a x).isPredict then predictCarry smoothQR (fixed x) (scanUpdate smoothQR (fixed x) (c x) (a x)).1 (a x).period else (scanUpdate smoothQR (fixed x) (c x) (a x)).1) =
        fun x => predictCarry smoothQR (fixed x) (scanUpdate smoothQR (fixed x) (c x) (a x)).1 (a x₀).period := by
      funext x
      rw [if_pos (by rw [ha.isPredict x]; exact hp), ha.period x]
    rw [e1]
    exact predict_smooth hf hr h1 _
  · have e1 : (fun x => if (a x).isPredict then predictCarry smoothQR (fixed x) (scanUpdate smoothQR (fixed x) (c x) (a x)).1 (a x).period else (scanUpdate smoothQR (fixed x) (c x) (a x)).1) =
        fun x => (scanUpdate smoothQR (fixed x) (c x) (a x)).1 := by
      funext x
      rw [if_neg (by rw [ha.isPredict x]; exact hp)]
    rw [e1]
    exact h1

/-- All contributions to the likelihood are differentiable, and so is every differentiable function of them that is summed up. -/
theorem outs_smooth {ι : Type} {fixed : E → ScanFixed nObs nT n nObserved nC θ} (hf : SmoothFixed fixed x₀) {kappa : ℝ} (hr : RegularFixed (fixed x₀) kappa) {g : ℝ → ℝ} (hg : Differentiable ℝ g) {a : E → ι → LoopArgs nObs n nC} {L : List ι}
    (ha : ∀ k ∈ L, SmoothArgs (fun x => a x k) x₀) : ∀ {c : E → Carry nObs nMix n}, SmoothCarry c x₀ → ∀ i,
    DifferentiableAt ℝ (fun x => ((outs smoothQR (fixed x) (c x) (L.map (a x))).map (fun o => g (o.loglikes i))).sum) x₀ := by
  induction L with
  | nil => intro c _ i; exact differentiableAt_const _
  | cons k L ih =>
    intro c hc i
    simp only [List.map_cons, outs, List.sum_cons]
    refine DifferentiableAt.fun_add ?_ (ih (fun k' h => ha k' (by simp [h])) (step_smooth hf hr hc (ha k (by simp))) i)
    exact (hg _).comp x₀ ((scanUpdate_smooth hf hc (ha k (by simp))).2 i)

end Skill
