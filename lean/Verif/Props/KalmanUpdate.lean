import Verif.Lemmas.KalmanUpdate
/-
C28, C29, C30, C31, C32: the update step.
-/
namespace Skill
open Matrix Spec

section
variable {nObs nMix n nC : ℕ}

/-- The belief about individual `i` that is encoded in the arrays of the filter. -/
def beliefOf (states : Fin nObs → Fin nMix → Fin n → ℝ) (chols : Fin nObs → Fin nMix → Matrix (Fin n) (Fin n) ℝ)
    (logWeights : Fin nObs → Fin nMix → ℝ) (i : Fin nObs) : Belief nMix n where
  mean := states i
  cov := fun e => (chols i e)ᵀ * chols i e
  logWeight := logWeights i

/-- The belief about individual `i` after an update. -/
def UpdateResult.belief (r : UpdateResult nObs nMix n) (i : Fin nObs) : Belief nMix n :=
  beliefOf r.states r.upperChols r.logWeights i

theorem posSemidef_gram (U : Matrix (Fin n) (Fin n) ℝ) : (Uᵀ * U).PosSemidef := by
  have := Matrix.posSemidef_conjTranspose_mul_self U
  rwa [Matrix.conjTranspose_eq_transpose_of_trivial] at this

theorem posSemidef_symm {P : Matrix (Fin n) (Fin n) ℝ} (h : P.PosSemidef) : Pᵀ = P := by
  have := h.isHermitian
  rwa [IsHermitian, Matrix.conjTranspose_eq_transpose_of_trivial] at this

theorem residualVariance_pos {P : Matrix (Fin n) (Fin n) ℝ} (hP : P.PosSemidef) (h : Fin n → ℝ) {sd : ℝ} (hsd : sd ≠ 0) :
    0 < residualVariance P h sd := by
  have := hP.dotProduct_mulVec_nonneg h
  rw [star_trivial] at this
  have h2 : 0 < sd ^ 2 := by positivity
  unfold residualVariance
  linarith

variable {qr : QR} (states : Fin nObs → Fin nMix → Fin n → ℝ) (upperChols : Fin nObs → Fin nMix → Matrix (Fin n) (Fin n) ℝ)
  (loadings : Fin n → ℝ) (controlParams : Fin nC → ℝ) (measSd : ℝ)
  (measurements : Fin nObs → Option ℝ) (controls : Fin nObs → Fin nC → ℝ)
  (logWeights : Fin nObs → Fin nMix → ℝ)

/-- **C28.** For an observed measurement `y` of individual `i` and each mixture element `e` with
residual variance s = h'Ph + sd² > 0: the new state is x + P h v / s with the residual
v = y - h'x - c'b, the new Cholesky factor is upper triangular and a factor of P - P h h' P / s, and
residual and √s are reported in the debug output. The log likelihood is the log density of v under
N(0, s) with one mixture element and the log of the weighted sum of these densities with several. -/
theorem C28_update_is_kalman_update (hqr : ValidQR qr) (i : Fin nObs) (y : ℝ) (hy : measurements i = some y)
    (hs : ∀ e, 0 < residualVariance ((upperChols i e)ᵀ * upperChols i e) loadings measSd) :
    let res := kalmanUpdate qr states upperChols loadings controlParams measSd measurements controls logWeights
    let v := fun e => y - (loadings ⬝ᵥ states i e + controls i ⬝ᵥ controlParams)
    let P := fun e => (upperChols i e)ᵀ * upperChols i e
    let s := fun e => residualVariance (P e) loadings measSd
    (∀ e, res.states i e = posteriorMean (states i e) (P e) loadings measSd (v e)) ∧
    (∀ e, (res.upperChols i e)ᵀ * res.upperChols i e = posteriorCov (P e) loadings measSd) ∧
    (∀ e f g, g < f → res.upperChols i e f g = 0) ∧
    (∀ e, res.residuals i e = some (v e) ∧ res.residualSds i e = some (Real.sqrt (s e))) ∧
    (nMix = 1 → ∀ e, res.loglikes i = Real.log (normalDensity (s e) (v e)) ∧ res.logWeights i = logWeights i) ∧
    (2 ≤ nMix → res.loglikes i = Real.log (∑ e, Real.exp (logWeights i e) * normalDensity (s e) (v e)) ∧
      ∀ e, res.logWeights i e = Real.log (normalDensity (s e) (v e)) + logWeights i e - res.loglikes i) := by
  intro res v P s
  have hsome : (measurements i).isSome = true := by rw [hy]; rfl
  have hf : ∀ e, (fun f => ∑ g, upperChols i e f g * loadings g) = upperChols i e *ᵥ loadings := fun e => rfl
  have hsq : ∀ e, _ := fun e => qr_sq hqr measSd loadings (upperChols i e)
  have hrow : ∀ e, _ := fun e => qr_row hqr measSd loadings (upperChols i e)
  have hrest : ∀ e, _ := fun e => qr_rest hqr measSd loadings (upperChols i e)
  have hne : ∀ e, qr (n + 1) (n + 1) (updateMatrix measSd (upperChols i e *ᵥ loadings) (upperChols i e)) 0 0 ≠ 0 := by
    intro e h0
    have := hsq e
    rw [h0] at this
    have h2 := hs e
    rw [← this] at h2
    simp at h2
  have hv : ∀ e, v e = y - ((∑ f, states i e f * loadings f) + ∑ c, controls i c * controlParams c) := by
    intro e
    show y - (loadings ⬝ᵥ states i e + controls i ⬝ᵥ controlParams) = _
    rw [dotProduct_comm loadings]
    rfl
  have hl : ∀ e, normLogpdf (v e) 0 |qr (n + 1) (n + 1) (updateMatrix measSd (upperChols i e *ᵥ loadings) (upperChols i e)) 0 0| =
      Real.log (normalDensity (s e) (v e)) := fun e => logpdf_eq (hs e) (hsq e)
  have hll : res.loglikes i = if nMix ≥ 2 then logsumexp (fun e => Real.log (normalDensity (s e) (v e)) + logWeights i e)
      else ∑ e, Real.log (normalDensity (s e) (v e)) := by
    simp only [res, kalmanUpdate, Option.isSome_some, if_true, hy, hf, ← hv, hl]
  refine ⟨?_, ?_, ?_, ?_, ?_, ?_⟩
  · intro e
    funext f
    simp only [res, kalmanUpdate, Option.isSome_some, if_true, hy, hf, ← hv, posteriorMean, Pi.add_apply, Pi.smul_apply, smul_eq_mul]
    show _ = states i e f + v e / residualVariance (P e) loadings measSd * (P e *ᵥ loadings) f
    rw [← hrow e f, ← hsq e]
    have := hne e
    field_simp
  · intro e
    ext f g
    rw [mul_apply]
    simp only [res, kalmanUpdate, hsome, if_true, hf, transpose_apply, of_apply, posteriorCov, Matrix.sub_apply, Matrix.smul_apply, smul_eq_mul]
    rw [mul_vecMulVec_mul (posSemidef_symm (posSemidef_gram _)), ← hrow e f, ← hrow e g]
    show _ = ((upperChols i e)ᵀ * upperChols i e) f g - (residualVariance ((upperChols i e)ᵀ * upperChols i e) loadings measSd)⁻¹ * _
    rw [← hrest e f g, ← hsq e]
    have := hne e
    field_simp
    ring
  · intro e f g hfg
    simp only [res, kalmanUpdate, hsome, if_true, of_apply]
    exact hqr.upper _ _ _ le_rfl _ _ (Fin.succ_lt_succ_iff.mpr hfg)
  · intro e
    simp only [res, kalmanUpdate, Option.isSome_some, if_true, hy, hf, ← hv, true_and, Option.some.injEq]
    rw [← Real.sqrt_sq_eq_abs, hsq e]
  · intro h1 e
    constructor
    · rw [hll, if_neg (by omega)]
      subst h1
      rw [Fin.sum_univ_one, Subsingleton.elim e 0]
    · funext e'
      simp only [res, kalmanUpdate, hsome, if_true]
      rw [if_neg (by omega)]
  · intro h2
    constructor
    · rw [hll, if_pos h2, logsumexp]
      congr 1
      refine Finset.sum_congr rfl (fun e _ => ?_)
      rw [Real.exp_add, Real.exp_log (normalDensity_pos (hs e) _), mul_comm]
    · intro e
      rw [hll, if_pos h2]
      simp only [res, kalmanUpdate, Option.isSome_some, if_true, hy, hf, ← hv, hl, if_pos h2]

/-- **C30.** A missing measurement leaves states, Cholesky factors and weights of the individual
unchanged and contributes zero, whatever the other inputs (e.g. its controls) are; debug output is NaN. -/
theorem C30_missing_changes_nothing (qr : QR) (i : Fin nObs) (hy : measurements i = none) :
    let res := kalmanUpdate qr states upperChols loadings controlParams measSd measurements controls logWeights
    res.states i = states i ∧ res.upperChols i = upperChols i ∧ res.logWeights i = logWeights i ∧ res.loglikes i = 0 ∧
    ∀ e, res.residuals i e = none ∧ res.residualSds i e = none := by
  simp [kalmanUpdate, hy]

/-- The measurement of individual `i` that the arguments of `kalman_update` describe. -/
def measurementOf (i : Fin nObs) : Measurement n :=
  ⟨loadings, controls i ⬝ᵥ controlParams, measSd, measurements i⟩

/-- The update of the code refines Bayesian updating of the belief about each individual. -/
theorem update_refines (hqr : ValidQR qr) (i : Fin nObs) (hw : ∑ e, Real.exp (logWeights i e) = 1)
    (hs : ∀ e, 0 < residualVariance ((upperChols i e)ᵀ * upperChols i e) loadings measSd) :
    let res := kalmanUpdate qr states upperChols loadings controlParams measSd measurements controls logWeights
    res.belief i = (beliefOf states upperChols logWeights i).update
      (measurementOf loadings controlParams measSd measurements controls i) ∧
    res.loglikes i = (beliefOf states upperChols logWeights i).contribution
      (measurementOf loadings controlParams measSd measurements controls i) := by
  intro res
  cases hy : measurements i with
  | none =>
    obtain ⟨h1, h2, h3, h4, _⟩ := C30_missing_changes_nothing states upperChols loadings controlParams measSd measurements controls
      logWeights qr i hy
    simp only [Belief.update, Belief.contribution, measurementOf, hy]
    refine ⟨?_, h4⟩
    simp only [UpdateResult.belief, beliefOf, res]
    rw [h1, h2, h3]
  | some y =>
    obtain ⟨h1, h2, _, _, h5, h6⟩ := C28_update_is_kalman_update states upperChols loadings controlParams measSd measurements controls
      logWeights hqr i y hy hs
    have hd : ∀ e, (beliefOf states upperChols logWeights i).density (measurementOf loadings controlParams measSd measurements controls i) y e =
        normalDensity (residualVariance ((upperChols i e)ᵀ * upperChols i e) loadings measSd)
          (y - (loadings ⬝ᵥ states i e + controls i ⬝ᵥ controlParams)) := by
      intro e
      rw [dotProduct_comm loadings]
      rfl
    have hpos : ∀ e, 0 < normalDensity (residualVariance ((upperChols i e)ᵀ * upperChols i e) loadings measSd)
          (y - (loadings ⬝ᵥ states i e + controls i ⬝ᵥ controlParams)) := fun e => normalDensity_pos (hs e) _
    have hm : nMix ≠ 0 := by
      rintro rfl
      simp at hw
    have hne : Nonempty (Fin nMix) := ⟨⟨0, Nat.pos_of_ne_zero hm⟩⟩
    have hlp : 0 < (beliefOf states upperChols logWeights i).likelihood (measurementOf loadings controlParams measSd measurements controls i) y := by
      unfold Belief.likelihood
      refine Finset.sum_pos (fun e _ => ?_) Finset.univ_nonempty
      rw [hd e]
      exact mul_pos (Real.exp_pos _) (hpos e)
    have hc : res.loglikes i = Real.log ((beliefOf states upperChols logWeights i).likelihood
        (measurementOf loadings controlParams measSd measurements controls i) y) := by
      unfold Belief.likelihood
      simp only [hd]
      rcases Nat.lt_or_ge nMix 2 with hlt | hge
      · have e1 : nMix = 1 := by omega
        subst e1
        rw [(h5 rfl 0).1]
        rw [Fin.sum_univ_one] at hw ⊢
        show _ = Real.log (Real.exp (logWeights i 0) * _)
        rw [hw, one_mul]
      · rw [(h6 hge).1]
        rfl
    simp only [Belief.update, Belief.contribution, measurementOf, hy]
    refine ⟨?_, hc⟩
    have hmean : ∀ e, res.states i e = posteriorMean (states i e) ((upperChols i e)ᵀ * upperChols i e) loadings measSd
        (y - (states i e ⬝ᵥ loadings + controls i ⬝ᵥ controlParams)) := by
      intro e
      rw [dotProduct_comm (states i e)]
      exact h1 e
    apply Belief.ext
    · funext e; exact hmean e
    · funext e; exact h2 e
    · funext e
      show res.logWeights i e = Real.log (Real.exp (logWeights i e) * _ / _)
      have hd' := hd e
      simp only [measurementOf, hy] at hd' hlp hc
      rw [hd', Real.log_div (mul_pos (Real.exp_pos _) (hpos e)).ne' hlp.ne', Real.log_mul (Real.exp_pos _).ne' (hpos e).ne',
        Real.log_exp]
      rcases Nat.lt_or_ge nMix 2 with hlt | hge
      · have e1 : nMix = 1 := by omega
        subst e1
        rw [(h5 rfl 0).2, ← hc, (h5 rfl 0).1, Subsingleton.elim e 0]
        ring
      · rw [(h6 hge).2 e, ← hc]
        ring

end
end Skill
