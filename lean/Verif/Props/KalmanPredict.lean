import Verif.Lemmas.SigmaPoints
/-
C34, C35, C36, C37, C44: the predict step.
-/
namespace Skill
open Matrix Spec
variable {nObs nMix n nObserved : ℕ}

/-- **C34.** The sigma weights are non-negative for kappa ≥ 0 and sum to one; the weighted mean of the
sigma points is the state and their weighted covariance is the covariance matrix of the state. -/
theorem C34_sigma_points (kappa : ℝ) (h : 0 < n + kappa) (states : Fin nObs → Fin nMix → Fin n → ℝ)
    (upperChols : Fin nObs → Fin nMix → Matrix (Fin n) (Fin n) ℝ) (i : Fin nObs) (e : Fin nMix) :
    let w := sigmaWeights n kappa
    let points := latentSigmaPoints states upperChols (sigmaScalingFactor n kappa) i e
    (0 ≤ kappa → ∀ s, 0 ≤ w s) ∧ ∑ s, w s = 1 ∧ (∀ f, ∑ s, w s * points s f = states i e f) ∧
    (∀ f g, ∑ s, w s * ((points s f - states i e f) * (points s g - states i e g)) =
      ((upperChols i e)ᵀ * upperChols i e) f g) := by
  refine ⟨fun hk s => weights_nonneg hk s, weights_sum h.ne', fun f => ?_, fun f g => ?_⟩
  · have := weighted_affine h states upperChols (sigmaScalingFactor n kappa) i e (Pi.single f 1) 0
    simpa only [single_one_dotProduct, add_zero] using this
  · have := weighted_cross h states upperChols i e (Pi.single f 1) (Pi.single g 1)
    simpa only [single_one_dotProduct, mulVec_single_one, Pi.sub_apply, Matrix.col_apply] using this

section predict
variable {qr : QR} (states : Fin nObs → Fin nMix → Fin n → ℝ) (upperChols : Fin nObs → Fin nMix → Matrix (Fin n) (Fin n) ℝ)
  (shockSds : Fin n → ℝ) (scaling constants : Fin 2 → Fin (n + nObserved) → ℝ) (observed : Fin nObs → Fin nObserved → ℝ)

/-- **C44.** The predict step raises no error if there is one mixture element or no observed factor. -/
theorem C44_predict_defined_partial (h : nMix = 1 ∨ nObserved = 0) (qr : QR) (c : ℝ) (weights : Fin (2 * n + 1) → ℝ)
    (transition : (Fin (n + nObserved) → ℝ) → Fin n → ℝ) :
    ∃ r, kalmanPredict qr states upperChols c weights transition shockSds scaling constants observed = .ok r := by
  unfold kalmanPredict
  rw [calculateSigmaPoints_ok (h.imp id Or.inl)]
  exact ⟨_, rfl⟩

/-- C44, negative part: with at least two mixture elements, one observed factor and one individual
the predict step always fails with a TypeError. -/
theorem C44_shape_error (h1 : 2 ≤ nMix) (h2 : 1 ≤ nObserved) (h3 : 1 ≤ nObs) (qr : QR) (c : ℝ) (weights : Fin (2 * n + 1) → ℝ)
    (transition : (Fin (n + nObserved) → ℝ) → Fin n → ℝ) :
    kalmanPredict qr states upperChols c weights transition shockSds scaling constants observed = .error .typeError := by
  unfold kalmanPredict calculateSigmaPoints
  rw [if_neg]
  · rfl
  · rw [reshapeOk_iff]
    omega

/-- **C37.** Anchoring the transformed sigma points with the scaling factors and constants of the
next period gives the transition function applied to the anchored points of the current period. -/
theorem C37_anchoring_commutes {nSigma : ℕ} (points : Fin nObs → Fin nMix → Fin nSigma → Fin (n + nObserved) → ℝ)
    (transition : (Fin (n + nObserved) → ℝ) → Fin n → ℝ) (hne : ∀ f, scaling 1 (Fin.castAdd nObserved f) ≠ 0)
    (i : Fin nObs) (e : Fin nMix) (s : Fin nSigma) (f : Fin n) :
    transformSigmaPoints points transition scaling constants i e s f * scaling 1 (Fin.castAdd nObserved f)
        + constants 1 (Fin.castAdd nObserved f) =
      transition (fun g => points i e s g * scaling 0 g + constants 0 g) f := by
  simp only [transformSigmaPoints]
  have := hne f
  field_simp
  ring

/-- C37, observed factors: with scale one and constant zero (see C08) they enter the transition
function with their data. -/
theorem C37_observed_unchanged (h : nMix = 1 ∨ nObserved = 0) (c : ℝ)
    (hs : ∀ o, scaling 0 (Fin.natAdd n o) = 1) (hc : ∀ o, constants 0 (Fin.natAdd n o) = 0) :
    ∃ points, calculateSigmaPoints states upperChols c observed = .ok points ∧
      ∀ i e s o, points i e s (Fin.natAdd n o) * scaling 0 (Fin.natAdd n o) + constants 0 (Fin.natAdd n o) = observed i o := by
  refine ⟨_, calculateSigmaPoints_ok (h.imp id Or.inl) states upperChols c observed, ?_⟩
  intro i e s o
  rw [hs, hc, Fin.append_right, mul_one, add_zero]

/-- **C36.** For any transition functions and non-negative weights the predicted Cholesky factor is upper
triangular, and the predicted covariance matrix is symmetric positive semi-definite, also after
subtracting the covariance matrix of the shocks. -/
theorem C36_predicted_covariance (hqr : ValidQR qr) (c : ℝ) (weights : Fin (2 * n + 1) → ℝ) (hw : ∀ s, 0 ≤ weights s)
    (transition : (Fin (n + nObserved) → ℝ) → Fin n → ℝ)
    {r : (Fin nObs → Fin nMix → Fin n → ℝ) × (Fin nObs → Fin nMix → Matrix (Fin n) (Fin n) ℝ)}
    (hr : kalmanPredict qr states upperChols c weights transition shockSds scaling constants observed = .ok r)
    (i : Fin nObs) (e : Fin nMix) :
    (∀ f g, g < f → r.2 i e f g = 0) ∧ ((r.2 i e)ᵀ * r.2 i e).PosSemidef ∧
    ((r.2 i e)ᵀ * r.2 i e - Matrix.diagonal (fun f => shockSds f ^ 2)).PosSemidef := by
  unfold kalmanPredict at hr
  cases hp : calculateSigmaPoints states upperChols c observed with
  | error err => rw [hp] at hr; cases hr
  | ok points =>
    rw [hp] at hr
    have hr := Except.ok.inj hr
    subst hr
    refine ⟨fun f g hfg => hqr.upper _ _ _ (Nat.le_add_left _ _) _ _ hfg, posSemidef_gram _, ?_⟩
    set T := transformSigmaPoints points transition scaling constants with hT
    have key : (((predictMoments qr weights shockSds T).2 i e)ᵀ * (predictMoments qr weights shockSds T).2 i e -
        Matrix.diagonal (fun f => shockSds f ^ 2)) =
        ∑ s, weights s • vecMulVec (fun f => T i e s f - (predictMoments qr weights shockSds T).1 i e f)
          (star (fun f => T i e s f - (predictMoments qr weights shockSds T).1 i e f)) := by
      ext f g
      rw [Matrix.sub_apply, predict_gram hqr hw, add_sub_cancel_right, Matrix.sum_apply]
      exact Finset.sum_congr rfl (fun s _ => by simp [vecMulVec_apply])
    rw [key]
    exact Matrix.posSemidef_sum _ (fun s _ => (Matrix.posSemidef_vecMulVec_self_star _).smul (hw s))

/-- The coefficient of the latent factor `g` in the (unanchored) transition of factor `f`. -/
noncomputable def linearCoeff (A : Fin n → Fin (n + nObserved) → ℝ) (scaling : Fin 2 → Fin (n + nObserved) → ℝ) :
    Matrix (Fin n) (Fin n) ℝ :=
  Matrix.of (fun f g => A f (Fin.castAdd nObserved g) * scaling 0 (Fin.castAdd nObserved g) / scaling 1 (Fin.castAdd nObserved f))

/-- **C35.** If the transition function is affine, z ↦ A z + b, then the predicted state is the
transition of the state (anchored, transformed, unanchored) and the predicted covariance matrix is
B P B' + diag(shock_sds²) where B are the coefficients of the latent factors in terms of unanchored
factors. -/
theorem C35_linear_predict_exact (hqr : ValidQR qr) (h : nMix = 1 ∨ nObserved = 0) {kappa : ℝ} (hk : 0 ≤ kappa) (hn : 0 < n + kappa)
    (A : Fin n → Fin (n + nObserved) → ℝ) (b : Fin n → ℝ) :
    ∃ r, kalmanPredict qr states upperChols (sigmaScalingFactor n kappa) (sigmaWeights n kappa) (fun z f => A f ⬝ᵥ z + b f)
        shockSds scaling constants observed = .ok r ∧
      (∀ i e f, r.1 i e f = (A f ⬝ᵥ (fun g => Fin.append (states i e) (observed i) g * scaling 0 g + constants 0 g) + b f
        - constants 1 (Fin.castAdd nObserved f)) / scaling 1 (Fin.castAdd nObserved f)) ∧
      (∀ i e, (r.2 i e)ᵀ * r.2 i e = linearCoeff A scaling * ((upperChols i e)ᵀ * upperChols i e) * (linearCoeff A scaling)ᵀ
        + Matrix.diagonal (fun f => shockSds f ^ 2)) := by
  unfold kalmanPredict
  rw [calculateSigmaPoints_ok (h.imp id Or.inl)]
  refine ⟨_, rfl, ?_, ?_⟩
  all_goals
    set T := transformSigmaPoints (fun i e s => Fin.append (latentSigmaPoints states upperChols (sigmaScalingFactor n kappa) i e s)
      (observed i)) (fun z f => A f ⬝ᵥ z + b f) scaling constants with hT
  all_goals
    have hlin : ∀ i (e : Fin nMix) (x : Fin n → ℝ) f, (A f ⬝ᵥ (fun g => Fin.append x (observed i) g * scaling 0 g + constants 0 g) + b f
        - constants 1 (Fin.castAdd nObserved f)) / scaling 1 (Fin.castAdd nObserved f) =
        (linearCoeff A scaling f) ⬝ᵥ x + ((∑ o, A f (Fin.natAdd n o) * (observed i o * scaling 0 (Fin.natAdd n o) + constants 0 (Fin.natAdd n o)))
          + (∑ g, A f (Fin.castAdd nObserved g) * constants 0 (Fin.castAdd nObserved g)) + b f
          - constants 1 (Fin.castAdd nObserved f)) / scaling 1 (Fin.castAdd nObserved f) := by
      intro i e x f
      rw [dotProduct, Fin.sum_univ_add]
      simp only [Fin.append_left, Fin.append_right]
      have e1 : ∀ g, A f (Fin.castAdd nObserved g) * (x g * scaling 0 (Fin.castAdd nObserved g) + constants 0 (Fin.castAdd nObserved g)) =
          A f (Fin.castAdd nObserved g) * scaling 0 (Fin.castAdd nObserved g) * x g + A f (Fin.castAdd nObserved g) * constants 0 (Fin.castAdd nObserved g) :=
        fun g => by ring
      have e2 : (linearCoeff A scaling f) ⬝ᵥ x = (∑ g, A f (Fin.castAdd nObserved g) * scaling 0 (Fin.castAdd nObserved g) * x g) / scaling 1 (Fin.castAdd nObserved f) := by
        rw [Finset.sum_div]
        exact Finset.sum_congr rfl (fun g _ => by simp only [linearCoeff, of_apply]; ring)
      rw [Finset.sum_congr rfl (fun g _ => e1 g), Finset.sum_add_distrib, e2]
      ring
    have hTlin : ∀ i e s f, T i e s f = (linearCoeff A scaling f) ⬝ᵥ latentSigmaPoints states upperChols (sigmaScalingFactor n kappa) i e s +
        ((∑ o, A f (Fin.natAdd n o) * (observed i o * scaling 0 (Fin.natAdd n o) + constants 0 (Fin.natAdd n o)))
          + (∑ g, A f (Fin.castAdd nObserved g) * constants 0 (Fin.castAdd nObserved g)) + b f
          - constants 1 (Fin.castAdd nObserved f)) / scaling 1 (Fin.castAdd nObserved f) := by
      intro i e s f
      rw [← hlin i e]
      rfl
    have hmean : ∀ i e f, (predictMoments qr (sigmaWeights n kappa) shockSds T).1 i e f = (linearCoeff A scaling f) ⬝ᵥ states i e +
        ((∑ o, A f (Fin.natAdd n o) * (observed i o * scaling 0 (Fin.natAdd n o) + constants 0 (Fin.natAdd n o)))
          + (∑ g, A f (Fin.castAdd nObserved g) * constants 0 (Fin.castAdd nObserved g)) + b f
          - constants 1 (Fin.castAdd nObserved f)) / scaling 1 (Fin.castAdd nObserved f) := by
      intro i e f
      show ∑ s, sigmaWeights n kappa s * T i e s f = _
      simp only [hTlin]
      exact weighted_affine hn states upperChols _ i e _ _
  · intro i e f
    rw [hlin i e]
    exact hmean i e f
  · intro i e
    ext f g
    rw [predict_gram hqr (weights_nonneg hk), Matrix.add_apply]
    congr 1
    have e1 : ∀ s f, T i e s f - (predictMoments qr (sigmaWeights n kappa) shockSds T).1 i e f =
        (linearCoeff A scaling f) ⬝ᵥ (latentSigmaPoints states upperChols (sigmaScalingFactor n kappa) i e s - states i e) := by
      intro s f
      rw [hTlin, hmean, dotProduct_sub]
      ring
    simp only [e1]
    rw [weighted_cross hn, Matrix.mul_assoc, Matrix.mul_apply]
    rfl

end predict
end Skill
