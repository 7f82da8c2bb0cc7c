import Verif.Props.KalmanUpdate
/-
Bayesian updating of beliefs: stays proper, order of measurements is irrelevant.
-/
namespace Skill
open Matrix Spec
variable {nMix n : ℕ}

theorem posteriorCov_posSemidef {P : Matrix (Fin n) (Fin n) ℝ} (hP : P.PosSemidef) (h : Fin n → ℝ) {sd : ℝ}
    (hs : 0 < residualVariance P h sd) : (posteriorCov P h sd).PosSemidef := by
  obtain ⟨U, _, rfl⟩ := exists_upper_gram P hP
  obtain ⟨qr, hqr⟩ := exists_validQR
  have := (C28_update_is_kalman_update (nObs := 1) (nMix := 1) (nC := 0) (fun _ _ _ => 0) (fun _ _ => U) h (fun _ => 0) sd
    (fun _ => some 0) (fun _ _ => 0) (fun _ _ => 0) hqr 0 0 rfl (fun _ => hs)).2.1 0
  rw [← this]
  exact posSemidef_gram _

theorem density_pos {b : Belief nMix n} (hb : ∀ e, (b.cov e).PosSemidef) {m : Measurement n} (hsd : m.sd ≠ 0) (y : ℝ) (e : Fin nMix) :
    0 < b.density m y e := normalDensity_pos (residualVariance_pos (hb e) _ hsd) _

theorem likelihood_pos {b : Belief nMix n} (hb : b.Proper) {m : Measurement n} (hsd : m.sd ≠ 0) (y : ℝ) :
    0 < b.likelihood m y := by
  have hm : nMix ≠ 0 := by
    rintro rfl
    have := hb.weights
    simp at this
  have hne : Nonempty (Fin nMix) := ⟨⟨0, Nat.pos_of_ne_zero hm⟩⟩
  exact Finset.sum_pos (fun e _ => mul_pos (Real.exp_pos _) (density_pos hb.cov hsd y e)) Finset.univ_nonempty

theorem update_proper {b : Belief nMix n} (hb : b.Proper) {m : Measurement n} (hsd : m.sd ≠ 0) : (b.update m).Proper := by
  unfold Belief.update
  cases m.y with
  | none => exact hb
  | some y =>
    refine ⟨fun e => posteriorCov_posSemidef (hb.cov e) _ (residualVariance_pos (hb.cov e) _ hsd), ?_⟩
    have hL := likelihood_pos hb hsd y
    have : ∀ e, Real.exp (Real.log (Real.exp (b.logWeight e) * b.density m y e / b.likelihood m y)) =
        Real.exp (b.logWeight e) * b.density m y e / b.likelihood m y := fun e =>
      Real.exp_log (div_pos (mul_pos (Real.exp_pos _) (density_pos hb.cov hsd y e)) hL)
    simp only [this]
    rw [← Finset.sum_div]
    exact div_self hL.ne'

/-- Joint density of two residuals with variances a, b and covariance c. -/
theorem normalDensity_pair {a b c v w : ℝ} (ha : 0 < a) (hD : 0 < a * b - c ^ 2) :
    normalDensity a v * normalDensity (b - c ^ 2 / a) (w - c * v / a) =
      (2 * Real.pi * Real.sqrt (a * b - c ^ 2))⁻¹ * Real.exp (-(b * v ^ 2 - 2 * c * v * w + a * w ^ 2) / (2 * (a * b - c ^ 2))) := by
  have hs : 0 < b - c ^ 2 / a := by
    have : b - c ^ 2 / a = (a * b - c ^ 2) / a := by field_simp
    rw [this]; positivity
  unfold normalDensity ProbabilityTheory.gaussianPDFReal
  rw [Real.coe_toNNReal _ ha.le, Real.coe_toNNReal _ hs.le, mul_mul_mul_comm, ← Real.exp_add, ← mul_inv]
  congr 1
  · congr 1
    rw [← Real.sqrt_mul (by positivity)]
    have e : 2 * Real.pi * a * (2 * Real.pi * (b - c ^ 2 / a)) = (2 * Real.pi) ^ 2 * (a * b - c ^ 2) := by
      field_simp
    rw [e, Real.sqrt_mul (by positivity), Real.sqrt_sq (by positivity)]
  · congr 1
    have e : b - c ^ 2 / a = (a * b - c ^ 2) / a := by field_simp
    rw [e]
    have hD' := hD.ne'
    field_simp
    ring

section pair
variable {P : Matrix (Fin n) (Fin n) ℝ} (hP : P.PosSemidef) (h k : Fin n → ℝ) (sd sd' : ℝ)
include hP

theorem posteriorCov_apply (i j : Fin n) :
    posteriorCov P h sd i j = P i j - (P *ᵥ h) i * (P *ᵥ h) j / residualVariance P h sd := by
  simp only [posteriorCov, Matrix.sub_apply, Matrix.smul_apply, smul_eq_mul]
  rw [mul_vecMulVec_mul (posSemidef_symm hP)]
  ring

theorem posteriorCov_mulVec (i : Fin n) :
    (posteriorCov P h sd *ᵥ k) i = (P *ᵥ k) i - (h ⬝ᵥ (P *ᵥ k)) / residualVariance P h sd * (P *ᵥ h) i := by
  have e1 : h ⬝ᵥ (P *ᵥ k) = ∑ j, (P *ᵥ h) j * k j := by
    rw [dotProduct_mulVec]
    conv_lhs => rw [← posSemidef_symm hP, vecMul_transpose]
    rfl
  rw [e1]
  show ∑ j, posteriorCov P h sd i j * k j = (∑ j, P i j * k j) - _
  simp only [posteriorCov_apply hP]
  rw [Finset.sum_div, Finset.sum_mul, ← Finset.sum_sub_distrib]
  exact Finset.sum_congr rfl (fun j _ => by ring)

theorem residualVariance_posterior :
    residualVariance (posteriorCov P h sd) k sd' = residualVariance P k sd' - (h ⬝ᵥ (P *ᵥ k)) ^ 2 / residualVariance P h sd := by
  have e1 : k ⬝ᵥ (P *ᵥ h) = h ⬝ᵥ (P *ᵥ k) := by
    rw [dotProduct_mulVec, dotProduct_comm]
    conv_lhs => rw [← posSemidef_symm hP, vecMul_transpose]
  have e2 : k ⬝ᵥ (posteriorCov P h sd *ᵥ k) = k ⬝ᵥ (P *ᵥ k) - (h ⬝ᵥ (P *ᵥ k)) ^ 2 / residualVariance P h sd := by
    have : ∀ i, k i * (posteriorCov P h sd *ᵥ k) i = k i * (P *ᵥ k) i - (h ⬝ᵥ (P *ᵥ k)) / residualVariance P h sd * (k i * (P *ᵥ h) i) := by
      intro i; rw [posteriorCov_mulVec hP]; ring
    simp only [dotProduct] at this ⊢
    rw [Finset.sum_congr rfl (fun i _ => this i), Finset.sum_sub_distrib, ← Finset.mul_sum]
    have e3 : ∑ i, k i * (P *ᵥ h) i = ∑ i, h i * (P *ᵥ k) i := e1
    rw [e3]; ring
  rw [residualVariance, e2]
  conv_rhs => rw [residualVariance]
  ring

end pair

theorem dot_symm {P : Matrix (Fin n) (Fin n) ℝ} (hP : P.PosSemidef) (h k : Fin n → ℝ) : k ⬝ᵥ (P *ᵥ h) = h ⬝ᵥ (P *ᵥ k) := by
  rw [dotProduct_mulVec, dotProduct_comm]
  conv_lhs => rw [← posSemidef_symm hP, vecMul_transpose]

theorem pair_det_pos {P : Matrix (Fin n) (Fin n) ℝ} (hP : P.PosSemidef) (h k : Fin n → ℝ) {sd sd' : ℝ} (hsd : sd ≠ 0) (hsd' : sd' ≠ 0) :
    0 < residualVariance P h sd * residualVariance P k sd' - (h ⬝ᵥ (P *ᵥ k)) ^ 2 := by
  have ha := residualVariance_pos hP h hsd
  have h1 := residualVariance_pos (posteriorCov_posSemidef hP h ha) k hsd'
  rw [residualVariance_posterior hP] at h1
  have : residualVariance P h sd * residualVariance P k sd' - (h ⬝ᵥ (P *ᵥ k)) ^ 2 =
      residualVariance P h sd * (residualVariance P k sd' - (h ⬝ᵥ (P *ᵥ k)) ^ 2 / residualVariance P h sd) := by
    field_simp
  rw [this]
  positivity

/-- The Kalman update with two measurements does not depend on their order. -/
theorem posterior_swap {P : Matrix (Fin n) (Fin n) ℝ} (hP : P.PosSemidef) (h k x : Fin n → ℝ) {sd sd' : ℝ} (hsd : sd ≠ 0) (hsd' : sd' ≠ 0)
    (v w : ℝ) :
    posteriorMean (posteriorMean x P h sd v) (posteriorCov P h sd) k sd' (w - (h ⬝ᵥ (P *ᵥ k)) * v / residualVariance P h sd) =
      posteriorMean (posteriorMean x P k sd' w) (posteriorCov P k sd') h sd (v - (h ⬝ᵥ (P *ᵥ k)) * w / residualVariance P k sd') ∧
    posteriorCov (posteriorCov P h sd) k sd' = posteriorCov (posteriorCov P k sd') h sd := by
  have ha := residualVariance_pos hP h hsd
  have hb := residualVariance_pos hP k hsd'
  have hD := pair_det_pos hP h k hsd hsd'
  have hc := dot_symm hP h k
  have e1 := residualVariance_posterior hP h k sd sd'
  have e2 := residualVariance_posterior hP k h sd' sd
  rw [hc] at e2
  have d1 : residualVariance P k sd' - (h ⬝ᵥ (P *ᵥ k)) ^ 2 / residualVariance P h sd =
      (residualVariance P h sd * residualVariance P k sd' - (h ⬝ᵥ (P *ᵥ k)) ^ 2) / residualVariance P h sd := by field_simp
  have d2 : residualVariance P h sd - (h ⬝ᵥ (P *ᵥ k)) ^ 2 / residualVariance P k sd' =
      (residualVariance P h sd * residualVariance P k sd' - (h ⬝ᵥ (P *ᵥ k)) ^ 2) / residualVariance P k sd' := by field_simp
  rw [d1] at e1
  rw [d2] at e2
  constructor
  · funext i
    simp only [posteriorMean, Pi.add_apply, Pi.smul_apply, smul_eq_mul]
    rw [e1, e2, posteriorCov_mulVec hP, posteriorCov_mulVec hP, hc]
    generalize residualVariance P h sd = a at *
    generalize residualVariance P k sd' = b at *
    generalize h ⬝ᵥ (P *ᵥ k) = c at *
    have hD' := hD.ne'
    field_simp
    ring
  · ext i j
    rw [posteriorCov_apply (posteriorCov_posSemidef hP h ha), posteriorCov_apply (posteriorCov_posSemidef hP k hb), e1, e2,
      posteriorCov_apply hP, posteriorCov_apply hP, posteriorCov_mulVec hP, posteriorCov_mulVec hP, posteriorCov_mulVec hP, posteriorCov_mulVec hP, hc]
    generalize residualVariance P h sd = a at *
    generalize residualVariance P k sd' = b at *
    generalize h ⬝ᵥ (P *ᵥ k) = c at *
    have hD' := hD.ne'
    field_simp
    ring

theorem residual_posterior {P : Matrix (Fin n) (Fin n) ℝ} (hP : P.PosSemidef) (x h k : Fin n → ℝ) (sd v : ℝ) :
    posteriorMean x P h sd v ⬝ᵥ k = x ⬝ᵥ k + (h ⬝ᵥ (P *ᵥ k)) * v / residualVariance P h sd := by
  rw [posteriorMean, add_dotProduct, smul_dotProduct, dotProduct_comm (P *ᵥ h), dot_symm hP]
  simp only [smul_eq_mul]
  ring

theorem belief_swap {b : Belief nMix n} (hb : b.Proper) {m m' : Measurement n} (hm : m.sd ≠ 0) (hm' : m'.sd ≠ 0) :
    (b.update m).update m' = (b.update m').update m ∧
    b.contribution m + (b.update m).contribution m' = b.contribution m' + (b.update m').contribution m := by
  cases hy : m.y with
  | none => simp [Belief.update, Belief.contribution, hy]
  | some y =>
    cases hy' : m'.y with
    | none => simp [Belief.update, Belief.contribution, hy, hy']
    | some y' =>
      set b1 := b.update m with h1
      set b2 := b.update m' with h2
      have hb1 : b1.Proper := update_proper hb hm
      have hb2 : b2.Proper := update_proper hb hm'
      have e1 : b1 = _ := h1
      have e2 : b2 = _ := h2
      simp only [Belief.update, hy] at e1
      simp only [Belief.update, hy'] at e2
      have r1 : ∀ e, b1.residual m' y' e = b.residual m' y' e - (m.h ⬝ᵥ (b.cov e *ᵥ m'.h)) * b.residual m y e / residualVariance (b.cov e) m.h m.sd := by
        intro e
        rw [e1]
        simp only [Belief.residual]
        rw [residual_posterior (hb.cov e)]
        ring
      have r2 : ∀ e, b2.residual m y e = b.residual m y e - (m.h ⬝ᵥ (b.cov e *ᵥ m'.h)) * b.residual m' y' e / residualVariance (b.cov e) m'.h m'.sd := by
        intro e
        rw [e2]
        simp only [Belief.residual]
        rw [residual_posterior (hb.cov e), dot_symm (hb.cov e) m.h m'.h]
        ring
      have hd : ∀ e, b.density m y e * b1.density m' y' e = b.density m' y' e * b2.density m y e := by
        intro e
        have v1 : residualVariance (b1.cov e) m'.h m'.sd = residualVariance (b.cov e) m'.h m'.sd -
            (m.h ⬝ᵥ (b.cov e *ᵥ m'.h)) ^ 2 / residualVariance (b.cov e) m.h m.sd := by
          rw [e1]; exact residualVariance_posterior (hb.cov e) _ _ _ _
        have v2 : residualVariance (b2.cov e) m.h m.sd = residualVariance (b.cov e) m.h m.sd -
            (m.h ⬝ᵥ (b.cov e *ᵥ m'.h)) ^ 2 / residualVariance (b.cov e) m'.h m'.sd := by
          rw [e2, ← dot_symm (hb.cov e) m.h m'.h]; exact residualVariance_posterior (hb.cov e) _ _ _ _
        have hD := pair_det_pos (hb.cov e) m.h m'.h hm hm'
        unfold Belief.density
        rw [v1, v2, r1, r2, normalDensity_pair (residualVariance_pos (hb.cov e) _ hm) hD,
          normalDensity_pair (residualVariance_pos (hb.cov e) _ hm') (by rw [mul_comm]; exact hD)]
        rw [mul_comm (residualVariance (b.cov e) m'.h m'.sd) (residualVariance (b.cov e) m.h m.sd)]
        congr 3
        ring
      have hL1 := likelihood_pos hb hm y
      have hL2 := likelihood_pos hb hm' y'
      have hL12 := likelihood_pos hb1 hm' y'
      have hL21 := likelihood_pos hb2 hm y
      have w1 : ∀ e, Real.exp (b1.logWeight e) = Real.exp (b.logWeight e) * b.density m y e / b.likelihood m y := by
        intro e
        rw [e1]
        exact Real.exp_log (div_pos (mul_pos (Real.exp_pos _) (density_pos hb.cov hm y e)) hL1)
      have w2 : ∀ e, Real.exp (b2.logWeight e) = Real.exp (b.logWeight e) * b.density m' y' e / b.likelihood m' y' := by
        intro e
        rw [e2]
        exact Real.exp_log (div_pos (mul_pos (Real.exp_pos _) (density_pos hb.cov hm' y' e)) hL2)
      have hprod : b.likelihood m y * b1.likelihood m' y' = b.likelihood m' y' * b2.likelihood m y := by
        have q1 : b.likelihood m y * b1.likelihood m' y' = ∑ e, Real.exp (b.logWeight e) * (b.density m y e * b1.density m' y' e) := by
          rw [show b1.likelihood m' y' = ∑ e, Real.exp (b1.logWeight e) * b1.density m' y' e from rfl]
          rw [Finset.mul_sum]
          refine Finset.sum_congr rfl (fun e _ => ?_)
          rw [w1]; field_simp
        have q2 : b.likelihood m' y' * b2.likelihood m y = ∑ e, Real.exp (b.logWeight e) * (b.density m' y' e * b2.density m y e) := by
          rw [show b2.likelihood m y = ∑ e, Real.exp (b2.logWeight e) * b2.density m y e from rfl]
          rw [Finset.mul_sum]
          refine Finset.sum_congr rfl (fun e _ => ?_)
          rw [w2]; field_simp
        rw [q1, q2]
        exact Finset.sum_congr rfl (fun e _ => by rw [hd])
      constructor
      · have u1 : b1.update m' = ⟨fun e => posteriorMean (b1.mean e) (b1.cov e) m'.h m'.sd (b1.residual m' y' e),
            fun e => posteriorCov (b1.cov e) m'.h m'.sd,
            fun e => Real.log (Real.exp (b1.logWeight e) * b1.density m' y' e / b1.likelihood m' y')⟩ := by
          simp only [Belief.update, hy']
        have u2 : b2.update m = ⟨fun e => posteriorMean (b2.mean e) (b2.cov e) m.h m.sd (b2.residual m y e),
            fun e => posteriorCov (b2.cov e) m.h m.sd,
            fun e => Real.log (Real.exp (b2.logWeight e) * b2.density m y e / b2.likelihood m y)⟩ := by
          simp only [Belief.update, hy]
        rw [u1, u2]
        apply Belief.ext
        · funext e
          show posteriorMean (b1.mean e) (b1.cov e) m'.h m'.sd (b1.residual m' y' e) = posteriorMean (b2.mean e) (b2.cov e) m.h m.sd (b2.residual m y e)
          rw [r1, r2, e1, e2]
          exact (posterior_swap (hb.cov e) m.h m'.h (b.mean e) hm hm' _ _).1
        · funext e
          show posteriorCov (b1.cov e) m'.h m'.sd = posteriorCov (b2.cov e) m.h m.sd
          rw [e1, e2]
          exact (posterior_swap (hb.cov e) m.h m'.h (b.mean e) hm hm' 0 0).2
        · funext e
          show Real.log (Real.exp (b1.logWeight e) * b1.density m' y' e / b1.likelihood m' y') =
            Real.log (Real.exp (b2.logWeight e) * b2.density m y e / b2.likelihood m y)
          rw [w1, w2]
          congr 1
          have q := hd e
          field_simp
          linear_combination (b.likelihood m' y' * b2.likelihood m y) * q - b.density m' y' e * b2.density m y e * hprod
      · have c1 : b1.contribution m' = Real.log (b1.likelihood m' y') := by simp only [Belief.contribution, hy']
        have c2 : b2.contribution m = Real.log (b2.likelihood m y) := by simp only [Belief.contribution, hy]
        have c3 : b.contribution m = Real.log (b.likelihood m y) := by simp only [Belief.contribution, hy]
        have c4 : b.contribution m' = Real.log (b.likelihood m' y') := by simp only [Belief.contribution, hy']
        rw [c1, c2, c3, c4, ← Real.log_mul hL1.ne' hL12.ne', ← Real.log_mul hL2.ne' hL21.ne', hprod]

/-- The order of measurements is irrelevant. -/
theorem belief_perm {ms ms' : List (Measurement n)} (hp : ms.Perm ms') : ∀ {b : Belief nMix n}, b.Proper → (∀ m ∈ ms, m.sd ≠ 0) →
    b.updates ms = b.updates ms' ∧ b.logLikelihood ms = b.logLikelihood ms' := by
  induction hp with
  | nil => intro b _ _; exact ⟨rfl, rfl⟩
  | cons m _ ih =>
    intro b hb h
    have := ih (update_proper hb (h m (by simp))) (fun m' hm' => h m' (by simp [hm']))
    refine ⟨this.1, ?_⟩
    simp only [Belief.logLikelihood, this.2]
  | swap m m' ms =>
    intro b hb h
    have := belief_swap hb (h m' (by simp)) (h m (by simp))
    constructor
    · show ((b.update m').update m).updates ms = ((b.update m).update m').updates ms
      rw [this.1]
    · simp only [Belief.logLikelihood]
      rw [← add_assoc, ← add_assoc, this.2, this.1]
  | trans h1 _ ih1 ih2 =>
    intro b hb h
    have q1 := ih1 hb h
    have q2 := ih2 hb (fun m hm => h m (h1.mem_iff.mpr hm))
    exact ⟨q1.1.trans q2.1, q1.2.trans q2.2⟩

theorem updates_proper {b : Belief nMix n} (hb : b.Proper) {ms : List (Measurement n)} (h : ∀ m ∈ ms, m.sd ≠ 0) : (b.updates ms).Proper := by
  induction ms generalizing b with
  | nil => exact hb
  | cons m ms ih => exact ih (update_proper hb (h m (by simp))) (fun m' hm' => h m' (by simp [hm']))

end Skill
