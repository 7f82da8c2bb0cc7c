import Verif.Props.KalmanUpdate
/-
Sums over sigma points.
-/
namespace Skill
open Matrix Spec
variable {nObs nMix n nObserved : ℕ}

/-- Sum over the central point, the points that add and the points that subtract. -/
theorem sum_sigma {M : Type*} [AddCommMonoid M] (F : Fin (2 * n + 1) → M) :
    ∑ s, F s = F 0 + ((∑ j : Fin n, F ⟨j + 1, by omega⟩) + ∑ j : Fin n, F ⟨j + (n + 1), by omega⟩) := by
  rw [Fin.sum_univ_succ]
  congr 1
  have h : n + n = 2 * n := by omega
  rw [← (finCongr h).sum_comp, Fin.sum_univ_add]
  congr 1
  refine Finset.sum_congr rfl (fun j _ => ?_)
  congr 1
  ext
  simp only [finCongr_apply, Fin.val_succ, Fin.val_cast, Fin.val_natAdd]
  omega

section
variable (states : Fin nObs → Fin nMix → Fin n → ℝ) (chols : Fin nObs → Fin nMix → Matrix (Fin n) (Fin n) ℝ) (c : ℝ)
  (i : Fin nObs) (e : Fin nMix)

theorem latent_zero : latentSigmaPoints states chols c i e 0 = states i e := by
  funext f
  simp [latentSigmaPoints]

theorem latent_plus (j : Fin n) : latentSigmaPoints states chols c i e ⟨j + 1, by omega⟩ = states i e + c • chols i e j := by
  funext f
  have := j.isLt
  simp [latentSigmaPoints, mul_comm]

theorem latent_minus (j : Fin n) : latentSigmaPoints states chols c i e ⟨j + (n + 1), by omega⟩ = states i e - c • chols i e j := by
  funext f
  simp only [latentSigmaPoints, Pi.sub_apply, Pi.smul_apply, smul_eq_mul]
  rw [dif_neg (by omega), dif_pos (by omega)]
  simp only [Nat.add_sub_cancel, Fin.eta]
  ring

end

theorem weight_zero (kappa : ℝ) : sigmaWeights n kappa 0 = kappa / (n + kappa) := by simp [sigmaWeights]

theorem weight_succ (kappa : ℝ) (k : ℕ) (hk : k + 1 < 2 * n + 1) : sigmaWeights n kappa ⟨k + 1, hk⟩ = 1 / (2 * (n + kappa)) := by
  have : (⟨k + 1, hk⟩ : Fin (2 * n + 1)) ≠ 0 := by
    intro h; simpa using congrArg Fin.val h
  simp only [sigmaWeights, if_neg this]
  norm_num
  ring

theorem weights_sum {kappa : ℝ} (h : n + kappa ≠ 0) : ∑ s, sigmaWeights n kappa s = 1 := by
  rw [sum_sigma, weight_zero]
  have e1 : ∀ j : Fin n, sigmaWeights n kappa ⟨j + (n + 1), by omega⟩ = 1 / (2 * (n + kappa)) := fun j =>
    weight_succ kappa (j + n) (by omega)
  simp only [e1, weight_succ, Finset.sum_const, Finset.card_univ, Fintype.card_fin, nsmul_eq_mul]
  field_simp
  ring

theorem weights_nonneg {kappa : ℝ} (h : 0 ≤ kappa) (s : Fin (2 * n + 1)) : 0 ≤ sigmaWeights n kappa s := by
  unfold sigmaWeights
  split <;> positivity

/-- Weighted sum of an even function of the deviations and an affine function of the state. -/
theorem weighted_sum (kappa : ℝ)
    (states : Fin nObs → Fin nMix → Fin n → ℝ) (chols : Fin nObs → Fin nMix → Matrix (Fin n) (Fin n) ℝ) (c : ℝ)
    (i : Fin nObs) (e : Fin nMix) (G : (Fin n → ℝ) → ℝ) :
    ∑ s, sigmaWeights n kappa s * G (latentSigmaPoints states chols c i e s) =
      kappa / (n + kappa) * G (states i e) +
      1 / (2 * (n + kappa)) * ∑ j, (G (states i e + c • chols i e j) + G (states i e - c • chols i e j)) := by
  rw [sum_sigma, weight_zero, latent_zero]
  have e1 : ∀ j : Fin n, sigmaWeights n kappa ⟨j + (n + 1), by omega⟩ = 1 / (2 * (n + kappa)) := fun j =>
    weight_succ kappa (j + n) (by omega)
  simp only [e1, weight_succ, latent_plus, latent_minus]
  rw [← Finset.mul_sum, ← Finset.mul_sum, ← mul_add, ← Finset.sum_add_distrib]

/-- Weighted mean of an affine function of the sigma points. -/
theorem weighted_affine {kappa : ℝ} (h : 0 < n + kappa)
    (states : Fin nObs → Fin nMix → Fin n → ℝ) (chols : Fin nObs → Fin nMix → Matrix (Fin n) (Fin n) ℝ) (c : ℝ)
    (i : Fin nObs) (e : Fin nMix) (a : Fin n → ℝ) (b : ℝ) :
    ∑ s, sigmaWeights n kappa s * (a ⬝ᵥ latentSigmaPoints states chols c i e s + b) = a ⬝ᵥ states i e + b := by
  rw [weighted_sum kappa states chols c i e (fun z => a ⬝ᵥ z + b)]
  have : ∀ j, (a ⬝ᵥ (states i e + c • chols i e j) + b + (a ⬝ᵥ (states i e - c • chols i e j) + b)) = 2 * (a ⬝ᵥ states i e + b) := by
    intro j
    rw [dotProduct_add, dotProduct_sub]
    ring
  simp only [this, Finset.sum_const, Finset.card_univ, Fintype.card_fin, nsmul_eq_mul]
  field_simp
  ring

/-- Weighted cross products of linear functions of the deviations. -/
theorem weighted_cross {kappa : ℝ} (h : 0 < n + kappa)
    (states : Fin nObs → Fin nMix → Fin n → ℝ) (chols : Fin nObs → Fin nMix → Matrix (Fin n) (Fin n) ℝ)
    (i : Fin nObs) (e : Fin nMix) (a b : Fin n → ℝ) :
    ∑ s, sigmaWeights n kappa s *
      ((a ⬝ᵥ (latentSigmaPoints states chols (sigmaScalingFactor n kappa) i e s - states i e)) *
       (b ⬝ᵥ (latentSigmaPoints states chols (sigmaScalingFactor n kappa) i e s - states i e))) =
      a ⬝ᵥ (((chols i e)ᵀ * chols i e) *ᵥ b) := by
  rw [weighted_sum kappa states chols _ i e (fun z => (a ⬝ᵥ (z - states i e)) * (b ⬝ᵥ (z - states i e)))]
  have hc : sigmaScalingFactor n kappa * sigmaScalingFactor n kappa = n + kappa := by
    unfold sigmaScalingFactor
    rw [Real.mul_self_sqrt (by linarith), add_comm]
  have e1 : ∀ j, (a ⬝ᵥ (states i e + sigmaScalingFactor n kappa • chols i e j - states i e)) *
      (b ⬝ᵥ (states i e + sigmaScalingFactor n kappa • chols i e j - states i e)) +
      (a ⬝ᵥ (states i e - sigmaScalingFactor n kappa • chols i e j - states i e)) *
      (b ⬝ᵥ (states i e - sigmaScalingFactor n kappa • chols i e j - states i e)) =
      2 * (n + kappa) * ((a ⬝ᵥ chols i e j) * (b ⬝ᵥ chols i e j)) := by
    intro j
    rw [add_sub_cancel_left, sub_sub_cancel_left, dotProduct_neg, dotProduct_neg, dotProduct_smul, dotProduct_smul, ← hc]
    simp only [smul_eq_mul]
    ring
  rw [sub_self, dotProduct_zero, zero_mul, mul_zero, zero_add, Finset.sum_congr rfl (fun j _ => e1 j), ← Finset.mul_sum, ← mul_assoc]
  rw [one_div_mul_cancel (by positivity), one_mul, ← mulVec_mulVec, dotProduct_mulVec, vecMul_transpose]
  show _ = ∑ j, (chols i e *ᵥ a) j * (chols i e *ᵥ b) j
  refine Finset.sum_congr rfl (fun j _ => ?_)
  rw [dotProduct_comm a, dotProduct_comm b]
  rfl

theorem observed_one (hm : nMix = 1) (nSigma : ℕ) (observed : Fin nObs → Fin nObserved → ℝ) (i : Fin nObs) (e : Fin nMix) (s : Fin nSigma) :
    observedSigmaPoints nMix nSigma observed i e s = observed i := by
  subst hm
  funext c
  have hc : 0 < nObserved := Nat.lt_of_le_of_lt (Nat.zero_le _) c.isLt
  have hs : 0 < nSigma := Nat.lt_of_le_of_lt (Nat.zero_le _) s.isLt
  have e0 : (e : ℕ) = 0 := by omega
  have h1 : ((i.val * 1 + e.val) * nSigma + s.val) * nObserved + c.val = c.val + nObserved * (i.val * nSigma + s.val) := by
    rw [e0]; ring
  have h2 : (c.val + nObserved * (i.val * nSigma + s.val)) / nObserved = i.val * nSigma + s.val := by
    rw [Nat.add_mul_div_left _ _ hc, Nat.div_eq_of_lt c.isLt, zero_add]
  have h3 : (i.val * nSigma + s.val) / nSigma = i.val := by
    rw [mul_comm, Nat.mul_add_div hs, Nat.div_eq_of_lt s.isLt, add_zero]
  have h4 : (c.val + nObserved * (i.val * nSigma + s.val)) % nObserved = c.val := by
    rw [Nat.add_mul_mod_self_left, Nat.mod_eq_of_lt c.isLt]
  simp only [observedSigmaPoints, h1, h2, h3, h4, i.isLt, dif_pos, Fin.eta]

/-- The reshape of the observed factors works with one mixture element or without observed factors;
otherwise only for empty data. -/
theorem reshapeOk_iff : reshapeOk nObs nMix (2 * n + 1) nObserved = true ↔ nMix = 1 ∨ nObserved = 0 ∨ nObs = 0 := by
  unfold reshapeOk
  rw [decide_eq_true_iff]
  constructor
  · intro h
    by_contra hc
    push Not at hc
    obtain ⟨h1, h2, h3⟩ := hc
    have e : nObs * nMix * (2 * n + 1) * nObserved = (nObs * (2 * n + 1) * nObserved) * nMix := by ring
    rw [e] at h
    have hpos : 0 < nObs * (2 * n + 1) * nObserved := by positivity
    apply h1
    have : (nObs * (2 * n + 1) * nObserved) * 1 = (nObs * (2 * n + 1) * nObserved) * nMix := by rw [mul_one]; exact h
    exact (Nat.eq_of_mul_eq_mul_left hpos this).symm
  · rintro (rfl | rfl | rfl) <;> simp

/-- The sigma points if there is no shape error: the latent points and the data of the observed factors. -/
theorem calculateSigmaPoints_ok (h : nMix = 1 ∨ nObserved = 0 ∨ nObs = 0) (states : Fin nObs → Fin nMix → Fin n → ℝ)
    (chols : Fin nObs → Fin nMix → Matrix (Fin n) (Fin n) ℝ) (c : ℝ) (observed : Fin nObs → Fin nObserved → ℝ) :
    calculateSigmaPoints states chols c observed =
      .ok (fun i e s => Fin.append (latentSigmaPoints states chols c i e s) (observed i)) := by
  unfold calculateSigmaPoints
  rw [if_pos (reshapeOk_iff.mpr h)]
  congr 1
  funext i e s
  congr 1
  rcases h with h | h | h
  · exact observed_one h _ _ _ _ _
  · subst h; funext c; exact c.elim0
  · subst h; exact i.elim0

/-- Gram matrix of the array passed to the QR routine in the predict step. -/
theorem predict_gram {qr : QR} (hqr : ValidQR qr) {nSigma : ℕ} {weights : Fin nSigma → ℝ} (hw : ∀ s, 0 ≤ weights s) (shockSds : Fin n → ℝ)
    (transformed : Fin nObs → Fin nMix → Fin nSigma → Fin n → ℝ) (i : Fin nObs) (e : Fin nMix) (f g : Fin n) :
    (((predictMoments qr weights shockSds transformed).2 i e)ᵀ * (predictMoments qr weights shockSds transformed).2 i e) f g =
      (∑ s, weights s * ((transformed i e s f - (predictMoments qr weights shockSds transformed).1 i e f) *
        (transformed i e s g - (predictMoments qr weights shockSds transformed).1 i e g))) +
      Matrix.diagonal (fun f => shockSds f ^ 2) f g := by
  simp only [predictMoments]
  rw [hqr.gram _ _ _ (Nat.le_add_left _ _), mul_apply, Fin.sum_univ_add]
  simp only [transpose_apply, of_apply, Fin.append_left, Fin.append_right]
  congr 1
  · refine Finset.sum_congr rfl (fun s _ => ?_)
    have := Real.mul_self_sqrt (hw s)
    rw [← this]
    rw [Real.sqrt_mul_self (Real.sqrt_nonneg _)]
    ring
  · simp only [diagonal_apply]
    by_cases hfg : f = g
    · subst hfg
      simp [sq]
    · rw [if_neg hfg]
      refine Finset.sum_eq_zero (fun k _ => ?_)
      by_cases h1 : k = f
      · rw [if_neg (fun h2 => hfg (h1.symm.trans h2)), mul_zero]
      · rw [if_neg h1, zero_mul]

end Skill
