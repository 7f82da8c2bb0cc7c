import Verif.Lemmas.QR
import Verif.Spec.Kalman
/-
The update step for one individual and one mixture element.
-/
namespace Skill
open Matrix Spec

section
variable {n : ℕ} (sd : ℝ) (f : Fin n → ℝ) (U : Matrix (Fin n) (Fin n) ℝ)
@[simp] theorem um_00 : updateMatrix sd f U 0 0 = sd := rfl
@[simp] theorem um_0s (j : Fin n) : updateMatrix sd f U 0 j.succ = 0 := rfl
@[simp] theorem um_s0 (i : Fin n) : updateMatrix sd f U i.succ 0 = f i := rfl
@[simp] theorem um_ss (i j : Fin n) : updateMatrix sd f U i.succ j.succ = U i j := rfl
end

section
variable {n : ℕ} {qr : QR} (hqr : ValidQR qr) (sd : ℝ) (h : Fin n → ℝ) (U : Matrix (Fin n) (Fin n) ℝ)
include hqr

private theorem gram_entry (i j : Fin (n + 1)) :
    (∑ k, qr (n + 1) (n + 1) (updateMatrix sd (U *ᵥ h) U) k i * qr (n + 1) (n + 1) (updateMatrix sd (U *ᵥ h) U) k j) =
      ∑ k, updateMatrix sd (U *ᵥ h) U k i * updateMatrix sd (U *ᵥ h) U k j := by
  have := congrFun (congrFun (hqr.gram (n + 1) (n + 1) (updateMatrix sd (U *ᵥ h) U) le_rfl) i) j
  simpa only [mul_apply, transpose_apply] using this

private theorem lower_zero (i : Fin n) : qr (n + 1) (n + 1) (updateMatrix sd (U *ᵥ h) U) i.succ 0 = 0 :=
  hqr.upper _ _ _ le_rfl _ _ (Fin.succ_pos i)

theorem qr_sq : qr (n + 1) (n + 1) (updateMatrix sd (U *ᵥ h) U) 0 0 ^ 2 = residualVariance (Uᵀ * U) h sd := by
  have := gram_entry hqr sd h U 0 0
  rw [Fin.sum_univ_succ, Fin.sum_univ_succ] at this
  simp only [lower_zero hqr, mul_zero, Finset.sum_const_zero, add_zero, um_00, um_s0] at this
  rw [sq, this, residualVariance, ← mulVec_mulVec, dotProduct_mulVec, vecMul_transpose, dotProduct]
  ring

theorem qr_row (j : Fin n) : qr (n + 1) (n + 1) (updateMatrix sd (U *ᵥ h) U) 0 0 *
    qr (n + 1) (n + 1) (updateMatrix sd (U *ᵥ h) U) 0 j.succ = ((Uᵀ * U) *ᵥ h) j := by
  have := gram_entry hqr sd h U 0 j.succ
  rw [Fin.sum_univ_succ, Fin.sum_univ_succ] at this
  simp only [lower_zero hqr, zero_mul, mul_zero, Finset.sum_const_zero, add_zero, um_0s, um_s0, um_ss, zero_add] at this
  rw [← mulVec_mulVec]
  rw [this]
  show _ = ∑ k, U k j * (U *ᵥ h) k
  exact Finset.sum_congr rfl (fun k _ => mul_comm _ _)

theorem qr_rest (i j : Fin n) : qr (n + 1) (n + 1) (updateMatrix sd (U *ᵥ h) U) 0 i.succ *
    qr (n + 1) (n + 1) (updateMatrix sd (U *ᵥ h) U) 0 j.succ +
    ∑ k : Fin n, qr (n + 1) (n + 1) (updateMatrix sd (U *ᵥ h) U) k.succ i.succ *
      qr (n + 1) (n + 1) (updateMatrix sd (U *ᵥ h) U) k.succ j.succ = (Uᵀ * U) i j := by
  have := gram_entry hqr sd h U i.succ j.succ
  rw [Fin.sum_univ_succ] at this
  rw [this, Fin.sum_univ_succ]
  simp only [um_0s, um_ss, mul_zero, zero_add]
  rfl

end

theorem logpdf_eq {s v : ℝ} (hs : 0 < s) {r : ℝ} (hr : r ^ 2 = s) : normLogpdf v 0 |r| = Real.log (normalDensity s v) := by
  unfold normLogpdf normalDensity ProbabilityTheory.gaussianPDFReal
  have h2 : (0 : ℝ) < 2 * Real.pi * s := by positivity
  rw [Real.coe_toNNReal s hs.le, sq_abs, hr, Real.log_mul (inv_ne_zero (Real.sqrt_pos.mpr h2).ne') (Real.exp_ne_zero _), Real.log_inv, Real.log_exp,
    Real.log_sqrt h2.le, sub_zero]
  field_simp
  ring

theorem normalDensity_pos {s : ℝ} (hs : 0 < s) (v : ℝ) : 0 < normalDensity s v :=
  ProbabilityTheory.gaussianPDFReal_pos _ _ _ (by simpa using hs)

/-- `P * vecMulVec h h * P` for symmetric P. -/
theorem mul_vecMulVec_mul {n : ℕ} {P : Matrix (Fin n) (Fin n) ℝ} (hP : Pᵀ = P) (h : Fin n → ℝ) (i j : Fin n) :
    (P * vecMulVec h h * P) i j = (P *ᵥ h) i * (P *ᵥ h) j := by
  rw [mul_vecMulVec, vecMulVec_mul, vecMulVec_apply]
  congr 1
  conv_rhs => rw [← hP, mulVec_transpose]

end Skill
