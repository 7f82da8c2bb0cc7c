import Verif.Lemmas.Gauss
import Verif.Lemmas.Belief
import Mathlib.Data.Matrix.ColumnRowPartitioned
/-
The density of simulated data of a linear model.
-/
namespace Skill
open Matrix MeasureTheory ProbabilityTheory Spec
variable {n : ℕ}

instance (k n : ℕ) : IsProbabilityMeasure (stdDraws k n) := by
  unfold stdDraws; infer_instance

/-! ### one step -/

/-- The root of the joint covariance matrix of a measurement and the state, measurement first. -/
noncomputable def jointRoot (r : ℝ) (k : Fin n → ℝ) (U : Matrix (Fin n) (Fin n) ℝ) : Matrix (Fin (n + 1)) (Fin (n + 1)) ℝ :=
  Matrix.of (Fin.cons (Fin.cons r k) (fun i => Fin.cons 0 (U i)))

theorem jointRoot_mulVec (r : ℝ) (k : Fin n → ℝ) (U : Matrix (Fin n) (Fin n) ℝ) (ζ : ℝ) (z : Fin n → ℝ) :
    (jointRoot r k U)ᵀ *ᵥ (Fin.cons ζ z : Fin (n + 1) → ℝ) = Fin.cons (r * ζ) (fun f => k f * ζ + (Uᵀ *ᵥ z) f) := by
  funext j
  refine Fin.cases ?_ (fun f => ?_) j
  · simp [mulVec, dotProduct, Fin.sum_univ_succ, jointRoot]
  · simp [mulVec, dotProduct, Fin.sum_univ_succ, jointRoot]

theorem updateMatrix_mulVec (sd : ℝ) (h : Fin n → ℝ) (U : Matrix (Fin n) (Fin n) ℝ) (ε : ℝ) (z : Fin n → ℝ) :
    (updateMatrix sd (U *ᵥ h) U)ᵀ *ᵥ (Fin.cons ε z : Fin (n + 1) → ℝ) = Fin.cons (sd * ε + h ⬝ᵥ (Uᵀ *ᵥ z)) (Uᵀ *ᵥ z) := by
  funext j
  refine Fin.cases ?_ (fun f => ?_) j
  · have e : h ⬝ᵥ (Uᵀ *ᵥ z) = (U *ᵥ h) ⬝ᵥ z := by
      rw [dotProduct_mulVec, vecMul_transpose]
    rw [Fin.cons_zero, e]
    simp only [mulVec, dotProduct, Fin.sum_univ_succ, transpose_apply, um_00, um_s0, Fin.cons_zero, Fin.cons_succ]
  · simp only [mulVec, dotProduct, Fin.sum_univ_succ, transpose_apply, um_0s, um_ss, Fin.cons_zero, Fin.cons_succ, zero_mul, zero_add]

theorem joint_gram {sd : ℝ} {h : Fin n → ℝ} {U U' : Matrix (Fin n) (Fin n) ℝ} (hs : 0 < residualVariance (Uᵀ * U) h sd)
    (hU : U'ᵀ * U' = posteriorCov (Uᵀ * U) h sd) :
    (updateMatrix sd (U *ᵥ h) U)ᵀ * updateMatrix sd (U *ᵥ h) U =
      (jointRoot (Real.sqrt (residualVariance (Uᵀ * U) h sd)) (fun f => ((Uᵀ * U) *ᵥ h) f / Real.sqrt (residualVariance (Uᵀ * U) h sd)) U')ᵀ *
        jointRoot (Real.sqrt (residualVariance (Uᵀ * U) h sd)) (fun f => ((Uᵀ * U) *ᵥ h) f / Real.sqrt (residualVariance (Uᵀ * U) h sd)) U' := by
  have hsq := Real.mul_self_sqrt hs.le
  have hne := (Real.sqrt_pos.mpr hs).ne'
  have hPh : (Uᵀ * U) *ᵥ h = Uᵀ *ᵥ (U *ᵥ h) := by rw [mulVec_mulVec]
  ext i j
  rw [Matrix.mul_apply, Matrix.mul_apply, Fin.sum_univ_succ, Fin.sum_univ_succ]
  refine Fin.cases ?_ (fun i => ?_) i <;> refine Fin.cases ?_ (fun j => ?_) j
  · simp only [transpose_apply, um_00, um_s0, jointRoot, of_apply, Fin.cons_zero, Fin.cons_succ, mul_zero, Finset.sum_const_zero, add_zero]
    rw [hsq, residualVariance, hPh, dotProduct_mulVec, vecMul_transpose]
    simp only [dotProduct]
    ring
  · simp only [transpose_apply, um_00, um_s0, um_0s, um_ss, jointRoot, of_apply, Fin.cons_zero, Fin.cons_succ, mul_zero, zero_mul, Finset.sum_const_zero, add_zero, zero_add]
    rw [mul_div_cancel₀ _ hne, hPh]
    simp only [mulVec, dotProduct, transpose_apply]
    exact Finset.sum_congr rfl (fun k _ => mul_comm _ _)
  · simp only [transpose_apply, um_00, um_s0, um_0s, um_ss, jointRoot, of_apply, Fin.cons_zero, Fin.cons_succ, mul_zero, zero_mul, Finset.sum_const_zero, add_zero, zero_add]
    rw [div_mul_cancel₀ _ hne, hPh]
    rfl
  · simp only [transpose_apply, um_00, um_s0, um_0s, um_ss, jointRoot, of_apply, Fin.cons_zero, Fin.cons_succ, mul_zero, zero_mul, Finset.sum_const_zero, add_zero, zero_add]
    have e1 : ∑ x, U x i * U x j = (Uᵀ * U) i j := rfl
    have e2 : ∑ x, U' x i * U' x j = (U'ᵀ * U') i j := rfl
    rw [e1, e2, hU, posteriorCov_apply (posSemidef_gram U), div_mul_div_comm, hsq]
    ring

theorem lintegral_gaussian (μ : ℝ) {s : ℝ} (hs : 0 < s) {F : ℝ → ENNReal} (hF : Measurable F) :
    ∫⁻ ζ, F (Real.sqrt s * ζ + μ) ∂gaussianReal 0 1 = ∫⁻ y, ENNReal.ofReal (normalDensity s (y - μ)) * F y := by
  have h1 : (gaussianReal 0 1).map (fun ζ => Real.sqrt s * ζ + μ) = gaussianReal μ s.toNNReal := by
    have : (fun ζ => Real.sqrt s * ζ + μ) = (fun x => x + μ) ∘ (fun ζ => Real.sqrt s * ζ) := rfl
    rw [this, ← Measure.map_map (by fun_prop) (by fun_prop), gaussianReal_map_const_mul, gaussianReal_map_add_const]
    congr 1
    · simp
    · ext
      simp [Real.sq_sqrt hs.le, hs.le]
  have h2 : ∫⁻ ζ, F (Real.sqrt s * ζ + μ) ∂gaussianReal 0 1 = ∫⁻ y, F y ∂gaussianReal μ s.toNNReal := by
    rw [← h1, lintegral_map hF (by fun_prop)]
  rw [h2, gaussianReal_of_var_ne_zero _ (by simpa using hs), lintegral_withDensity_eq_lintegral_mul _ (measurable_gaussianPDF _ _) hF]
  refine lintegral_congr (fun y => ?_)
  rw [Pi.mul_apply, gaussianPDF, normalDensity]
  congr 2
  rw [gaussianPDFReal, gaussianPDFReal, sub_zero]

theorem measurable_affine (m : Fin n → ℝ) (U : Matrix (Fin n) (Fin n) ℝ) : Measurable (fun z : Fin n → ℝ => m + Uᵀ *ᵥ z) := by
  have : Continuous (fun z : Fin n → ℝ => m + Uᵀ *ᵥ z) := by fun_prop
  exact this.measurable

/-- Conditioning on a measurement. -/
theorem lintegral_measure (m : Fin n → ℝ) {U U' : Matrix (Fin n) (Fin n) ℝ} (h : Fin n → ℝ) (c : ℝ) {sd : ℝ} (hs : 0 < residualVariance (Uᵀ * U) h sd)
    (hU : U'ᵀ * U' = posteriorCov (Uᵀ * U) h sd) {F : (Fin n → ℝ) → ℝ → ENNReal} (hF : Measurable (fun p : (Fin n → ℝ) × ℝ => F p.1 p.2)) :
    ∫⁻ z, ∫⁻ ε, F (m + Uᵀ *ᵥ z) (h ⬝ᵥ (m + Uᵀ *ᵥ z) + c + sd * ε) ∂gaussianReal 0 1 ∂stdNormal (Fin n) =
      ∫⁻ y, ENNReal.ofReal (normalDensity (residualVariance (Uᵀ * U) h sd) (y - (m ⬝ᵥ h + c))) *
        ∫⁻ z, F (posteriorMean m (Uᵀ * U) h sd (y - (m ⬝ᵥ h + c)) + U'ᵀ *ᵥ z) y ∂stdNormal (Fin n) := by
  set s := residualVariance (Uᵀ * U) h sd with hsdef
  set k : Fin n → ℝ := fun f => ((Uᵀ * U) *ᵥ h) f / Real.sqrt s with hk
  set G : (Fin (n + 1) → ℝ) → ENNReal := fun v => F (m + fun f => v f.succ) (v 0 + (m ⬝ᵥ h + c)) with hG
  have hGm : Measurable G := by
    refine hF.comp (Measurable.prodMk ?_ ?_)
    · refine measurable_pi_iff.mpr (fun f => ?_)
      exact (measurable_const.add (measurable_pi_apply f.succ))
    · exact (measurable_pi_apply 0).add_const _
  have hmul : ∀ A : Matrix (Fin (n + 1)) (Fin (n + 1)) ℝ, Measurable (fun w => Aᵀ *ᵥ w) := fun A => by
    have : Continuous (fun w : Fin (n + 1) → ℝ => Aᵀ *ᵥ w) := by fun_prop
    exact this.measurable
  have hcons := fun A => lintegral_stdNormal_cons (F := fun w => G (Aᵀ *ᵥ w)) (hGm.comp (hmul A))
  beta_reduce at hcons
  have key := congrArg (fun μ => ∫⁻ v, G v ∂μ) (map_stdNormal_eq _ _ (joint_gram hs hU))
  beta_reduce at key
  rw [lintegral_map hGm (hmul _), lintegral_map hGm (hmul _), hcons, hcons] at key
  simp only [updateMatrix_mulVec, jointRoot_mulVec, hG, Fin.cons_zero, Fin.cons_succ] at key
  have hswap : ∫⁻ z, ∫⁻ ε, F (m + Uᵀ *ᵥ z) (h ⬝ᵥ (m + Uᵀ *ᵥ z) + c + sd * ε) ∂gaussianReal 0 1 ∂stdNormal (Fin n) =
      ∫⁻ ε, ∫⁻ z, F (m + fun f => (Uᵀ *ᵥ z) f) (sd * ε + h ⬝ᵥ (Uᵀ *ᵥ z) + (m ⬝ᵥ h + c)) ∂stdNormal (Fin n) ∂gaussianReal 0 1 := by
    rw [lintegral_lintegral_swap]
    · refine lintegral_congr (fun ε => lintegral_congr (fun z => ?_))
      congr 1
      rw [dotProduct_add, dotProduct_comm h m]
      ring
    · refine (hF.comp (Measurable.prodMk ((measurable_affine m U).comp measurable_fst) ?_)).aemeasurable
      have : Continuous (fun p : (Fin n → ℝ) × ℝ => h ⬝ᵥ (m + Uᵀ *ᵥ p.1) + c + sd * p.2) := by fun_prop
      exact this.measurable
  rw [hswap, key]
  set H : ℝ → ENNReal := fun y => ∫⁻ z, F (posteriorMean m (Uᵀ * U) h sd (y - (m ⬝ᵥ h + c)) + U'ᵀ *ᵥ z) y ∂stdNormal (Fin n) with hH
  have hHm : Measurable H := by
    refine Measurable.lintegral_prod_right' (f := fun p : ℝ × (Fin n → ℝ) => F (posteriorMean m (Uᵀ * U) h sd (p.1 - (m ⬝ᵥ h + c)) + U'ᵀ *ᵥ p.2) p.1) ?_
    refine hF.comp (Measurable.prodMk ?_ measurable_fst)
    have : Continuous (fun p : ℝ × (Fin n → ℝ) => posteriorMean m (Uᵀ * U) h sd (p.1 - (m ⬝ᵥ h + c)) + U'ᵀ *ᵥ p.2) := by
      unfold posteriorMean; fun_prop
    exact this.measurable
  rw [← lintegral_gaussian _ hs hHm]
  refine lintegral_congr (fun ζ => lintegral_congr (fun z => ?_))
  congr 1
  funext f
  have hne := (Real.sqrt_pos.mpr hs).ne'
  simp only [Pi.add_apply, posteriorMean, Pi.smul_apply, smul_eq_mul, hk, add_sub_cancel_right]
  rw [← hsdef]
  have : s = Real.sqrt s * Real.sqrt s := (Real.mul_self_sqrt hs.le).symm
  have e : Real.sqrt s * ζ / s = ζ / Real.sqrt s := by
    conv_lhs => rw [this]
    rw [Real.sqrt_mul_self (Real.sqrt_nonneg s)]
    field_simp
  rw [e]
  ring

/-- The matrix of the linear part of an affine function. -/
def linPart (g : (Fin n → ℝ) → Fin n → ℝ) : Matrix (Fin n) (Fin n) ℝ := Matrix.of (fun f k => g (Pi.single k 1) f - g 0 f)

theorem linPart_affine (B : Matrix (Fin n) (Fin n) ℝ) (d : Fin n → ℝ) : linPart (fun x => B *ᵥ x + d) = B := by
  ext f k
  simp [linPart]

/-- The distribution after a transition. -/
theorem lintegral_transition (m : Fin n → ℝ) {U U' B : Matrix (Fin n) (Fin n) ℝ} (d q : Fin n → ℝ)
    (hU : U'ᵀ * U' = B * (Uᵀ * U) * Bᵀ + Matrix.diagonal (fun f => q f ^ 2)) {F : (Fin n → ℝ) → ENNReal} (hF : Measurable F) :
    ∫⁻ z, ∫⁻ η, F (fun f => (B *ᵥ (m + Uᵀ *ᵥ z) + d) f + q f * η f) ∂stdNormal (Fin n) ∂stdNormal (Fin n) =
      ∫⁻ z, F (B *ᵥ m + d + U'ᵀ *ᵥ z) ∂stdNormal (Fin n) := by
  have hgram : U'ᵀ * U' = (Matrix.fromRows (U * Bᵀ) (Matrix.diagonal q))ᵀ * Matrix.fromRows (U * Bᵀ) (Matrix.diagonal q) := by
    rw [hU, transpose_fromRows, fromCols_mul_fromRows, transpose_mul, transpose_transpose, diagonal_transpose, diagonal_mul_diagonal]
    congr 1
    · simp only [Matrix.mul_assoc]
    · congr 1; funext f; ring
  have hG : Measurable (fun v : Fin n → ℝ => F (B *ᵥ m + d + v)) := hF.comp (measurable_const.add measurable_id)
  have key := congrArg (fun μ => ∫⁻ v, F (B *ᵥ m + d + v) ∂μ) (map_stdNormal_eq _ _ hgram)
  beta_reduce at key
  have h1 : Measurable (fun z : Fin n → ℝ => U'ᵀ *ᵥ z) := by
    have : Continuous (fun z : Fin n → ℝ => U'ᵀ *ᵥ z) := by fun_prop
    exact this.measurable
  have h2 : Measurable (fun z : Fin n ⊕ Fin n → ℝ => (Matrix.fromRows (U * Bᵀ) (Matrix.diagonal q))ᵀ *ᵥ z) := by
    have : Continuous (fun z : Fin n ⊕ Fin n → ℝ => (Matrix.fromRows (U * Bᵀ) (Matrix.diagonal q))ᵀ *ᵥ z) := by fun_prop
    exact this.measurable
  rw [lintegral_map hG h1, lintegral_map hG h2, lintegral_stdNormal_sum (F := fun z => F (B *ᵥ m + d + (Matrix.fromRows (U * Bᵀ) (Matrix.diagonal q))ᵀ *ᵥ z)) (hG.comp h2)] at key
  rw [key]
  refine lintegral_congr (fun z => lintegral_congr (fun η => ?_))
  congr 1
  rw [transpose_fromRows, fromCols_mulVec_sumElim, transpose_mul, transpose_transpose, diagonal_transpose]
  funext f
  simp only [Pi.add_apply, mulVec_add, mulVec_mulVec, mulVec_diagonal]
  ring

end Skill
