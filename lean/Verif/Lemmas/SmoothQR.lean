import Mathlib.Analysis.SpecialFunctions.Sqrt
import Mathlib.Analysis.Calculus.FDeriv.Pi
import Mathlib.Analysis.Calculus.Deriv.Inv
import Verif.Lemmas.Regular
/-
A QR routine that is differentiable at matrices with full column rank: the Cholesky factor of the Gram matrix.
-/
namespace Skill
open Matrix Spec

/-- What is left after the first step of the Cholesky decomposition. -/
noncomputable def schur {n : ℕ} (A : Matrix (Fin (n + 1)) (Fin (n + 1)) ℝ) : Matrix (Fin n) (Fin n) ℝ :=
  Matrix.of (fun i j => A i.succ j.succ - A 0 i.succ * A 0 j.succ / A 0 0)

/-- The upper triangular Cholesky factor. -/
noncomputable def cholUpper : {n : ℕ} → Matrix (Fin n) (Fin n) ℝ → Matrix (Fin n) (Fin n) ℝ
  | 0, A => A
  | _ + 1, A => Matrix.of (Fin.cons (Fin.cons (Real.sqrt (A 0 0)) (fun j => A 0 j.succ / Real.sqrt (A 0 0))) (fun i => Fin.cons 0 (cholUpper (schur A) i)))

section
variable {n : ℕ} (A : Matrix (Fin (n + 1)) (Fin (n + 1)) ℝ)
theorem cholUpper_00 : cholUpper A 0 0 = Real.sqrt (A 0 0) := rfl
theorem cholUpper_0s (j : Fin n) : cholUpper A 0 j.succ = A 0 j.succ / Real.sqrt (A 0 0) := rfl
theorem cholUpper_s0 (i : Fin n) : cholUpper A i.succ 0 = 0 := rfl
theorem cholUpper_ss (i j : Fin n) : cholUpper A i.succ j.succ = cholUpper (schur A) i j := rfl
end

theorem cholUpper_upper : ∀ {n : ℕ} (A : Matrix (Fin n) (Fin n) ℝ) (i j : Fin n), j < i → cholUpper A i j = 0
  | 0, _, i, _, _ => i.elim0
  | n + 1, A, i, j, h => by
    refine Fin.cases (fun h => absurd h (Fin.not_lt_zero j)) (fun i' h => ?_) i h
    refine Fin.cases (fun _ => rfl) (fun j' h => ?_) j h
    rw [cholUpper_ss]
    exact cholUpper_upper _ _ _ (Fin.succ_lt_succ_iff.mp h)

theorem psd_zero_row {n : ℕ} {A : Matrix (Fin (n + 1)) (Fin (n + 1)) ℝ} (hA : A.PosSemidef) (h0 : A 0 0 = 0) (j : Fin n) : A 0 j.succ = 0 := by
  have hsym : ∀ i j, A i j = A j i := fun i j => by
    have := congrFun (congrFun hA.isHermitian j) i
    simpa using this
  have hq : ∀ z : Fin (n + 1) → ℝ, 0 ≤ z ⬝ᵥ (A *ᵥ z) := fun z => by
    have := hA.dotProduct_mulVec_nonneg z
    rwa [star_trivial] at this
  by_contra hne
  have key : ∀ t : ℝ, 0 ≤ 2 * t * A 0 j.succ + A j.succ j.succ := by
    intro t
    have h1 := hq (Fin.cons t (Pi.single j 1))
    rw [quad_cons A hsym, h0] at h1
    simpa [dotProduct, mulVec, Pi.single_apply] using h1
  have h2 := key (-(A j.succ j.succ + 1) / (2 * A 0 j.succ))
  have h3 : 2 * (-(A j.succ j.succ + 1) / (2 * A 0 j.succ)) * A 0 j.succ = -(A j.succ j.succ + 1) := by
    field_simp
  rw [h3] at h2
  linarith

/-- The quadratic form of the remaining matrix. -/
theorem schur_quad {n : ℕ} {A : Matrix (Fin (n + 1)) (Fin (n + 1)) ℝ} (hsym : ∀ i j, A i j = A j i) (w : Fin n → ℝ) :
    w ⬝ᵥ (schur A *ᵥ w) = (Fin.cons (-(∑ j, A 0 j.succ * w j) / A 0 0) w : Fin (n + 1) → ℝ) ⬝ᵥ (A *ᵥ Fin.cons (-(∑ j, A 0 j.succ * w j) / A 0 0) w) := by
  rw [quad_cons A hsym]
  have h2 : w ⬝ᵥ (schur A *ᵥ w) = w ⬝ᵥ (A.submatrix Fin.succ Fin.succ *ᵥ w) - (∑ j, A 0 j.succ * w j) ^ 2 / A 0 0 := by
    simp only [dotProduct, mulVec, schur, of_apply, submatrix_apply]
    rw [sq, Finset.sum_mul, Finset.sum_div, ← Finset.sum_sub_distrib]
    refine Finset.sum_congr rfl (fun i _ => ?_)
    have : A 0 i.succ * w i * (∑ j, A 0 j.succ * w j) / A 0 0 = w i * ∑ j, A 0 i.succ * A 0 j.succ / A 0 0 * w j := by
      rw [Finset.mul_sum, Finset.mul_sum, Finset.sum_div]
      exact Finset.sum_congr rfl (fun j _ => by ring)
    rw [this, ← mul_sub, ← Finset.sum_sub_distrib]
    congr 1
    exact Finset.sum_congr rfl (fun j _ => by ring)
  rw [h2]
  by_cases h0 : A 0 0 = 0
  · rw [h0]; simp
  · have e : A 0 0 * (-(∑ j, A 0 j.succ * w j) / A 0 0) ^ 2 + 2 * (-(∑ j, A 0 j.succ * w j) / A 0 0) * (∑ j, A 0 j.succ * w j) =
        - ((∑ j, A 0 j.succ * w j) ^ 2 / A 0 0) := by
      field_simp; ring
    rw [e]
    ring

theorem schur_symm {n : ℕ} {A : Matrix (Fin (n + 1)) (Fin (n + 1)) ℝ} (hsym : ∀ i j, A i j = A j i) : (schur A).IsHermitian := by
  ext i j
  simp only [conjTranspose_apply, schur, of_apply, star_trivial]
  rw [hsym j.succ i.succ]; ring

theorem schur_psd {n : ℕ} {A : Matrix (Fin (n + 1)) (Fin (n + 1)) ℝ} (hA : A.PosSemidef) : (schur A).PosSemidef := by
  have hsym : ∀ i j, A i j = A j i := fun i j => by
    have := congrFun (congrFun hA.isHermitian j) i
    simpa using this
  refine PosSemidef.of_dotProduct_mulVec_nonneg (schur_symm hsym) (fun w => ?_)
  rw [star_trivial, schur_quad hsym]
  have := hA.dotProduct_mulVec_nonneg (Fin.cons (-(∑ j, A 0 j.succ * w j) / A 0 0) w)
  rwa [star_trivial] at this

theorem schur_pd {n : ℕ} {A : Matrix (Fin (n + 1)) (Fin (n + 1)) ℝ} (hA : A.PosDef) : (schur A).PosDef := by
  have hsym : ∀ i j, A i j = A j i := fun i j => by
    have := congrFun (congrFun hA.isHermitian j) i
    simpa using this
  refine PosDef.of_dotProduct_mulVec_pos (schur_symm hsym) (fun w hw => ?_)
  rw [star_trivial, schur_quad hsym]
  have := hA.dotProduct_mulVec_pos (x := Fin.cons (-(∑ j, A 0 j.succ * w j) / A 0 0) w) (fun h => hw (by
    funext j
    have := congrFun h j.succ
    simpa using this))
  rwa [star_trivial] at this

theorem cholUpper_gram : ∀ {n : ℕ} (A : Matrix (Fin n) (Fin n) ℝ), A.PosSemidef → (cholUpper A)ᵀ * cholUpper A = A
  | 0, _, _ => Subsingleton.elim _ _
  | n + 1, A, hA => by
    have hsym : ∀ i j, A i j = A j i := fun i j => by
      have := congrFun (congrFun hA.isHermitian j) i
      simpa using this
    have hs : Real.sqrt (A 0 0) * Real.sqrt (A 0 0) = A 0 0 := Real.mul_self_sqrt hA.diag_nonneg
    have ih := cholUpper_gram (schur A) (schur_psd hA)
    have hg' : ∀ i j, ∑ k, cholUpper (schur A) k i * cholUpper (schur A) k j = schur A i j := fun i j => by
      conv_rhs => rw [← ih]
      rw [mul_apply]; rfl
    have hz : Real.sqrt (A 0 0) = 0 → A 0 0 = 0 := fun h => by rw [← hs, h]; ring
    have h01 : ∀ j : Fin n, Real.sqrt (A 0 0) * (A 0 j.succ / Real.sqrt (A 0 0)) = A 0 j.succ := by
      intro j
      by_cases h0 : Real.sqrt (A 0 0) = 0
      · rw [h0, psd_zero_row hA (hz h0) j]; simp
      · field_simp
    ext i j
    rw [mul_apply, Fin.sum_univ_succ]
    simp only [transpose_apply]
    refine Fin.cases ?_ (fun i' => ?_) i <;> refine Fin.cases ?_ (fun j' => ?_) j
    · simp [cholUpper_00, cholUpper_s0, hs]
    · simp [cholUpper_00, cholUpper_0s, cholUpper_s0, h01]
    · simp only [cholUpper_00, cholUpper_0s, cholUpper_s0, mul_zero, Finset.sum_const_zero, add_zero]
      rw [mul_comm, h01, hsym]
    · simp only [cholUpper_0s, cholUpper_ss]
      rw [hg' i' j']
      simp only [schur, of_apply]
      have : A 0 i'.succ / Real.sqrt (A 0 0) * (A 0 j'.succ / Real.sqrt (A 0 0)) = A 0 i'.succ * A 0 j'.succ / A 0 0 := by
        rw [div_mul_div_comm, hs]
      rw [this]; ring

/-- The differentiable QR routine. -/
noncomputable def smoothQR : QR := fun _ _ M => cholUpper (Mᵀ * M)

theorem smoothQR_valid : ValidQR smoothQR :=
  ⟨fun _ _ _ _ i j h => cholUpper_upper _ i j h, fun _ _ m _ => cholUpper_gram _ (by
    have := Matrix.posSemidef_conjTranspose_mul_self m
    rwa [Matrix.conjTranspose_eq_transpose_of_trivial] at this)⟩

variable {E : Type} [NormedAddCommGroup E] [NormedSpace ℝ E] {x₀ : E}

theorem diff_div {f g : E → ℝ} (hf : DifferentiableAt ℝ f x₀) (hg : DifferentiableAt ℝ g x₀) (h : g x₀ ≠ 0) : DifferentiableAt ℝ (fun x => f x / g x) x₀ := by
  simp only [div_eq_mul_inv]
  exact hf.fun_mul (hg.fun_inv h)

theorem cholUpper_differentiable : ∀ {n : ℕ} {A : E → Matrix (Fin n) (Fin n) ℝ}, (∀ i j, DifferentiableAt ℝ (fun x => A x i j) x₀) → (A x₀).PosDef →
    ∀ i j, DifferentiableAt ℝ (fun x => cholUpper (A x) i j) x₀
  | 0, _, _, _ => fun i => i.elim0
  | n + 1, A, hA, hpd => by
    have hpos : 0 < A x₀ 0 0 := hpd.diag_pos
    have hsq : DifferentiableAt ℝ (fun x => Real.sqrt (A x 0 0)) x₀ := (hA 0 0).sqrt hpos.ne'
    have hsq0 : Real.sqrt (A x₀ 0 0) ≠ 0 := (Real.sqrt_pos.mpr hpos).ne'
    have hsch : ∀ i j, DifferentiableAt ℝ (fun x => schur (A x) i j) x₀ := fun i j => by
      simp only [schur, of_apply]
      exact (hA _ _).fun_sub (diff_div (f := fun x => A x 0 i.succ * A x 0 j.succ) (g := fun x => A x 0 0) ((hA _ _).fun_mul (hA _ _)) (hA 0 0) hpos.ne')
    have ih := cholUpper_differentiable hsch (schur_pd hpd)
    intro i j
    refine Fin.cases ?_ (fun i' => ?_) i <;> refine Fin.cases ?_ (fun j' => ?_) j
    · exact hsq
    · exact diff_div (f := fun x => A x 0 j'.succ) (g := fun x => Real.sqrt (A x 0 0)) (hA _ _) hsq hsq0
    · exact differentiableAt_const _
    · exact ih i' j'

theorem smoothQR_differentiable {k n : ℕ} {M : E → Matrix (Fin k) (Fin n) ℝ} (hM : ∀ i j, DifferentiableAt ℝ (fun x => M x i j) x₀) (hdet : ((M x₀)ᵀ * M x₀).det ≠ 0) (i j : Fin n) :
    DifferentiableAt ℝ (fun x => smoothQR k n (M x) i j) x₀ := by
  refine cholUpper_differentiable (A := fun x => (M x)ᵀ * M x) (fun a b => ?_) ?_ i j
  · simp only [mul_apply, transpose_apply]
    exact DifferentiableAt.fun_sum (fun s _ => (hM _ _).mul (hM _ _))
  · have hps : ((M x₀)ᵀ * M x₀).PosSemidef := by
      have := Matrix.posSemidef_conjTranspose_mul_self (M x₀)
      rwa [Matrix.conjTranspose_eq_transpose_of_trivial] at this
    exact hps.posDef_iff_det_ne_zero.mpr hdet

end Skill
