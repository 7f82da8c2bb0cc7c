import Mathlib.Algebra.Order.Star.Real
import Mathlib.LinearAlgebra.Matrix.PosDef
import Mathlib.LinearAlgebra.Matrix.Block
import Mathlib.Algebra.BigOperators.Field
import Mathlib.Tactic.FieldSimp
import Mathlib.Tactic.LinearCombination
import Verif.Model.Kalman
/-
The R factor of the QR decomposition: existence, uniqueness up to the sign of rows.
-/
namespace Skill
open Matrix

theorem quad_cons {n : ℕ} (A : Matrix (Fin (n + 1)) (Fin (n + 1)) ℝ) (hsym : ∀ i j, A i j = A j i) (t : ℝ) (w : Fin n → ℝ) :
    (Fin.cons t w : Fin (n + 1) → ℝ) ⬝ᵥ (A *ᵥ Fin.cons t w) =
      A 0 0 * t ^ 2 + 2 * t * (∑ j, A 0 j.succ * w j) + w ⬝ᵥ (A.submatrix Fin.succ Fin.succ *ᵥ w) := by
  simp only [dotProduct, mulVec, Fin.sum_univ_succ, Fin.cons_zero, Fin.cons_succ, submatrix_apply]
  have : ∑ i : Fin n, w i * (A i.succ 0 * t + ∑ j, A i.succ j.succ * w j) =
      t * (∑ j, A 0 j.succ * w j) + ∑ i, w i * ∑ j, A i.succ j.succ * w j := by
    rw [Finset.mul_sum, ← Finset.sum_add_distrib]
    refine Finset.sum_congr rfl (fun i _ => ?_)
    rw [hsym i.succ 0]
    ring
  rw [this]
  ring

/-- Every positive semi-definite matrix is RᵀR for some upper triangular R. -/
theorem exists_upper_gram : ∀ {n : ℕ} (A : Matrix (Fin n) (Fin n) ℝ), A.PosSemidef →
    ∃ R : Matrix (Fin n) (Fin n) ℝ, (∀ i j, j < i → R i j = 0) ∧ Rᵀ * R = A
  | 0, A, _ => ⟨A, fun i => i.elim0, Subsingleton.elim _ _⟩
  | n + 1, A, hA => by
    have hsym : ∀ i j, A i j = A j i := fun i j => by
      have := congrFun (congrFun hA.isHermitian j) i
      simpa using this
    have hq : ∀ z : Fin (n + 1) → ℝ, 0 ≤ z ⬝ᵥ (A *ᵥ z) := fun z => by
      have := hA.dotProduct_mulVec_nonneg z
      rwa [star_trivial] at this
    have ha : 0 ≤ A 0 0 := hA.diag_nonneg
    have hb : A 0 0 = 0 → ∀ j : Fin n, A 0 j.succ = 0 := by
      intro h0 j
      by_contra hne
      have key : ∀ t : ℝ, 0 ≤ 2 * t * A 0 j.succ + A j.succ j.succ := by
        intro t
        have h1 := hq (Fin.cons t (Pi.single j 1))
        rw [quad_cons A hsym, h0] at h1
        simpa [dotProduct, mulVec, Pi.single_apply] using h1
      have h2 := key (-(A j.succ j.succ + 1) / (2 * A 0 j.succ))
      have h3 : 2 * (-(A j.succ j.succ + 1) / (2 * A 0 j.succ)) * A 0 j.succ = -(A j.succ j.succ + 1) := by
        field_simp
      rw [h3] at h2
      linarith
    set C : Matrix (Fin n) (Fin n) ℝ := Matrix.of (fun i j => A i.succ j.succ - A 0 i.succ * A 0 j.succ / A 0 0) with hC
    have hCpsd : C.PosSemidef := by
      refine PosSemidef.of_dotProduct_mulVec_nonneg ?_ ?_
      · ext i j
        simp only [conjTranspose_apply, hC, of_apply, star_trivial]
        rw [hsym j.succ i.succ]; ring
      · intro w
        rw [star_trivial]
        have h1 := hq (Fin.cons (-(∑ j, A 0 j.succ * w j) / A 0 0) w)
        rw [quad_cons A hsym] at h1
        have h2 : w ⬝ᵥ (C *ᵥ w) = w ⬝ᵥ (A.submatrix Fin.succ Fin.succ *ᵥ w) - (∑ j, A 0 j.succ * w j) ^ 2 / A 0 0 := by
          simp only [dotProduct, mulVec, hC, of_apply, submatrix_apply]
          rw [sq, Finset.sum_mul, Finset.sum_div, ← Finset.sum_sub_distrib]
          refine Finset.sum_congr rfl (fun i _ => ?_)
          have : A 0 i.succ * w i * (∑ j, A 0 j.succ * w j) / A 0 0 = w i * ∑ j, A 0 i.succ * A 0 j.succ / A 0 0 * w j := by
            rw [Finset.mul_sum, Finset.mul_sum, Finset.sum_div]
            exact Finset.sum_congr rfl (fun j _ => by ring)
          rw [this, ← mul_sub, ← Finset.sum_sub_distrib]
          congr 1
          exact Finset.sum_congr rfl (fun j _ => by ring)
        rw [h2]
        by_cases h0 : A 0 0 = 0
        · rw [h0] at h1 ⊢; simpa using h1
        · have e : A 0 0 * (-(∑ j, A 0 j.succ * w j) / A 0 0) ^ 2 + 2 * (-(∑ j, A 0 j.succ * w j) / A 0 0) * (∑ j, A 0 j.succ * w j) =
              - ((∑ j, A 0 j.succ * w j) ^ 2 / A 0 0) := by
            field_simp; ring
          rw [e] at h1
          linarith
    obtain ⟨R, hR, hg⟩ := exists_upper_gram C hCpsd
    refine ⟨Matrix.of (Fin.cons (Fin.cons (Real.sqrt (A 0 0)) (fun j => A 0 j.succ / Real.sqrt (A 0 0)))
      (fun i => Fin.cons 0 (R i))), ?_, ?_⟩
    · intro i j hij
      refine Fin.cases ?_ ?_ i hij
      · intro h; exact absurd h (Fin.not_lt_zero j)
      · intro i'
        refine Fin.cases ?_ ?_ j
        · intro _; simp
        · intro j' h
          simpa using hR i' j' (by simpa using h)
    · have hs : Real.sqrt (A 0 0) * Real.sqrt (A 0 0) = A 0 0 := Real.mul_self_sqrt ha
      have hg' : ∀ i j, ∑ k, R k i * R k j = C i j := fun i j => by
        rw [← hg, mul_apply]; rfl
      have hz : Real.sqrt (A 0 0) = 0 → A 0 0 = 0 := fun h => by rw [← hs, h]; ring
      have h01 : ∀ j : Fin n, Real.sqrt (A 0 0) * (A 0 j.succ / Real.sqrt (A 0 0)) = A 0 j.succ := by
        intro j
        by_cases h0 : Real.sqrt (A 0 0) = 0
        · rw [h0, hb (hz h0) j]; simp
        · field_simp
      ext i j
      rw [mul_apply, Fin.sum_univ_succ]
      refine Fin.cases ?_ ?_ i <;> refine Fin.cases ?_ ?_ j
      · simp [hs]
      · intro j'; simp [h01]
      · intro i'; simp only [transpose_apply, of_apply, Fin.cons_zero, Fin.cons_succ, mul_zero, Finset.sum_const_zero, add_zero]
        rw [mul_comm, h01, hsym]
      · intro j' i'
        simp only [transpose_apply, of_apply, Fin.cons_zero, Fin.cons_succ]
        rw [hg' i' j']
        simp only [hC, of_apply]
        have : A 0 i'.succ / Real.sqrt (A 0 0) * (A 0 j'.succ / Real.sqrt (A 0 0)) = A 0 i'.succ * A 0 j'.succ / A 0 0 := by
          rw [div_mul_div_comm, hs]
        rw [this]; ring

/-- There is a QR routine as assumed. -/
theorem exists_validQR : ∃ qr : QR, ValidQR qr := by
  have h : ∀ k n (m : Matrix (Fin k) (Fin n) ℝ), ∃ R : Matrix (Fin n) (Fin n) ℝ, (∀ i j, j < i → R i j = 0) ∧ Rᵀ * R = mᵀ * m := by
    intro k n m
    apply exists_upper_gram
    have := Matrix.posSemidef_conjTranspose_mul_self m
    rwa [Matrix.conjTranspose_eq_transpose_of_trivial] at this
  choose f hf using h
  exact ⟨f, ⟨fun k n m _ => (hf k n m).1, fun k n m _ => (hf k n m).2⟩⟩

/-- Upper triangular matrices with the same Gram matrix and non-zero diagonal agree up to the sign of
their rows. -/
theorem upper_unique {n : ℕ} {R S : Matrix (Fin n) (Fin n) ℝ} (hR : ∀ i j, j < i → R i j = 0)
    (hS : ∀ i j, j < i → S i j = 0) (h : Rᵀ * R = Sᵀ * S) (hd : ∀ i, S i i ≠ 0) :
    ∃ ε : Fin n → ℝ, (∀ i, ε i = 1 ∨ ε i = -1) ∧ ∀ i j, R i j = ε i * S i j := by
  have key : ∀ i, ∃ ε : ℝ, (ε = 1 ∨ ε = -1) ∧ ∀ j, R i j = ε * S i j := by
    intro i
    obtain ⟨i, hi⟩ := i
    induction i using Nat.strong_induction_on with
    | _ i ih =>
      have key : ∀ j, R ⟨i, hi⟩ ⟨i, hi⟩ * R ⟨i, hi⟩ j = S ⟨i, hi⟩ ⟨i, hi⟩ * S ⟨i, hi⟩ j := by
        intro j
        have h1 : ∑ k, (R k ⟨i, hi⟩ * R k j - S k ⟨i, hi⟩ * S k j) = 0 := by
          have := congrFun (congrFun h ⟨i, hi⟩) j
          rw [mul_apply, mul_apply] at this
          simp only [transpose_apply] at this
          rw [Finset.sum_sub_distrib, this, sub_self]
        rw [Finset.sum_eq_single ⟨i, hi⟩] at h1
        · linarith
        · intro k _ hk
          rcases lt_or_gt_of_ne (fun e => hk (Fin.ext e) : (k : ℕ) ≠ i) with hlt | hgt
          · obtain ⟨ε, he, hr⟩ := ih k hlt k.isLt
            simp only [Fin.eta] at hr
            rw [hr, hr]
            rcases he with rfl | rfl <;> ring
          · rw [hR k ⟨i, hi⟩ hgt, hS k ⟨i, hi⟩ hgt]; ring
        · intro hn; exact absurd (Finset.mem_univ _) hn
      have hne := hd ⟨i, hi⟩
      have hsq : R ⟨i, hi⟩ ⟨i, hi⟩ = S ⟨i, hi⟩ ⟨i, hi⟩ ∨ R ⟨i, hi⟩ ⟨i, hi⟩ = - S ⟨i, hi⟩ ⟨i, hi⟩ :=
        mul_self_eq_mul_self_iff.mp (key ⟨i, hi⟩)
      rcases hsq with e | e
      · refine ⟨1, Or.inl rfl, fun j => ?_⟩
        have := key j
        rw [e] at this
        rw [mul_left_cancel₀ hne this, one_mul]
      · refine ⟨-1, Or.inr rfl, fun j => ?_⟩
        have := key j
        rw [e] at this
        have h3 : S ⟨i, hi⟩ ⟨i, hi⟩ * (-R ⟨i, hi⟩ j) = S ⟨i, hi⟩ ⟨i, hi⟩ * S ⟨i, hi⟩ j := by linarith
        have := mul_left_cancel₀ hne h3
        linarith
  choose ε h1 h2 using key
  exact ⟨ε, h1, h2⟩

end Skill
