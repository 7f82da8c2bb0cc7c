import Mathlib.Data.Matrix.Mul
import Mathlib.Data.Real.Basic
import Mathlib.Algebra.Order.BigOperators.Ring.Finset
import Mathlib.Tactic.Linarith
import Mathlib.Tactic.FieldSimp

/-! Parameters of a linear factor model are determined by means and covariances of the measurements (for C119). -/

namespace Skill
open Matrix

variable {n : ℕ}

/-- Lower triangular matrices with a positive diagonal are determined by their products with their transposes. -/
theorem triangular_unique {L L' : Matrix (Fin n) (Fin n) ℝ} (hL : ∀ i j, i < j → L i j = 0) (hL' : ∀ i j, i < j → L' i j = 0) (hpos : ∀ i, 0 < L i i) (hpos' : ∀ i, 0 ≤ L' i i) (h : L * Lᵀ = L' * L'ᵀ) : L = L' := by
  have key : ∀ (k : ℕ) (j : Fin n), j.val = k → ∀ i, L i j = L' i j := by
    intro k
    induction k using Nat.strong_induction_on with
    | _ k ih =>
      intro j hj
      have hsum : ∀ i, j ≤ i → L i j * L j j = L' i j * L' j j := by
        intro i _
        have hij := congrFun (congrFun h i) j
        simp only [mul_apply, transpose_apply] at hij
        rw [← Finset.add_sum_erase _ _ (Finset.mem_univ j), ← Finset.add_sum_erase _ _ (Finset.mem_univ j)] at hij
        have : ∑ x ∈ Finset.univ.erase j, L i x * L j x = ∑ x ∈ Finset.univ.erase j, L' i x * L' j x := by
          refine Finset.sum_congr rfl (fun x hx => ?_)
          rcases lt_or_gt_of_ne (Finset.ne_of_mem_erase hx) with hlt | hlt
          · rw [ih x.val (by rw [← hj]; exact hlt) x rfl i, ih x.val (by rw [← hj]; exact hlt) x rfl j]
          · rw [hL j x hlt, hL' j x hlt, mul_zero, mul_zero]
        rw [this] at hij
        linarith
      have hjj : L j j = L' j j := by
        have := hsum j le_rfl
        nlinarith [hpos j, hpos' j, sq_nonneg (L j j - L' j j), mul_self_eq_mul_self_iff.mp this, (mul_self_eq_mul_self_iff.mp this).elim id (fun h => by linarith [hpos j, hpos' j])]
      intro i
      rcases lt_or_ge i j with hlt | hge
      · rw [hL i j hlt, hL' i j hlt]
      · have := hsum i hge
        rw [← hjj] at this
        exact mul_right_cancel₀ (ne_of_gt (hpos j)) this
  funext i j
  exact key j.val j rfl i

/-- Every linear combination with weights that are not all zero has a positive variance. -/
def Spread (S : Matrix (Fin n) (Fin n) ℝ) : Prop := ∀ w : Fin n → ℝ, w ≠ 0 → 0 < w ⬝ᵥ S *ᵥ w

theorem quad_gram (L : Matrix (Fin n) (Fin n) ℝ) (w : Fin n → ℝ) : w ⬝ᵥ (L * Lᵀ) *ᵥ w = ∑ i, (Lᵀ *ᵥ w) i ^ 2 := by
  rw [← mulVec_mulVec, dotProduct_mulVec, ← mulVec_transpose]
  exact Finset.sum_congr rfl (fun i _ => (sq _).symm)

theorem spread_start {L : Matrix (Fin n) (Fin n) ℝ} (hL : ∀ i j, i < j → L i j = 0) (hd : ∀ i, L i i ≠ 0) : Spread (L * Lᵀ) := by
  intro w hw
  rw [quad_gram]
  refine lt_of_le_of_ne (Finset.sum_nonneg (fun i _ => sq_nonneg _)) (fun h0 => hw ?_)
  have hz : ∀ i, (Lᵀ *ᵥ w) i = 0 := fun i => by
    have := (Finset.sum_eq_zero_iff_of_nonneg (fun i _ => sq_nonneg ((Lᵀ *ᵥ w) i))).mp h0.symm i (Finset.mem_univ i)
    exact pow_eq_zero_iff (two_ne_zero) |>.mp this
  have key : ∀ (k : ℕ) (j : Fin n), n - 1 - j.val = k → w j = 0 := by
    intro k
    induction k using Nat.strong_induction_on with
    | _ k ih =>
      intro j hj
      have := hz j
      rw [mulVec, dotProduct, ← Finset.add_sum_erase _ _ (Finset.mem_univ j), Finset.sum_eq_zero, add_zero, transpose_apply] at this
      · exact (mul_eq_zero.mp this).resolve_left (hd j)
      · intro x hx
        rw [transpose_apply]
        rcases lt_or_gt_of_ne (Finset.ne_of_mem_erase hx) with hlt | hlt
        · rw [hL x j hlt, zero_mul]
        · rw [ih (n - 1 - x.val) (by have := x.isLt; have : j.val < x.val := hlt; omega) x rfl, mul_zero]
  funext j
  exact key _ j rfl

theorem quad_step (A S : Matrix (Fin n) (Fin n) ℝ) (q : Fin n → ℝ) (w : Fin n → ℝ) :
    w ⬝ᵥ (A * S * Aᵀ + Matrix.diagonal (fun i => q i ^ 2)) *ᵥ w = (Aᵀ *ᵥ w) ⬝ᵥ S *ᵥ (Aᵀ *ᵥ w) + ∑ i, (q i * w i) ^ 2 := by
  rw [add_mulVec, dotProduct_add, ← mulVec_mulVec, ← mulVec_mulVec, dotProduct_mulVec w A, ← mulVec_transpose]
  congr 1
  refine Finset.sum_congr rfl (fun i _ => ?_)
  rw [mulVec_diagonal]
  ring

theorem spread_step {A S : Matrix (Fin n) (Fin n) ℝ} {q : Fin n → ℝ} (hS : Spread S) (h : ∀ i, q i ≠ 0 ∨ A i = Pi.single i 1) : Spread (A * S * Aᵀ + Matrix.diagonal (fun i => q i ^ 2)) := by
  intro w hw
  rw [quad_step]
  have hnn : 0 ≤ ∑ i, (q i * w i) ^ 2 := Finset.sum_nonneg (fun i _ => sq_nonneg _)
  by_cases hA : Aᵀ *ᵥ w = 0
  · rw [hA, zero_dotProduct, zero_add]
    refine lt_of_le_of_ne hnn (fun h0 => hw ?_)
    have hz : ∀ i, q i ≠ 0 → w i = 0 := fun i hi => by
      have := (Finset.sum_eq_zero_iff_of_nonneg (fun i _ => sq_nonneg (q i * w i))).mp h0.symm i (Finset.mem_univ i)
      exact (mul_eq_zero.mp (pow_eq_zero_iff (two_ne_zero) |>.mp this)).resolve_left hi
    funext j
    by_cases hj : q j ≠ 0
    · exact hz j hj
    · have := congrFun hA j
      rw [mulVec, dotProduct, Finset.sum_eq_single j] at this
      · rw [transpose_apply, (h j).resolve_left hj, Pi.single_eq_same, one_mul] at this
        exact this
      · intro x _ hx
        rw [transpose_apply]
        rcases h x with hq | hA'
        · rw [hz x hq, mul_zero]
        · rw [hA', Pi.single_eq_of_ne (Ne.symm hx), zero_mul]
      · simp
  · have := hS _ hA
    linarith

theorem Spread.injective {S : Matrix (Fin n) (Fin n) ℝ} (hS : Spread S) {w : Fin n → ℝ} (h : S *ᵥ w = 0) : w = 0 := by
  by_contra hw
  have := hS w hw
  rw [h, dotProduct_zero] at this
  exact lt_irrefl _ this

theorem Spread.diag {S : Matrix (Fin n) (Fin n) ℝ} (hS : Spread S) (i : Fin n) : S i i ≠ 0 := by
  have := hS (Pi.single i 1) (fun h => one_ne_zero (α := ℝ) (by simpa using congrFun h i))
  rw [single_one_dotProduct, mulVec_single_one] at this
  exact ne_of_gt this

theorem single_quad (S : Matrix (Fin n) (Fin n) ℝ) (i j : Fin n) (a b : ℝ) : (Pi.single i a : Fin n → ℝ) ⬝ᵥ S *ᵥ (Pi.single j b) = a * S i j * b := by
  rw [single_dotProduct, mulVec_single]
  simp [mul_assoc]

/-- Measurement equations of one period: the loadings of each measurement, the standard deviation of its error and its intercept. -/
structure Equations (n : ℕ) where
  h : String → Fin n → ℝ
  s : String → ℝ
  b : String → ℝ

/-- The covariance of two measurements, if the factors have the covariance matrix `S`. -/
noncomputable def Equations.cov (e : Equations n) (S : Matrix (Fin n) (Fin n) ℝ) (v w : String) : ℝ := e.h v ⬝ᵥ S *ᵥ e.h w + if v = w then e.s v ^ 2 else 0

/-- Three measurements of each factor, the first one has the loading and intercept `norm`. -/
structure Dedicated (e : Equations n) (measured : String → Prop) (v1 v2 v3 : Fin n → String) (norm l2 l3 : Fin n → ℝ) : Prop where
  measured : ∀ i, measured (v1 i) ∧ measured (v2 i) ∧ measured (v3 i)
  distinct : ∀ i, v1 i ≠ v2 i ∧ v1 i ≠ v3 i ∧ v2 i ≠ v3 i
  h1 : ∀ i, e.h (v1 i) = Pi.single i (norm i)
  h2 : ∀ i, e.h (v2 i) = Pi.single i (l2 i)
  h3 : ∀ i, e.h (v3 i) = Pi.single i (l3 i)
  norm : ∀ i, norm i ≠ 0

section
variable {e e' : Equations n} {S S' : Matrix (Fin n) (Fin n) ℝ} {measured : String → Prop} {v1 v2 v3 : Fin n → String} {norm l2 l3 l2' l3' : Fin n → ℝ}

theorem Dedicated.first_ne (hd : Dedicated e measured v1 v2 v3 norm l2 l3) {i j : Fin n} (hij : i ≠ j) : v1 i ≠ v1 j := by
  intro h
  have h1 := congrFun ((hd.h1 i).symm.trans ((congrArg e.h h).trans (hd.h1 j))) i
  rw [Pi.single_eq_same, Pi.single_eq_of_ne hij] at h1
  exact hd.norm i h1

/-- The covariance matrix of the factors. -/
theorem covariance_identified (hd : Dedicated e measured v1 v2 v3 norm l2 l3) (hd' : Dedicated e' measured v1 v2 v3 norm l2' l3') (hS : Spread S) (hl2 : ∀ i, l2 i ≠ 0) (hl3 : ∀ i, l3 i ≠ 0)
    (hcov : ∀ v w, measured v → measured w → e.cov S v w = e'.cov S' v w) : S = S' := by
  funext i j
  by_cases hij : i = j
  · subst hij
    obtain ⟨hm1, hm2, hm3⟩ := hd.measured i
    obtain ⟨d12, d13, d23⟩ := hd.distinct i
    have h12 := hcov _ _ hm1 hm2
    have h13 := hcov _ _ hm1 hm3
    have h23 := hcov _ _ hm2 hm3
    unfold Equations.cov at h12 h13 h23
    rw [if_neg d12, if_neg d12, hd.h1, hd.h2, hd'.h1, hd'.h2, single_quad, single_quad, add_zero, add_zero] at h12
    rw [if_neg d13, if_neg d13, hd.h1, hd.h3, hd'.h1, hd'.h3, single_quad, single_quad, add_zero, add_zero] at h13
    rw [if_neg d23, if_neg d23, hd.h2, hd.h3, hd'.h2, hd'.h3, single_quad, single_quad, add_zero, add_zero] at h23
    have a2 : S i i * l2 i = S' i i * l2' i := mul_left_cancel₀ (hd.norm i) (by linarith)
    have a3 : S i i * l3 i = S' i i * l3' i := mul_left_cancel₀ (hd.norm i) (by linarith)
    have hne : l2 i * S i i * l3 i ≠ 0 := mul_ne_zero (mul_ne_zero (hl2 i) (hS.diag i)) (hl3 i)
    refine mul_left_cancel₀ hne ?_
    calc l2 i * S i i * l3 i * S i i = (S i i * l2 i) * (S i i * l3 i) := by ring
      _ = (S' i i * l2' i) * (S' i i * l3' i) := by rw [a2, a3]
      _ = (l2' i * S' i i * l3' i) * S' i i := by ring
      _ = l2 i * S i i * l3 i * S' i i := by rw [h23]
  · have h := hcov _ _ (hd.measured i).1 (hd.measured j).1
    unfold Equations.cov at h
    rw [if_neg (hd.first_ne hij), if_neg (hd.first_ne hij), hd.h1, hd.h1, hd'.h1, hd'.h1, single_quad, single_quad, add_zero, add_zero] at h
    exact mul_left_cancel₀ (hd.norm i) (mul_right_cancel₀ (hd.norm j) h)

/-- The loadings. -/
theorem loadings_identified (hd : Dedicated e measured v1 v2 v3 norm l2 l3) (hd' : Dedicated e' measured v1 v2 v3 norm l2' l3') (hS : Spread S)
    (hsymm : Sᵀ = S) (hcov : ∀ v w, measured v → measured w → e.cov S v w = e'.cov S v w) {v : String} (hv : measured v) : e.h v = e'.h v := by
  by_cases hex : ∃ j, v = v1 j
  · obtain ⟨j, rfl⟩ := hex
    rw [hd.h1, hd'.h1]
  · have hz : S *ᵥ (e.h v - e'.h v) = 0 := by
      funext j
      have h := hcov _ _ hv (hd.measured j).1
      unfold Equations.cov at h
      rw [if_neg (fun h => hex ⟨j, h⟩), if_neg (fun h => hex ⟨j, h⟩), hd.h1, hd'.h1, add_zero, add_zero, mulVec_single] at h
      have h2 : (e.h v ⬝ᵥ S.col j) * norm j = (e'.h v ⬝ᵥ S.col j) * norm j := by
        simpa [dotProduct_smul, mul_comm] using h
      have h3 := mul_right_cancel₀ (hd.norm j) h2
      rw [mulVec, sub_eq_add_neg, dotProduct_add, dotProduct_neg, Pi.zero_apply]
      have hc : S.col j = S j := by
        funext i
        exact congrFun (congrFun hsymm j) i
      rw [← hc, dotProduct_comm, h3, dotProduct_comm]
      ring
    exact sub_eq_zero.mp (hS.injective hz)

end

/-- A linear state space model. -/
structure System (n : ℕ) where
  mu : Fin n → ℝ
  L : Matrix (Fin n) (Fin n) ℝ
  A : ℕ → Matrix (Fin n) (Fin n) ℝ
  c : ℕ → Fin n → ℝ
  q : ℕ → Fin n → ℝ
  eq : ℕ → Equations n

noncomputable def System.mean (y : System n) : ℕ → Fin n → ℝ
  | 0 => y.mu
  | t + 1 => y.c t + y.A t *ᵥ y.mean t

noncomputable def System.covs (y : System n) : ℕ → Matrix (Fin n) (Fin n) ℝ
  | 0 => y.L * y.Lᵀ
  | t + 1 => y.A t * y.covs t * (y.A t)ᵀ + Matrix.diagonal (fun i => y.q t i ^ 2)

theorem System.covs_symm (y : System n) (t : ℕ) : (y.covs t)ᵀ = y.covs t := by
  induction t with
  | zero => simp [System.covs]
  | succ t ih => simp [System.covs, ih, Matrix.mul_assoc]

/-- Two systems with the same means and covariances of measurements in the same period and in successive periods. -/
structure SameMoments (T : ℕ) (measured : ℕ → String → Prop) (y y' : System n) : Prop where
  mean : ∀ t < T, ∀ v, measured t v → (y.eq t).b v + (y.eq t).h v ⬝ᵥ y.mean t = (y'.eq t).b v + (y'.eq t).h v ⬝ᵥ y'.mean t
  cov : ∀ t < T, ∀ v w, measured t v → measured t w → (y.eq t).cov (y.covs t) v w = (y'.eq t).cov (y'.covs t) v w
  cross : ∀ t, t + 1 < T → ∀ v w, measured t v → measured (t + 1) w →
    (y.eq t).h v ⬝ᵥ (y.covs t * (y.A t)ᵀ) *ᵥ (y.eq (t + 1)).h w = (y'.eq t).h v ⬝ᵥ (y'.covs t * (y'.A t)ᵀ) *ᵥ (y'.eq (t + 1)).h w

section
variable {T : ℕ} {measured : ℕ → String → Prop} {y y' : System n} {v1 v2 v3 : ℕ → Fin n → String} {norm l2 l3 l2' l3' : ℕ → Fin n → ℝ}

theorem System.spread (htri : ∀ i j, i < j → y.L i j = 0) (hdiag : ∀ i, y.L i i ≠ 0) (hq : ∀ t, t + 1 < T → ∀ i, y.q t i ≠ 0 ∨ y.A t i = Pi.single i 1) : ∀ t < T, Spread (y.covs t) := by
  intro t
  induction t with
  | zero => exact fun _ => spread_start htri hdiag
  | succ t ih => exact fun h => spread_step (ih (by omega)) (hq t h)

/-- The parameters of a system are determined by the means and covariances of the measurements. -/
theorem system_identified (hd : ∀ t < T, Dedicated (y.eq t) (measured t) (v1 t) (v2 t) (v3 t) (norm t) (l2 t) (l3 t)) (hd' : ∀ t < T, Dedicated (y'.eq t) (measured t) (v1 t) (v2 t) (v3 t) (norm t) (l2' t) (l3' t))
    (hl2 : ∀ t < T, ∀ i, l2 t i ≠ 0) (hl3 : ∀ t < T, ∀ i, l3 t i ≠ 0) (hb : ∀ t < T, ∀ i, (y.eq t).b (v1 t i) = (y'.eq t).b (v1 t i))
    (htri : ∀ i j, i < j → y.L i j = 0) (htri' : ∀ i j, i < j → y'.L i j = 0) (hdiag : ∀ i, 0 < y.L i i) (hdiag' : ∀ i, 0 ≤ y'.L i i) (hq : ∀ t, t + 1 < T → ∀ i, y.q t i ≠ 0 ∨ y.A t i = Pi.single i 1)
    (hT : 0 < T) (h : SameMoments T measured y y') :
    (∀ t < T, ∀ v, measured t v → (y.eq t).h v = (y'.eq t).h v ∧ (y.eq t).s v ^ 2 = (y'.eq t).s v ^ 2 ∧ (y.eq t).b v = (y'.eq t).b v) ∧
      y.mu = y'.mu ∧ y.L = y'.L ∧ ∀ t, t + 1 < T → y.A t = y'.A t ∧ y.c t = y'.c t ∧ ∀ i, y.q t i ^ 2 = y'.q t i ^ 2 := by
  have hspread := System.spread htri (fun i => ne_of_gt (hdiag i)) hq
  have hcovs : ∀ t < T, y.covs t = y'.covs t := fun t ht => covariance_identified (hd t ht) (hd' t ht) (hspread t ht) (hl2 t ht) (hl3 t ht) (h.cov t ht)
  have hload : ∀ t < T, ∀ v, measured t v → (y.eq t).h v = (y'.eq t).h v := fun t ht v hv =>
    loadings_identified (hd t ht) (hd' t ht) (hspread t ht) (y.covs_symm t) (fun v w hv hw => by rw [h.cov t ht v w hv hw, hcovs t ht]) hv
  have hmean : ∀ t < T, y.mean t = y'.mean t := fun t ht => by
    funext i
    have := h.mean t ht _ ((hd t ht).measured i).1
    rw [hb t ht, (hd t ht).h1, (hd' t ht).h1, single_dotProduct, single_dotProduct] at this
    exact mul_left_cancel₀ ((hd t ht).norm i) (add_left_cancel this)
  refine ⟨fun t ht v hv => ⟨hload t ht v hv, ?_, ?_⟩, hmean 0 hT, triangular_unique htri htri' hdiag hdiag' (hcovs 0 hT), fun t ht => ?_⟩
  · have := h.cov t ht v v hv hv
    unfold Equations.cov at this
    rw [if_pos rfl, if_pos rfl, hload t ht v hv, hcovs t ht] at this
    exact add_left_cancel this
  · have := h.mean t ht v hv
    rw [hload t ht v hv, hmean t ht] at this
    exact add_right_cancel this
  · have ht' : t < T := by omega
    have hA : y.A t = y'.A t := by
      have hz : ∀ j, y.covs t *ᵥ (y.A t j - y'.A t j) = 0 := fun j => by
        funext i
        have := h.cross t ht _ _ ((hd t ht').measured i).1 ((hd (t + 1) ht).measured j).1
        rw [(hd t ht').h1, (hd' t ht').h1, (hd (t + 1) ht).h1, (hd' (t + 1) ht).h1, single_quad, single_quad] at this
        have := mul_left_cancel₀ ((hd t ht').norm i) (mul_right_cancel₀ ((hd (t + 1) ht).norm j) this)
        rw [mul_apply', mul_apply', ← hcovs t ht'] at this
        rw [mulVec, sub_eq_add_neg, dotProduct_add, dotProduct_neg, Pi.zero_apply]
        have h1 : ∀ B : Matrix (Fin n) (Fin n) ℝ, (fun k => Bᵀ k j) = B j := fun B => rfl
        rw [h1, h1] at this
        linarith
      funext j
      exact sub_eq_zero.mp ((hspread t ht').injective (hz j))
    have hc : y.c t = y'.c t := by
      have := hmean (t + 1) ht
      simp only [System.mean] at this
      rw [hA, hmean t ht'] at this
      exact add_right_cancel this
    refine ⟨hA, hc, fun i => ?_⟩
    have := hcovs (t + 1) ht
    simp only [System.covs] at this
    rw [hA, hcovs t ht'] at this
    have := congrFun (congrFun this i) i
    rw [Matrix.add_apply, Matrix.add_apply, diagonal_apply_eq, diagonal_apply_eq] at this
    exact add_left_cancel this

end

end Skill
