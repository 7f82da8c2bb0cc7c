import Verif.Props.TransitionFunctions
import Mathlib.Analysis.MeanInequalitiesPow
import Mathlib.Analysis.SpecialFunctions.Log.Deriv
import Mathlib.Analysis.SpecialFunctions.ExpDeriv
import Mathlib.Analysis.Convex.SpecificFunctions.Basic
/- C144: the parameter phi of log_ces. -/
namespace Skill
open Filter Topology

variable {n : ℕ} {x gamma : Fin n → ℝ}

/-- The weighted sum in log_ces. -/
noncomputable def cesSum (x gamma : Fin n → ℝ) (phi : ℝ) : ℝ := ∑ i, gamma i * Real.exp (x i * phi)

theorem logCes_ofFn (hg : ∀ i, 0 ≤ gamma i) (phi : ℝ) : logCes (List.ofFn x) (List.ofFn gamma ++ [phi]) = .ok (Real.log (cesSum x gamma phi) * (1 / phi)) := by
  have hsum : (List.zipWith expLogWeight (List.ofFn gamma) ((List.ofFn x).map (fun y => y * phi))).sum = cesSum x gamma phi := by
    have : List.zipWith expLogWeight (List.ofFn gamma) ((List.ofFn x).map (fun y => y * phi)) = List.ofFn (fun i => gamma i * Real.exp (x i * phi)) := by
      refine List.ext_getElem (by simp) (fun i h1 h2 => ?_)
      simp only [List.getElem_zipWith, List.getElem_ofFn, List.getElem_map]
      unfold expLogWeight
      split_ifs with h0
      · rw [h0, zero_mul]
      · rw [Real.exp_add, Real.exp_log (lt_of_le_of_ne (hg _) (Ne.symm h0))]
    rw [this, List.sum_ofFn, cesSum]
  unfold logCes
  rw [lastParam_append, List.dropLast_concat]
  show (weightedLogsumexp (List.ofFn gamma) ((List.ofFn x).map (fun y => y * phi)) >>= fun u => pure (u * (1 / phi))) = _
  unfold weightedLogsumexp
  rw [if_pos (by simp), hsum]
  rfl

theorem cesSum_pos (hg : ∀ i, 0 ≤ gamma i) (h1 : ∑ i, gamma i = 1) (phi : ℝ) : 0 < cesSum x gamma phi := by
  obtain ⟨i, _, hi⟩ : ∃ i ∈ Finset.univ, 0 < gamma i := by
    by_contra hcon
    push Not at hcon
    have : ∑ i, gamma i = 0 := Finset.sum_eq_zero (fun i hi => le_antisymm (hcon i hi) (hg i))
    rw [this] at h1
    norm_num at h1
  exact Finset.sum_pos' (fun j _ => mul_nonneg (hg j) (Real.exp_pos _).le) ⟨i, Finset.mem_univ _, mul_pos hi (Real.exp_pos _)⟩

/-- Jensen's inequality -/
theorem cesSum_mean (hg : ∀ i, 0 ≤ gamma i) (h1 : ∑ i, gamma i = 1) (phi : ℝ) : phi * ∑ i, gamma i * x i ≤ Real.log (cesSum x gamma phi) := by
  rw [Real.le_log_iff_exp_le (cesSum_pos hg h1 phi)]
  have := convexOn_exp.map_sum_le (t := Finset.univ) (w := gamma) (p := fun i => x i * phi) (fun i _ => hg i) h1 (fun i _ => Set.mem_univ _)
  simp only [smul_eq_mul] at this
  refine le_trans (le_of_eq ?_) this
  rw [Finset.mul_sum]
  congr 1
  exact Finset.sum_congr rfl (fun i _ => by ring)

theorem cesSum_power (hg : ∀ i, 0 ≤ gamma i) (h1 : ∑ i, gamma i = 1) {phi phi' : ℝ} (h0 : 0 < phi) (hle : phi ≤ phi') :
    Real.log (cesSum x gamma phi) * (1 / phi) ≤ Real.log (cesSum x gamma phi') * (1 / phi') := by
  have h0' : 0 < phi' := lt_of_lt_of_le h0 hle
  have hp := Real.rpow_arith_mean_le_arith_mean_rpow Finset.univ gamma (fun i => Real.exp (x i * phi)) (fun i _ => hg i) h1 (fun i _ => (Real.exp_pos _).le) (p := phi' / phi) ((one_le_div h0).mpr hle)
  have he : ∀ i, Real.exp (x i * phi) ^ (phi' / phi) = Real.exp (x i * phi') := fun i => by
    rw [← Real.exp_mul]
    congr 1
    field_simp
  simp only [he] at hp
  have hp : cesSum x gamma phi ^ (phi' / phi) ≤ cesSum x gamma phi' := hp
  have hl := Real.log_le_log (Real.rpow_pos_of_pos (cesSum_pos hg h1 phi) _) hp
  rw [Real.log_rpow (cesSum_pos hg h1 phi)] at hl
  rw [mul_one_div, mul_one_div, div_le_div_iff₀ h0 h0']
  have := mul_le_mul_of_nonneg_left hl h0.le
  have e : phi * (phi' / phi * Real.log (cesSum x gamma phi)) = Real.log (cesSum x gamma phi) * phi' := by field_simp
  rw [e] at this
  linarith

/-- Reflection -/
theorem cesSum_neg (phi : ℝ) : cesSum (fun i => -x i) gamma phi = cesSum x gamma (-phi) := by
  unfold cesSum
  exact Finset.sum_congr rfl (fun i _ => by rw [neg_mul_comm])

theorem cesSum_monotone (hg : ∀ i, 0 ≤ gamma i) (h1 : ∑ i, gamma i = 1) {phi phi' : ℝ} (h0 : phi ≠ 0) (h0' : phi' ≠ 0) (hle : phi ≤ phi') :
    Real.log (cesSum x gamma phi) * (1 / phi) ≤ Real.log (cesSum x gamma phi') * (1 / phi') := by
  rcases lt_or_gt_of_ne h0 with hn | hp
  · rcases lt_or_gt_of_ne h0' with hn' | hp'
    · have := cesSum_power (x := fun i => -x i) hg h1 (phi := -phi') (phi' := -phi) (by linarith) (by linarith)
      rw [cesSum_neg, cesSum_neg, neg_neg, neg_neg, one_div, one_div, inv_neg, inv_neg] at this
      rw [one_div, one_div]
      linarith
    · have k1 := cesSum_mean (x := x) hg h1 phi
      have k2 := cesSum_mean (x := x) hg h1 phi'
      have e1 : Real.log (cesSum x gamma phi) * (1 / phi) ≤ ∑ i, gamma i * x i := by
        rw [mul_one_div, div_le_iff_of_neg hn]
        linarith
      refine e1.trans ?_
      rw [mul_one_div, le_div_iff₀ hp']
      linarith
  · exact cesSum_power hg h1 hp hle

theorem cesSum_limit (hg : ∀ i, 0 ≤ gamma i) (h1 : ∑ i, gamma i = 1) : Tendsto (fun phi => Real.log (cesSum x gamma phi) * (1 / phi)) (𝓝[≠] 0) (𝓝 (∑ i, gamma i * x i)) := by
  have hd : HasDerivAt (fun phi => Real.log (cesSum x gamma phi)) (∑ i, gamma i * x i) 0 := by
    have hs : HasDerivAt (cesSum x gamma) (∑ i, gamma i * x i) 0 := by
      have : HasDerivAt (fun phi => ∑ i, gamma i * Real.exp (x i * phi)) (∑ i, gamma i * (Real.exp (x i * 0) * (x i * 1))) 0 :=
        HasDerivAt.fun_sum (fun i _ => (((hasDerivAt_id (0 : ℝ)).const_mul (x i)).exp).const_mul (gamma i))
      have e : ∑ i, gamma i * (Real.exp (x i * 0) * (x i * 1)) = ∑ i, gamma i * x i := Finset.sum_congr rfl (fun i _ => by rw [mul_zero, Real.exp_zero, one_mul, mul_one])
      rw [e] at this
      exact this
    have hz : cesSum x gamma 0 = 1 := by simp [cesSum, h1]
    have := hs.log (by rw [hz]; norm_num)
    rwa [hz, div_one] at this
  have := hd.tendsto_slope_zero
  refine this.congr (fun phi => ?_)
  have hz : cesSum x gamma 0 = 1 := by simp [cesSum, h1]
  rw [zero_add, hz, Real.log_one, sub_zero, smul_eq_mul, one_div, mul_comm]

theorem cesSum_max (hg : ∀ i, 0 ≤ gamma i) (h1 : ∑ i, gamma i = 1) {M : ℝ} (hM : IsGreatest {y | ∃ i, 0 < gamma i ∧ x i = y} M) :
    Tendsto (fun phi => Real.log (cesSum x gamma phi) * (1 / phi)) atTop (𝓝 M) := by
  obtain ⟨⟨k, hk, hkM⟩, hmax⟩ := hM
  have hlow : Tendsto (fun phi : ℝ => M + Real.log (gamma k) * (1 / phi)) atTop (𝓝 M) := by
    have : Tendsto (fun phi : ℝ => M + Real.log (gamma k) * phi⁻¹) atTop (𝓝 (M + Real.log (gamma k) * 0)) := tendsto_const_nhds.add (tendsto_const_nhds.mul tendsto_inv_atTop_zero)
    simpa [one_div] using this
  refine tendsto_of_tendsto_of_tendsto_of_le_of_le' hlow tendsto_const_nhds ?_ ?_
  · filter_upwards [eventually_gt_atTop 0] with phi hphi
    have hle : gamma k * Real.exp (x k * phi) ≤ cesSum x gamma phi := Finset.single_le_sum (f := fun i => gamma i * Real.exp (x i * phi)) (fun i _ => mul_nonneg (hg i) (Real.exp_pos _).le) (Finset.mem_univ k)
    have hl := Real.log_le_log (mul_pos hk (Real.exp_pos _)) hle
    rw [Real.log_mul hk.ne' (Real.exp_pos _).ne', Real.log_exp, hkM] at hl
    have := mul_le_mul_of_nonneg_right hl (one_div_pos.mpr hphi).le
    have e : (Real.log (gamma k) + M * phi) * (1 / phi) = M + Real.log (gamma k) * (1 / phi) := by field_simp; ring
    rwa [e] at this
  · filter_upwards [eventually_gt_atTop 0] with phi hphi
    have hle : cesSum x gamma phi ≤ Real.exp (M * phi) := by
      have : cesSum x gamma phi ≤ ∑ i, gamma i * Real.exp (M * phi) := by
        refine Finset.sum_le_sum (fun i _ => ?_)
        rcases (hg i).eq_or_lt with h | h
        · rw [← h, zero_mul, zero_mul]
        · exact mul_le_mul_of_nonneg_left (Real.exp_le_exp.mpr (mul_le_mul_of_nonneg_right (hmax ⟨i, h, rfl⟩) hphi.le)) h.le
      rwa [← Finset.sum_mul, h1, one_mul] at this
    have hl := Real.log_le_log (cesSum_pos hg h1 phi) hle
    rw [Real.log_exp] at hl
    rw [mul_one_div, div_le_iff₀ hphi]
    exact hl

theorem cesSum_min (hg : ∀ i, 0 ≤ gamma i) (h1 : ∑ i, gamma i = 1) {M : ℝ} (hM : IsLeast {y | ∃ i, 0 < gamma i ∧ x i = y} M) :
    Tendsto (fun phi => Real.log (cesSum x gamma phi) * (1 / phi)) atBot (𝓝 M) := by
  have hM' : IsGreatest {y | ∃ i, 0 < gamma i ∧ -x i = y} (-M) := by
    obtain ⟨⟨k, hk, hkM⟩, hmin⟩ := hM
    refine ⟨⟨k, hk, by rw [hkM]⟩, ?_⟩
    rintro y ⟨i, hi, rfl⟩
    exact neg_le_neg (hmin ⟨i, hi, rfl⟩)
  have := ((cesSum_max (x := fun i => -x i) hg h1 hM').comp tendsto_neg_atBot_atTop).neg
  rw [neg_neg] at this
  refine this.congr (fun phi => ?_)
  show -(Real.log (cesSum (fun i => -x i) gamma (-phi)) * (1 / -phi)) = _
  rw [cesSum_neg, neg_neg, one_div, one_div, inv_neg]
  ring

/-- **C144**: the parameter phi of log_ces. The weights are not negative and have the sum one. Then log_ces is an increasing function of phi (the larger phi, the better substitutes are the factors). For phi close to 0 it
approaches the linear function with the same weights and without constant; for large phi the largest factor with a positive weight, and for small phi the smallest factor with a positive weight. -/
theorem C144_phi (hg : ∀ i, 0 ≤ gamma i) (h1 : ∑ i, gamma i = 1) : ∃ ces : ℝ → ℝ, (∀ phi, phi ≠ 0 → logCes (List.ofFn x) (List.ofFn gamma ++ [phi]) = .ok (ces phi)) ∧
    (∀ phi phi', phi ≠ 0 → phi' ≠ 0 → phi ≤ phi' → ces phi ≤ ces phi') ∧
    (∀ y, linear (List.ofFn x) (List.ofFn gamma ++ [0]) = .ok y → Tendsto ces (𝓝[≠] 0) (𝓝 y)) ∧ (∃ y, linear (List.ofFn x) (List.ofFn gamma ++ [0]) = .ok y) ∧
    (∀ M, IsGreatest {y | ∃ i, 0 < gamma i ∧ x i = y} M → Tendsto ces atTop (𝓝 M)) ∧
    ∀ M, IsLeast {y | ∃ i, 0 < gamma i ∧ x i = y} M → Tendsto ces atBot (𝓝 M) := by
  have hlin : linear (List.ofFn x) (List.ofFn gamma ++ [0]) = .ok (∑ i, gamma i * x i) := by
    unfold linear
    rw [lastParam_append, List.dropLast_concat]
    show (jnpDot (List.ofFn x) (List.ofFn gamma) >>= fun d => pure (d + 0)) = _
    unfold jnpDot
    rw [if_pos (by simp)]
    have : List.zipWith (· * ·) (List.ofFn x) (List.ofFn gamma) = List.ofFn (fun i => gamma i * x i) := by
      refine List.ext_getElem (by simp) (fun i h1 h2 => ?_)
      simp only [List.getElem_zipWith, List.getElem_ofFn]
      ring
    rw [this, List.sum_ofFn]
    show Except.ok _ = _
    rw [add_zero]
  refine ⟨_, fun phi _ => logCes_ofFn hg phi, fun phi phi' h0 h0' hle => cesSum_monotone hg h1 h0 h0' hle, fun y hy => ?_, ⟨_, hlin⟩, fun M hM => cesSum_max hg h1 hM, fun M hM => cesSum_min hg h1 hM⟩
  rw [← Except.ok.inj (hlin.symm.trans hy)]
  exact cesSum_limit hg h1

namespace Ex

/-- C144 is not vacuous: two factors with equal weights and a third factor with weight zero. The limits are the mean, the maximum and the minimum of the first two factors. -/
theorem C144_example : ∃ ces : ℝ → ℝ, (∀ phi, phi ≠ 0 → logCes [1, 5, 7] [1 / 2, 1 / 2, 0, phi] = .ok (ces phi)) ∧ ces (-1) ≤ ces 2 ∧ Tendsto ces (𝓝[≠] 0) (𝓝 3) ∧ Tendsto ces atTop (𝓝 5) ∧ Tendsto ces atBot (𝓝 1) := by
  have hg : ∀ i, 0 ≤ (![1 / 2, 1 / 2, 0] : Fin 3 → ℝ) i := by intro i; fin_cases i <;> simp
  have h1 : ∑ i, (![1 / 2, 1 / 2, 0] : Fin 3 → ℝ) i = 1 := by simp [Fin.sum_univ_three]; norm_num
  obtain ⟨ces, hces, hmono, hlim, _, hmax, hmin⟩ := C144_phi (x := ![1, 5, 7]) hg h1
  refine ⟨ces, fun phi h0 => by have := hces phi h0; simpa using this, hmono _ _ (by norm_num) (by norm_num) (by norm_num), hlim 3 ?_, hmax 5 ⟨⟨1, by norm_num, rfl⟩, ?_⟩, hmin 1 ⟨⟨0, by norm_num, rfl⟩, ?_⟩⟩
  · simp only [linear, lastParam, jnpDot]
    norm_num
    show Except.ok ((3 : ℝ) + 0) = _
    rw [add_zero]
  · rintro y ⟨i, hi, rfl⟩
    fin_cases i
    · norm_num
    · norm_num
    · simp at hi
  · rintro y ⟨i, hi, rfl⟩
    fin_cases i
    · norm_num
    · norm_num
    · simp at hi

end Ex
end Skill
