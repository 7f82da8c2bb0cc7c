import Verif.Lemmas.DataMoments
import Mathlib.Analysis.SpecialFunctions.Gaussian.GaussianIntegral

/-! The measurements of an individual in a linear model have tails like a normal distribution. -/

namespace Skill
open MeasureTheory ProbabilityTheory Spec
open scoped ENNReal

variable {Ω : Type} [MeasurableSpace Ω] {P : Measure Ω}

/-- The exponential of a multiple of the square has a mean. -/
def LightTail (P : Measure Ω) (f : Ω → ℝ) : Prop := Measurable f ∧ ∃ s : ℝ, 0 < s ∧ ∫⁻ ω, ENNReal.ofReal (Real.exp (s * f ω ^ 2)) ∂P ≠ ∞

theorem LightTail.smaller {f : Ω → ℝ} (h : LightTail P f) : ∃ s : ℝ, 0 < s ∧ ∀ r ≤ s, ∫⁻ ω, ENNReal.ofReal (Real.exp (r * f ω ^ 2)) ∂P ≠ ∞ := by
  obtain ⟨_, s, hs, h⟩ := h
  refine ⟨s, hs, fun r hr => ne_top_of_le_ne_top h (lintegral_mono (fun ω => ENNReal.ofReal_le_ofReal (Real.exp_le_exp.mpr ?_)))⟩
  exact mul_le_mul_of_nonneg_right hr (sq_nonneg _)

theorem LightTail.of_le {f g : Ω → ℝ} (h : LightTail P f) (hg : Measurable g) (hle : ∀ ω, |g ω| ≤ |f ω|) : LightTail P g := by
  obtain ⟨_, s, hs, h⟩ := h
  refine ⟨hg, s, hs, ne_top_of_le_ne_top h (lintegral_mono (fun ω => ENNReal.ofReal_le_ofReal (Real.exp_le_exp.mpr ?_)))⟩
  exact mul_le_mul_of_nonneg_left (sq_le_sq.mpr (hle ω)) hs.le

theorem lightTail_plus {f g : Ω → ℝ} (hf : LightTail P f) (hg : LightTail P g) : LightTail P (fun ω => f ω + g ω) := by
  obtain ⟨s1, hs1, h1⟩ := hf.smaller
  obtain ⟨s2, hs2, h2⟩ := hg.smaller
  refine ⟨hf.1.add hg.1, min s1 s2 / 4, by positivity, ?_⟩
  have hm : Measurable (fun ω => ENNReal.ofReal (Real.exp (min s1 s2 * f ω ^ 2))) := ENNReal.measurable_ofReal.comp (Real.measurable_exp.comp ((hf.1.pow_const 2).const_mul _))
  refine ne_top_of_le_ne_top (ENNReal.add_ne_top.mpr ⟨h1 _ (min_le_left s1 s2), h2 _ (min_le_right s1 s2)⟩) ?_
  rw [← lintegral_add_left hm]
  refine lintegral_mono (fun ω => ?_)
  dsimp only
  rw [← ENNReal.ofReal_add (Real.exp_pos _).le (Real.exp_pos _).le]
  refine ENNReal.ofReal_le_ofReal ?_
  have hmin : 0 < min s1 s2 := lt_min hs1 hs2
  have hsq : (f ω + g ω) ^ 2 ≤ 4 * max (f ω ^ 2) (g ω ^ 2) := by
    have := le_max_left (f ω ^ 2) (g ω ^ 2)
    have := le_max_right (f ω ^ 2) (g ω ^ 2)
    nlinarith [sq_nonneg (f ω - g ω)]
  have : Real.exp (min s1 s2 / 4 * (f ω + g ω) ^ 2) ≤ Real.exp (min s1 s2 * max (f ω ^ 2) (g ω ^ 2)) := Real.exp_le_exp.mpr (by nlinarith)
  refine this.trans ?_
  rcases max_choice (f ω ^ 2) (g ω ^ 2) with h | h <;> rw [h]
  · exact le_add_of_nonneg_right (Real.exp_pos _).le
  · exact le_add_of_nonneg_left (Real.exp_pos _).le

theorem lightTail_times {f : Ω → ℝ} (c : ℝ) (hf : LightTail P f) : LightTail P (fun ω => c * f ω) := by
  obtain ⟨hm, s, hs, h⟩ := hf
  refine ⟨hm.const_mul c, s / (c ^ 2 + 1), by positivity, ne_top_of_le_ne_top h (lintegral_mono (fun ω => ENNReal.ofReal_le_ofReal (Real.exp_le_exp.mpr ?_)))⟩
  dsimp only
  rw [mul_pow, div_mul_eq_mul_div, div_le_iff₀ (by positivity)]
  nlinarith [mul_nonneg hs.le (sq_nonneg (f ω))]

theorem lightTail_const [IsFiniteMeasure P] (c : ℝ) : LightTail P (fun _ => c) := by
  refine ⟨measurable_const, 1, one_pos, ?_⟩
  rw [lintegral_const]
  exact ENNReal.mul_ne_top ENNReal.ofReal_ne_top (measure_ne_top P _)

theorem lightTail_list [IsFiniteMeasure P] {α : Type} (l : List α) {f : α → Ω → ℝ} (h : ∀ a ∈ l, LightTail P (f a)) : LightTail P (fun ω => (l.map (fun a => f a ω)).sum) := by
  induction l with
  | nil => exact lightTail_const 0
  | cons a l ih =>
    simp only [List.map_cons, List.sum_cons]
    exact lightTail_plus (h a (by simp)) (ih (fun b hb => h b (by simp [hb])))

theorem lightTail_sum [IsFiniteMeasure P] {α : Type} (s : Finset α) {f : α → Ω → ℝ} (h : ∀ a ∈ s, LightTail P (f a)) : LightTail P (fun ω => ∑ a ∈ s, f a ω) := by
  classical
  induction s using Finset.induction_on with
  | empty => exact lightTail_const 0
  | insert a s ha ih =>
    simp only [Finset.sum_insert ha]
    exact lightTail_plus (h a (by simp)) (ih (fun b hb => h b (by simp [hb])))

variable [IsProbabilityMeasure P] {val : Loc → ℝ} {k : ℕ} {E : Ω → Fin k} {Z : Noise → Ω → ℝ}

omit [IsProbabilityMeasure P] in
theorem lightTail_noise (hZ : RandomNoise P val E Z) (j : Noise) : LightTail P (Z j) := by
  refine ⟨hZ.measurable j, 1 / 4, by norm_num, ?_⟩
  have hm : Measurable (fun z : ℝ => ENNReal.ofReal (Real.exp (1 / 4 * z ^ 2))) := ENNReal.measurable_ofReal.comp (Real.measurable_exp.comp ((measurable_id.pow_const 2).const_mul _))
  rw [← lintegral_map (f := fun z : ℝ => ENNReal.ofReal (Real.exp (1 / 4 * z ^ 2))) hm (hZ.measurable j), hZ.normal j, gaussianReal_of_var_ne_zero 0 one_ne_zero,
    lintegral_withDensity_eq_lintegral_mul _ (measurable_gaussianPDF 0 1) hm]
  have e : ∀ z : ℝ, (gaussianPDF 0 1 * fun z : ℝ => ENNReal.ofReal (Real.exp (1 / 4 * z ^ 2))) z = ENNReal.ofReal ((√(2 * Real.pi))⁻¹ * Real.exp (-(1 / 4) * z ^ 2)) := by
    intro z
    rw [Pi.mul_apply, gaussianPDF, gaussianPDFReal, ← ENNReal.ofReal_mul (by positivity), mul_assoc, ← Real.exp_add]
    congr 2
    · simp
    · congr 1
      simp
      ring
  rw [lintegral_congr e]
  exact ((integrable_exp_neg_mul_sq (b := 1 / 4) (by norm_num)).const_mul _).lintegral_lt_top.ne

theorem lightTail_states (hZ : RandomNoise P val E Z) (m : ModelDict ℝ) (v : Loc → ℝ) (cov : Covariates) (e : ℕ) : ∀ (t : ℕ) (f : String), LightTail P (fun ω => latentStates m v cov e (fun j => Z j ω) t f)
  | 0, f => lightTail_plus (lightTail_const _) (lightTail_list _ (fun g _ => lightTail_times _ (lightTail_noise hZ (.start g))))
  | t + 1, f => by
    have ih := lightTail_states hZ m v cov e t
    have hs : ∀ g, LightTail P (fun ω => if g ∈ latents m then anchoredValue m v t g (latentStates m v cov e (fun j => Z j ω) t g) else cov.factor t g) := by
      intro g
      split_ifs
      · exact lightTail_plus (lightTail_const _) (lightTail_times _ (ih g))
      · exact lightTail_const _
    have hn : LightTail P (fun ω => nextAnchored m v t (fun g => if g ∈ latents m then anchoredValue m v t g (latentStates m v cov e (fun j => Z j ω) t g) else cov.factor t g) f) := by
      unfold nextAnchored
      split_ifs
      · exact hs f
      · unfold linearValue
        exact lightTail_plus (lightTail_list _ (fun g _ => lightTail_times _ (hs g))) (lightTail_const _)
    have hd : LightTail P (fun ω => nextState m v cov t (latentStates m v cov e (fun j => Z j ω) t) f) := by
      have h := lightTail_times (anchorScale m v (t + 1) f)⁻¹ (lightTail_plus hn (lightTail_const (-anchorConstant m v (t + 1) f)))
      refine (congrArg (LightTail P) (funext (fun ω => ?_))).mp h
      unfold nextState
      rw [div_eq_inv_mul, sub_eq_add_neg]
    exact lightTail_plus hd (lightTail_times _ (lightTail_noise hZ (.shock t f)))

theorem lightTail_measurement (hZ : RandomNoise P val E Z) (m : ModelDict ℝ) (v : Loc → ℝ) (cov : Covariates) (e : ℕ) (t : ℕ) (name : String) : LightTail P (fun ω => measurementValue m v cov e (fun j => Z j ω) t name) := by
  unfold measurementValue
  refine lightTail_plus (lightTail_plus (lightTail_const _) (lightTail_list _ (fun f _ => ?_))) (lightTail_times _ (lightTail_noise hZ (.error t name)))
  split_ifs
  · exact lightTail_times _ (lightTail_states hZ m v cov e t f)
  · exact lightTail_const _

omit [IsProbabilityMeasure P] in
theorem lightTail_abs {f : Ω → ℝ} (h : LightTail P f) : LightTail P (fun ω => |f ω|) := h.of_le (h.1.abs) (fun ω => by rw [abs_abs])

theorem lightTail_observed (hZ : RandomNoise P val E Z) (m : ModelDict ℝ) (v : Loc → ℝ) (cov : Covariates) (updates : List (Nat × String)) (j : Fin updates.length) :
    LightTail P (fun ω => observedData updates cov (measurementValue m v cov (E ω) (fun j => Z j ω)) j) := by
  unfold observedData
  split_ifs
  · refine (lightTail_sum Finset.univ (fun e _ => lightTail_abs (lightTail_measurement hZ m v cov (e : Fin k) (updates.get j).1 (updates.get j).2))).of_le ?_ (fun ω => ?_)
    · exact (measurable_from_prod_countable_right (f := fun d : Fin k × (Noise → ℝ) => measurementValue m v cov d.1 d.2 (updates.get j).1 (updates.get j).2) (fun e => measurable_measurement m v cov e _ _)).comp
        (hZ.measurable_element.prodMk (measurable_pi_iff.mpr hZ.measurable))
    · refine le_trans ?_ (le_abs_self _)
      exact Finset.single_le_sum (f := fun e : Fin k => |measurementValue m v cov e (fun j => Z j ω) (updates.get j).1 (updates.get j).2|) (fun _ _ => abs_nonneg _) (Finset.mem_univ (E ω))
  · exact lightTail_const _

/-- The data of an individual have light tails. -/
theorem lightTail_norm (hZ : RandomNoise P val E Z) (m : ModelDict ℝ) (v : Loc → ℝ) (cov : Covariates) (updates : List (Nat × String)) :
    LightTail P (fun ω => ‖observedData updates cov (measurementValue m v cov (E ω) (fun j => Z j ω))‖) := by
  refine (lightTail_sum Finset.univ (fun j _ => lightTail_abs (lightTail_observed hZ m v cov updates j))).of_le ?_ (fun ω => ?_)
  · exact (measurable_pi_iff.mpr (fun j => (lightTail_observed hZ m v cov updates j).1)).norm
  · rw [abs_norm]
    refine le_trans ?_ (le_abs_self _)
    refine (pi_norm_le_iff_of_nonneg (Finset.sum_nonneg (fun _ _ => abs_nonneg _))).mpr (fun j => ?_)
    rw [Real.norm_eq_abs]
    exact Finset.single_le_sum (f := fun j => |observedData updates cov (measurementValue m v cov (E ω) (fun j => Z j ω)) j|) (fun _ _ => abs_nonneg _) (Finset.mem_univ j)

end Skill
