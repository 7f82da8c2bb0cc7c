import Verif.Lemmas.CondExp
import Verif.Spec.Moments
import Mathlib.Probability.Independence.Integration
/-
Mean and covariance matrix of normal distributions.
-/
namespace Skill
open Matrix MeasureTheory ProbabilityTheory Spec
variable {n : ℕ}

theorem stdNormal_square (k : Fin n) : MemLp (fun z : Fin n → ℝ => z k) 2 (stdNormal (Fin n)) := by
  have hmp : MeasurePreserving (fun z : Fin n → ℝ => z k) (stdNormal (Fin n)) (gaussianReal 0 1) := measurePreserving_eval _ k
  exact (memLp_id_gaussianReal 2).comp_measurePreserving hmp

theorem stdNormal_cov (k l : Fin n) : ∫ z, z k * z l ∂stdNormal (Fin n) = if k = l then 1 else 0 := by
  have hmp : ∀ k, MeasurePreserving (fun z : Fin n → ℝ => z k) (stdNormal (Fin n)) (gaussianReal 0 1) := fun k => measurePreserving_eval _ k
  have hmean : ∀ k, ∫ z, z k ∂stdNormal (Fin n) = 0 := fun k => by
    have := (integrable_stdNormal (Pi.single k (1 : ℝ))).2
    simpa only [single_one_dotProduct] using this
  split_ifs with h
  · subst h
    have h1 : ∫ z, z k * z k ∂stdNormal (Fin n) = ∫ x, x * x ∂gaussianReal 0 1 := by
      rw [← (hmp k).map_eq, integral_map (measurable_pi_apply k).aemeasurable]
      exact (measurable_id.mul measurable_id).aestronglyMeasurable
    have h2 := variance_of_integral_eq_zero (X := fun x : ℝ => x) (μ := gaussianReal 0 1) aemeasurable_id (by simp)
    rw [variance_fun_id_gaussianReal] at h2
    rw [h1]
    simp only [← pow_two]
    exact h2.symm
  · have hi : iIndepFun (fun (j : Fin n) (d : Fin n → ℝ) => d j) (stdNormal (Fin n)) := iIndepFun_pi (X := fun _ => id) (fun _ => aemeasurable_id)
    rw [(hi.indepFun h).integral_fun_mul_eq_mul_integral (measurable_pi_apply k).aestronglyMeasurable (measurable_pi_apply l).aestronglyMeasurable, hmean, zero_mul]

/-- The distribution of m + Uᵀz for independent standard normal z has mean m and covariance matrix UᵀU. -/
theorem normal_hasMoments (m : Fin n → ℝ) (U : Matrix (Fin n) (Fin n) ℝ) : HasMoments ((stdNormal (Fin n)).map (fun z => m + Uᵀ *ᵥ z)) m (Uᵀ * U) := by
  have hc : Continuous (fun z : Fin n → ℝ => m + Uᵀ *ᵥ z) := by fun_prop
  have hT := hc.measurable
  have hcoord : ∀ (z : Fin n → ℝ) f, (m + Uᵀ *ᵥ z) f = m f + (fun k => U k f) ⬝ᵥ z := fun z f => rfl
  have hL : ∀ f, MemLp (fun z : Fin n → ℝ => (fun k => U k f) ⬝ᵥ z) 2 (stdNormal (Fin n)) := fun f => by
    simp only [dotProduct]
    exact memLp_finsetSum _ (fun k _ => (stdNormal_square k).const_mul _)
  refine ⟨Measure.isProbabilityMeasure_map hT.aemeasurable, fun f => ?_, fun f => ?_, fun f g => ?_⟩
  · rw [memLp_map_measure_iff (measurable_pi_apply f).aestronglyMeasurable hT.aemeasurable]
    have e : ((fun x : Fin n → ℝ => x f) ∘ fun z : Fin n → ℝ => m + Uᵀ *ᵥ z) = (fun _ : Fin n → ℝ => m f) + fun z : Fin n → ℝ => (fun k => U k f) ⬝ᵥ z := funext fun z => hcoord z f
    rw [e]
    have h1 : MemLp (fun _ : Fin n → ℝ => m f) 2 (stdNormal (Fin n)) := memLp_const _
    exact h1.add (hL f)
  · rw [integral_map hT.aemeasurable (measurable_pi_apply f).aestronglyMeasurable]
    simp only [hcoord]
    rw [integral_add (integrable_const _) (integrable_stdNormal _).1, (integrable_stdNormal _).2]
    simp
  · have hm : Measurable (fun x : Fin n → ℝ => (x f - m f) * (x g - m g)) := ((measurable_pi_apply f).sub_const _).mul ((measurable_pi_apply g).sub_const _)
    rw [integral_map hT.aemeasurable hm.aestronglyMeasurable]
    simp only [hcoord, add_sub_cancel_left, dotProduct, Finset.sum_mul_sum]
    have hi : ∀ k l, Integrable (fun z : Fin n → ℝ => U k f * z k * (U l g * z l)) (stdNormal (Fin n)) := fun k l =>
      MemLp.integrable_mul ((stdNormal_square k).const_mul (U k f)) ((stdNormal_square l).const_mul (U l g))
    rw [integral_finsetSum _ (fun k _ => integrable_finsetSum _ (fun l _ => hi k l)), mul_apply]
    refine Finset.sum_congr rfl (fun k _ => ?_)
    rw [integral_finsetSum _ (fun l _ => hi k l)]
    have : ∀ l, ∫ z, U k f * z k * (U l g * z l) ∂stdNormal (Fin n) = if k = l then U k f * U l g else 0 := fun l => by
      have : (fun z : Fin n → ℝ => U k f * z k * (U l g * z l)) = fun z => U k f * U l g * (z k * z l) := funext fun z => by ring
      rw [this, integral_const_mul, stdNormal_cov]
      simp
    simp only [this, Finset.sum_ite_eq, Finset.mem_univ, if_true, transpose_apply]

end Skill
