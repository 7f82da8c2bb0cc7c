import Verif.Lemmas.SigmaPoints
import Verif.Spec.Moments
import Verif.Spec.TransitionFunctions
/-
Quadratic functions of the latent factors, their expectations and their weighted sums over sigma points.
-/
namespace Skill
open Matrix MeasureTheory Spec
variable {n : ℕ}

/-- Sums of products of two affine functions. -/
inductive Quad : ((Fin n → ℝ) → ℝ) → Prop
  | prod (a b : Fin n → ℝ) (c d : ℝ) : Quad (fun x => (a ⬝ᵥ x + c) * (b ⬝ᵥ x + d))
  | add {f g} : Quad f → Quad g → Quad (fun x => f x + g x)

/-- Affine functions. -/
def Aff (f : (Fin n → ℝ) → ℝ) : Prop := ∃ a c, ∀ x, f x = a ⬝ᵥ x + c

theorem Aff.const (c : ℝ) : Aff (fun _ : Fin n → ℝ => c) := ⟨0, c, fun x => by simp⟩

theorem Aff.mul {f g : (Fin n → ℝ) → ℝ} (hf : Aff f) (hg : Aff g) : Quad (fun x => f x * g x) := by
  obtain ⟨a, c, hf⟩ := hf
  obtain ⟨b, d, hg⟩ := hg
  simp only [hf, hg]
  exact .prod a b c d

theorem Aff.quad {f : (Fin n → ℝ) → ℝ} (hf : Aff f) : Quad f := by
  have := hf.mul (Aff.const 1)
  simpa only [mul_one] using this

theorem Quad.smul {f : (Fin n → ℝ) → ℝ} (hf : Quad f) (r : ℝ) : Quad (fun x => r * f x) := by
  induction hf with
  | prod a b c d =>
    have : (fun x : Fin n → ℝ => r * ((a ⬝ᵥ x + c) * (b ⬝ᵥ x + d))) = fun x => ((r • a) ⬝ᵥ x + r * c) * (b ⬝ᵥ x + d) := by
      funext x
      rw [smul_dotProduct, smul_eq_mul]
      ring
    rw [this]
    exact .prod _ _ _ _
  | add _ _ h1 h2 =>
    simp only [mul_add]
    exact h1.add h2

theorem Quad.listSum {β : Type} (l : List β) {F : β → (Fin n → ℝ) → ℝ} (h : ∀ b ∈ l, Quad (F b)) : Quad (fun x => (l.map (fun b => F b x)).sum) := by
  induction l with
  | nil => simpa using (Aff.const (n := n) 0).quad
  | cons b l ih =>
    simp only [List.map_cons, List.sum_cons]
    exact (h b (by simp)).add (ih (fun b' hb => h b' (by simp [hb])))

theorem Quad.finSum {β : Type} (s : Finset β) {F : β → (Fin n → ℝ) → ℝ} (h : ∀ b ∈ s, Quad (F b)) : Quad (fun x => ∑ b ∈ s, F b x) := by
  classical
  induction s using Finset.induction_on with
  | empty => simpa using (Aff.const (n := n) 0).quad
  | insert b s hb ih =>
    simp only [Finset.sum_insert hb]
    exact (h b (by simp)).add (ih (fun b' hb => h b' (by simp [hb])))

/-- The transition functions that are quadratic. -/
theorem quad_nextValue {factors : List String} {X : (Fin n → ℝ) → String → ℝ} (hX : ∀ g ∈ factors, Aff (fun x => X x g)) (v : String → ℝ) {factor : String} (hfactor : factor ∈ factors) {name : String}
    (hname : name ∈ ["linear", "translog", "linear_and_squares", "constant"]) : Quad (fun x => nextValue factors (X x) v factor (.builtin name)) := by
  have h1 : Quad (fun x => linearTerms factors (X x) v) := Quad.listSum factors (fun g hg => ((hX g hg).quad).smul (v g))
  have h2 : Quad (fun x => squareTerms factors (X x) v) := by
    refine Quad.listSum factors (F := fun g x => v (g ++ " ** 2") * X x g ^ 2) (fun g hg => ?_)
    simp only [pow_two]
    exact ((hX g hg).mul (hX g hg)).smul _
  have h3 : Quad (fun x => interactionTerms factors (X x) v) := by
    refine Quad.finSum _ (fun i _ => Quad.finSum _ (fun j _ => ?_))
    by_cases h : i < j
    · simp only [if_pos h, mul_assoc]
      exact ((hX _ (List.get_mem _ _)).mul (hX _ (List.get_mem _ _))).smul _
    · simp only [if_neg h]
      exact (Aff.const 0).quad
  have h0 : Quad (fun _ : Fin n → ℝ => v "constant") := (Aff.const _).quad
  simp only [List.mem_cons, List.not_mem_nil, or_false] at hname
  rcases hname with rfl | rfl | rfl | rfl
  · exact h1.add h0
  · exact ((h1.add h2).add h3).add h0
  · exact (h1.add h2).add h0
  · exact (hX factor hfactor).quad

section
variable {nObs nMix : ℕ}

theorem integrable_coord {μ : Measure (Fin n → ℝ)} {m : Fin n → ℝ} {P : Matrix (Fin n) (Fin n) ℝ} (hμ : HasMoments μ m P) (a : Fin n → ℝ) : MemLp (fun x => a ⬝ᵥ (x - m)) 2 μ := by
  haveI := hμ.prob
  simp only [dotProduct]
  exact memLp_finsetSum _ (fun f _ => ((hμ.square f).sub (memLp_const (m f))).const_mul (a f))

/-- The weighted sum of a quadratic function over the sigma points is its expectation. -/
theorem Quad.exact {kappa : ℝ} (hk : 0 < n + kappa) {states : Fin nObs → Fin nMix → Fin n → ℝ} {chols : Fin nObs → Fin nMix → Matrix (Fin n) (Fin n) ℝ} {i : Fin nObs} {e : Fin nMix}
    {μ : Measure (Fin n → ℝ)} (hμ : HasMoments μ (states i e) ((chols i e)ᵀ * chols i e)) {f : (Fin n → ℝ) → ℝ} (hf : Quad f) :
    Integrable f μ ∧ ∑ s, sigmaWeights n kappa s * f (latentSigmaPoints states chols (sigmaScalingFactor n kappa) i e s) = ∫ x, f x ∂μ := by
  haveI := hμ.prob
  induction hf with
  | add _ _ h1 h2 =>
    refine ⟨h1.1.add h2.1, ?_⟩
    rw [integral_add h1.1 h2.1, ← h1.2, ← h2.2, ← Finset.sum_add_distrib]
    exact Finset.sum_congr rfl (fun s _ => by ring)
  | prod a b c d =>
    set m := states i e with hm
    have hexp : ∀ x : Fin n → ℝ, (a ⬝ᵥ x + c) * (b ⬝ᵥ x + d) = (a ⬝ᵥ (x - m)) * (b ⬝ᵥ (x - m)) + ((b ⬝ᵥ m + d) * (a ⬝ᵥ (x - m)) + (a ⬝ᵥ m + c) * (b ⬝ᵥ (x - m)) + (a ⬝ᵥ m + c) * (b ⬝ᵥ m + d)) := by
      intro x
      rw [dotProduct_sub, dotProduct_sub]
      ring
    have hlin : ∀ a : Fin n → ℝ, ∫ x, a ⬝ᵥ (x - m) ∂μ = 0 := by
      intro a
      have hi : ∀ f, Integrable (fun x : Fin n → ℝ => a f * (x f - m f)) μ := fun f => (((hμ.square f).sub (memLp_const (m f))).const_mul (a f)).integrable (by norm_num)
      simp only [dotProduct, Pi.sub_apply]
      rw [integral_finsetSum _ (fun f _ => hi f)]
      refine Finset.sum_eq_zero (fun f _ => ?_)
      rw [integral_const_mul, integral_sub ((hμ.square f).integrable (by norm_num)) (integrable_const _), hμ.mean, integral_const]
      simp
    have hcov : ∫ x, (a ⬝ᵥ (x - m)) * (b ⬝ᵥ (x - m)) ∂μ = a ⬝ᵥ (((chols i e)ᵀ * chols i e) *ᵥ b) := by
      have h2 : ∀ f g, Integrable (fun x : Fin n → ℝ => a f * b g * ((x f - m f) * (x g - m g))) μ := fun f g =>
        (MemLp.integrable_mul ((hμ.square f).sub (memLp_const (m f))) ((hμ.square g).sub (memLp_const (m g)))).const_mul _
      have : ∀ x : Fin n → ℝ, (a ⬝ᵥ (x - m)) * (b ⬝ᵥ (x - m)) = ∑ f, ∑ g, a f * b g * ((x f - m f) * (x g - m g)) := by
        intro x
        simp only [dotProduct, Finset.sum_mul_sum, Pi.sub_apply]
        exact Finset.sum_congr rfl (fun f _ => Finset.sum_congr rfl (fun g _ => by ring))
      simp only [this]
      rw [integral_finsetSum _ (fun f _ => integrable_finsetSum _ (fun g _ => h2 f g))]
      simp only [dotProduct, mulVec]
      refine Finset.sum_congr rfl (fun f _ => ?_)
      rw [integral_finsetSum _ (fun g _ => h2 f g), Finset.mul_sum]
      refine Finset.sum_congr rfl (fun g _ => ?_)
      rw [integral_const_mul, hμ.cov]
      ring
    have i1 : Integrable (fun x => (a ⬝ᵥ (x - m)) * (b ⬝ᵥ (x - m))) μ := MemLp.integrable_mul (integrable_coord hμ a) (integrable_coord hμ b)
    have i2 : Integrable (fun x => (b ⬝ᵥ m + d) * (a ⬝ᵥ (x - m))) μ := ((integrable_coord hμ a).integrable (by norm_num)).const_mul _
    have i3 : Integrable (fun x => (a ⬝ᵥ m + c) * (b ⬝ᵥ (x - m))) μ := ((integrable_coord hμ b).integrable (by norm_num)).const_mul _
    have i23 : Integrable (fun x => (b ⬝ᵥ m + d) * (a ⬝ᵥ (x - m)) + (a ⬝ᵥ m + c) * (b ⬝ᵥ (x - m))) μ := i2.add i3
    have i4 : Integrable (fun x => (b ⬝ᵥ m + d) * (a ⬝ᵥ (x - m)) + (a ⬝ᵥ m + c) * (b ⬝ᵥ (x - m)) + (a ⬝ᵥ m + c) * (b ⬝ᵥ m + d)) μ := i23.add (integrable_const _)
    refine ⟨(i1.add i4).congr (Filter.Eventually.of_forall (fun x => (hexp x).symm)), ?_⟩
    have hw := weights_sum (n := n) hk.ne'
    have w1 : ∀ a : Fin n → ℝ, ∑ s, sigmaWeights n kappa s * (a ⬝ᵥ (latentSigmaPoints states chols (sigmaScalingFactor n kappa) i e s - m)) = 0 := by
      intro a
      have := weighted_affine hk states chols (sigmaScalingFactor n kappa) i e a (-(a ⬝ᵥ m))
      rw [add_neg_cancel] at this
      rw [← this]
      exact Finset.sum_congr rfl (fun s _ => by rw [dotProduct_sub, sub_eq_add_neg])
    have w2 := weighted_cross hk states chols i e a b
    calc ∑ s, sigmaWeights n kappa s * ((a ⬝ᵥ latentSigmaPoints states chols (sigmaScalingFactor n kappa) i e s + c) * (b ⬝ᵥ latentSigmaPoints states chols (sigmaScalingFactor n kappa) i e s + d))
        = ∑ s, (sigmaWeights n kappa s * ((a ⬝ᵥ (latentSigmaPoints states chols (sigmaScalingFactor n kappa) i e s - m)) * (b ⬝ᵥ (latentSigmaPoints states chols (sigmaScalingFactor n kappa) i e s - m)))
            + ((b ⬝ᵥ m + d) * (sigmaWeights n kappa s * (a ⬝ᵥ (latentSigmaPoints states chols (sigmaScalingFactor n kappa) i e s - m)))
            + (a ⬝ᵥ m + c) * (sigmaWeights n kappa s * (b ⬝ᵥ (latentSigmaPoints states chols (sigmaScalingFactor n kappa) i e s - m)))
            + (a ⬝ᵥ m + c) * (b ⬝ᵥ m + d) * sigmaWeights n kappa s)) := Finset.sum_congr rfl (fun s _ => by rw [hexp]; ring)
      _ = a ⬝ᵥ (((chols i e)ᵀ * chols i e) *ᵥ b) + (a ⬝ᵥ m + c) * (b ⬝ᵥ m + d) := by
        rw [Finset.sum_add_distrib, Finset.sum_add_distrib, Finset.sum_add_distrib, ← Finset.mul_sum, ← Finset.mul_sum, ← Finset.mul_sum, hw, w1, w1, w2]
        ring
      _ = ∫ x, (a ⬝ᵥ x + c) * (b ⬝ᵥ x + d) ∂μ := by
        rw [integral_congr_ae (Filter.Eventually.of_forall hexp), integral_add i1 i4, integral_add i23 (integrable_const _), integral_add i2 i3, integral_const_mul, integral_const_mul, hlin, hlin, hcov, integral_const]
        simp

end
end Skill
