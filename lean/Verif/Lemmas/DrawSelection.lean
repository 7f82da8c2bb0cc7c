import Verif.Lemmas.Gauss
import Mathlib.Probability.Independence.Basic
import Mathlib.Data.Matrix.Block
/-
Selections and blockwise linear images of independent standard normal draws.
-/
namespace Skill
open Matrix MeasureTheory ProbabilityTheory Spec

/-- Finitely many different variables of an independent family of standard normal variables have the law `stdNormal`. -/
theorem map_select {Ω : Type} [MeasurableSpace Ω] {P : Measure Ω} [IsProbabilityMeasure P] {J ι : Type} [Fintype ι] {Z : J → Ω → ℝ} (hm : ∀ j, Measurable (Z j))
    (hn : ∀ j, P.map (Z j) = gaussianReal 0 1) (hi : iIndepFun Z P) {g : ι → J} (hg : Function.Injective g) :
    P.map (fun ω a => Z (g a) ω) = stdNormal ι := by
  have h := (iIndepFun_iff_map_fun_eq_pi_map (f := fun a => Z (g a)) (fun a => (hm (g a)).aemeasurable)).mp (hi.precomp hg)
  rw [h, stdNormal]
  congr 1
  funext a
  exact hn _

theorem stdNormal_select {J ι : Type} [Fintype J] [Fintype ι] {g : ι → J} (hg : Function.Injective g) :
    (stdNormal J).map (fun z a => z (g a)) = stdNormal ι := by
  refine map_select (P := stdNormal J) (Z := fun j z => z j) (fun j => measurable_pi_apply j) (fun j => ?_) ?_ hg
  · unfold stdNormal
    exact (measurePreserving_eval _ j).map_eq
  · unfold stdNormal
    exact iIndepFun_pi (X := fun _ => id) (fun _ => aemeasurable_id)

theorem measurable_flat (K n : ℕ) : Measurable (fun d : (Fin n → ℝ) × (Fin K → ℝ × (Fin n → ℝ)) =>
    (Sum.elim d.1 (Sum.elim (fun k => (d.2 k).1) (fun kf : Fin K × Fin n => (d.2 kf.1).2 kf.2)) : Fin n ⊕ Fin K ⊕ Fin K × Fin n → ℝ)) := by
  rw [measurable_pi_iff]
  rintro (f | k | ⟨k, f⟩)
  · exact (measurable_pi_apply f).comp measurable_fst
  · exact measurable_fst.comp ((measurable_pi_apply k).comp measurable_snd)
  · exact (measurable_pi_apply f).comp (measurable_snd.comp ((measurable_pi_apply k).comp measurable_snd))

/-- All draws of the data generating process as one vector. -/
theorem map_draws_flat (K n : ℕ) :
    ((stdNormal (Fin n)).prod (stdDraws K n)).map (fun d => (Sum.elim d.1 (Sum.elim (fun k => (d.2 k).1) (fun kf : Fin K × Fin n => (d.2 kf.1).2 kf.2)) : Fin n ⊕ Fin K ⊕ Fin K × Fin n → ℝ)) =
      stdNormal (Fin n ⊕ Fin K ⊕ Fin K × Fin n) := by
  have hmeas : Measurable (fun d : (Fin n → ℝ) × (Fin K → ℝ × (Fin n → ℝ)) =>
      (Sum.elim d.1 (Sum.elim (fun k => (d.2 k).1) (fun kf : Fin K × Fin n => (d.2 kf.1).2 kf.2)) : Fin n ⊕ Fin K ⊕ Fin K × Fin n → ℝ)) := by
    rw [measurable_pi_iff]
    rintro (f | k | ⟨k, f⟩)
    · exact (measurable_pi_apply f).comp measurable_fst
    · exact measurable_fst.comp ((measurable_pi_apply k).comp measurable_snd)
    · exact (measurable_pi_apply f).comp (measurable_snd.comp ((measurable_pi_apply k).comp measurable_snd))
  unfold stdNormal stdDraws
  refine (Measure.pi_eq (fun s hs => ?_)).symm
  rw [Measure.map_apply hmeas (MeasurableSet.univ_pi hs)]
  have hset : (fun d : (Fin n → ℝ) × (Fin K → ℝ × (Fin n → ℝ)) =>
      (Sum.elim d.1 (Sum.elim (fun k => (d.2 k).1) (fun kf : Fin K × Fin n => (d.2 kf.1).2 kf.2)) : Fin n ⊕ Fin K ⊕ Fin K × Fin n → ℝ)) ⁻¹' (Set.univ.pi s) =
      (Set.univ.pi (fun f => s (Sum.inl f))) ×ˢ (Set.univ.pi (fun k => s (Sum.inr (Sum.inl k)) ×ˢ (Set.univ.pi (fun f => s (Sum.inr (Sum.inr (k, f))))))) := by
    ext ⟨a, b⟩
    simp only [Set.mem_preimage, Set.mem_pi, Set.mem_univ, true_implies, Set.mem_prod]
    constructor
    · intro h
      exact ⟨fun f => h (Sum.inl f), fun k => ⟨h (Sum.inr (Sum.inl k)), fun f => h (Sum.inr (Sum.inr (k, f)))⟩⟩
    · rintro ⟨h1, h2⟩ (f | k | ⟨k, f⟩)
      · exact h1 f
      · exact (h2 k).1
      · exact (h2 k).2 f
  rw [hset, Measure.prod_prod, Measure.pi_pi, Measure.pi_pi, Fintype.prod_sum_type, Fintype.prod_sum_type, Fintype.prod_prod_type, ← Finset.prod_mul_distrib]
  congr 1
  refine Finset.prod_congr rfl (fun k _ => ?_)
  rw [Measure.prod_prod, stdNormal, Measure.pi_pi]

/-- A selection of different draws of the data generating process. -/
theorem map_draws_select {K n : ℕ} {ι : Type} [Fintype ι] {g : ι → Fin n ⊕ Fin K ⊕ Fin K × Fin n} (hg : Function.Injective g) :
    ((stdNormal (Fin n)).prod (stdDraws K n)).map (fun d a => (Sum.elim d.1 (Sum.elim (fun k => (d.2 k).1) (fun kf : Fin K × Fin n => (d.2 kf.1).2 kf.2)) : Fin n ⊕ Fin K ⊕ Fin K × Fin n → ℝ) (g a)) =
      stdNormal ι := by
  rw [← stdNormal_select hg, ← map_draws_flat, Measure.map_map]
  · rfl
  · exact measurable_pi_iff.mpr (fun a => measurable_pi_apply (g a))
  · rw [measurable_pi_iff]
    rintro (f | k | ⟨k, f⟩)
    · exact (measurable_pi_apply f).comp measurable_fst
    · exact measurable_fst.comp ((measurable_pi_apply k).comp measurable_snd)
    · exact (measurable_pi_apply f).comp (measurable_snd.comp ((measurable_pi_apply k).comp measurable_snd))

/-- Multiply each block of a vector by its matrix. -/
noncomputable def blockMul {B : Type} {size : B → ℕ} (M : (b : B) → Matrix (Fin (size b)) (Fin (size b)) ℝ) (z : (Σ b, Fin (size b)) → ℝ) : (Σ b, Fin (size b)) → ℝ :=
  fun a => (M a.1 *ᵥ fun j => z ⟨a.1, j⟩) a.2

theorem measurable_blockMul {B : Type} {size : B → ℕ} (M : (b : B) → Matrix (Fin (size b)) (Fin (size b)) ℝ) : Measurable (blockMul M) := by
  rw [measurable_pi_iff]
  rintro ⟨b, j⟩
  simp only [blockMul, mulVec, dotProduct]
  exact Finset.measurable_fun_sum _ (fun k _ => (measurable_pi_apply _).const_mul _)

/-- Blockwise linear images have the same law if the blocks have the same covariance matrices. -/
theorem map_blocks_eq {B : Type} [Fintype B] [DecidableEq B] {size : B → ℕ} (M N : (b : B) → Matrix (Fin (size b)) (Fin (size b)) ℝ) (h : ∀ b, M b * (M b)ᵀ = N b * (N b)ᵀ) :
    (stdNormal (Σ b, Fin (size b))).map (blockMul M) = (stdNormal (Σ b, Fin (size b))).map (blockMul N) := by
  have key : ∀ (M : (b : B) → Matrix (Fin (size b)) (Fin (size b)) ℝ), blockMul M =
      fun z => ((blockDiagonal' M)ᵀ)ᵀ *ᵥ z := by
    intro M
    funext z ⟨b, j⟩
    rw [transpose_transpose]
    simp only [blockMul, mulVec, dotProduct]
    rw [← Finset.univ_sigma_univ, Finset.sum_sigma, Finset.sum_eq_single b]
    · simp
    · intro b' _ hb
      exact Finset.sum_eq_zero (fun j' _ => by rw [blockDiagonal'_apply_ne _ _ _ (Ne.symm hb), zero_mul])
    · simp
  rw [key, key]
  refine map_stdNormal_eq _ _ ?_
  rw [transpose_transpose, transpose_transpose, blockDiagonal'_transpose, blockDiagonal'_transpose, ← blockDiagonal'_mul, ← blockDiagonal'_mul]
  congr 1
  funext b
  exact h b

end Skill
