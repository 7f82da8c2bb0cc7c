import Verif.Lemmas.FilterLaw
/-
The density of the data and the filtered states are continuous in the data.
-/
namespace Skill
open Matrix MeasureTheory ProbabilityTheory Spec
variable {n : ℕ}

theorem continuous_normalDensity (s : ℝ) : Continuous (normalDensity s) := by
  unfold normalDensity
  rw [gaussianPDFReal_def]
  fun_prop

theorem continuous_updMean (s : Step n) (P : Matrix (Fin n) (Fin n) ℝ) : Continuous (fun p : (Fin n → ℝ) × ℝ => updMean s p.1 P p.2) := by
  unfold updMean
  split_ifs
  · unfold posteriorMean; fun_prop
  · exact continuous_fst

theorem continuous_updDensity (s : Step n) (P : Matrix (Fin n) (Fin n) ℝ) : Continuous (fun p : (Fin n → ℝ) × ℝ => updDensity s p.1 P p.2) := by
  unfold updDensity
  split_ifs
  · exact (continuous_normalDensity _).comp (by fun_prop)
  · exact continuous_const

theorem Spec.Step.Affine.continuous_stepMean {s : Step n} (h : s.Affine) : Continuous (stepMean s) := by
  unfold stepMean
  cases ht : s.transition with
  | none => exact continuous_id
  | some gq =>
    obtain ⟨B, d, hg⟩ := h gq.1 gq.2 ht
    dsimp only
    rw [hg]
    fun_prop

theorem continuous_kalmanDensity {steps : List (Step n)} (hs : ∀ s ∈ steps, s.Affine) : ∀ P : Matrix (Fin n) (Fin n) ℝ,
    Continuous (fun p : (Fin n → ℝ) × (Fin steps.length → ℝ) => kalmanDensity steps p.1 P p.2) := by
  induction steps with
  | nil => intro P; exact continuous_const
  | cons s ss ih =>
    intro P
    have h0 : Continuous (fun p : (Fin n → ℝ) × (Fin (ss.length + 1) → ℝ) => (p.1, p.2 0)) := by fun_prop
    have ih := ih (fun s' h => hs s' (List.mem_cons_of_mem _ h)) (stepCov s (updCov s P))
    refine ((continuous_updDensity s P).comp h0).mul (ih.comp (Continuous.prodMk ?_ ?_))
    · exact (hs s (by simp)).continuous_stepMean.comp ((continuous_updMean s P).comp h0)
    · exact continuous_pi (fun j => (continuous_apply j.succ).comp continuous_snd)

theorem continuous_filterMean {steps : List (Step n)} (hs : ∀ s ∈ steps, s.Affine) : ∀ P : Matrix (Fin n) (Fin n) ℝ,
    Continuous (fun p : (Fin n → ℝ) × (Fin steps.length → ℝ) => filterMean steps p.1 P p.2) := by
  induction steps with
  | nil => intro P; exact continuous_fst
  | cons s ss ih =>
    intro P
    have h0 : Continuous (fun p : (Fin n → ℝ) × (Fin (ss.length + 1) → ℝ) => (p.1, p.2 0)) := by fun_prop
    cases ss with
    | nil => exact (continuous_updMean s P).comp h0
    | cons s' ss =>
      have ih := ih (fun s' h => hs s' (List.mem_cons_of_mem _ h)) (stepCov s (updCov s P))
      refine ih.comp (Continuous.prodMk ?_ ?_)
      · exact (hs s (by simp)).continuous_stepMean.comp ((continuous_updMean s P).comp h0)
      · exact continuous_pi (fun j => (continuous_apply j.succ).comp continuous_snd)

end Skill
