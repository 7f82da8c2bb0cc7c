import Mathlib.Probability.CondVar
/-
The conditional expectation has the smallest mean squared error.
-/
namespace Skill
open MeasureTheory ProbabilityTheory

theorem lintegral_sq {Ω : Type} [MeasurableSpace Ω] {P : Measure Ω} {f : Ω → ℝ} (hf : MemLp f 2 P) : ∫⁻ ω, ENNReal.ofReal (f ω ^ 2) ∂P = ENNReal.ofReal (∫ ω, f ω ^ 2 ∂P) :=
  (ofReal_integral_eq_lintegral_ofReal hf.integrable_sq (Filter.Eventually.of_forall (fun _ => sq_nonneg _))).symm

theorem best_prediction {Ω β : Type} [MeasurableSpace Ω] [MeasurableSpace β] {P : Measure Ω} [IsProbabilityMeasure P] {X : Ω → ℝ} (hX : MemLp X 2 P) {D : Ω → β} (hD : Measurable D) {Y : Ω → ℝ}
    (hY : P[X | MeasurableSpace.comap D inferInstance] =ᵐ[P] Y) {g : β → ℝ} (hg : Measurable g) :
    ∫⁻ ω, ENNReal.ofReal ((X ω - Y ω) ^ 2) ∂P ≤ ∫⁻ ω, ENNReal.ofReal ((X ω - g (D ω)) ^ 2) ∂P := by
  have hle : MeasurableSpace.comap D inferInstance ≤ (inferInstance : MeasurableSpace Ω) := hD.comap_le
  by_cases htop : ∫⁻ ω, ENNReal.ofReal ((X ω - g (D ω)) ^ 2) ∂P = ⊤
  · rw [htop]; exact le_top
  have hgD : Measurable (fun ω => g (D ω)) := hg.comp hD
  have hXg : MemLp (fun ω => X ω - g (D ω)) 2 P := by
    have hm : AEStronglyMeasurable (fun ω => X ω - g (D ω)) P := hX.1.sub hgD.aestronglyMeasurable
    rw [memLp_two_iff_integrable_sq hm]
    refine ⟨hm.pow 2, ?_⟩
    rw [hasFiniteIntegral_iff_ofReal (Filter.Eventually.of_forall (fun _ => sq_nonneg _))]
    exact lt_top_iff_ne_top.mpr htop
  have hg2 : MemLp (fun ω => g (D ω)) 2 P := by
    have := hX.sub hXg
    simpa [Pi.sub_def] using this
  have hY2 : MemLp Y 2 P := (memLp_congr_ae hY).mp (hX.condExp one_le_two)
  have hXY : MemLp (fun ω => X ω - Y ω) 2 P := hX.sub hY2
  rw [lintegral_sq hXY, lintegral_sq hXg]
  refine ENNReal.ofReal_le_ofReal ?_
  have hgm : StronglyMeasurable[MeasurableSpace.comap D inferInstance] (fun ω => g (D ω)) := hg.stronglyMeasurable.comp_measurable (comap_measurable D)
  have hc : P[fun ω => X ω - g (D ω) | MeasurableSpace.comap D inferInstance] =ᵐ[P] fun ω => Y ω - g (D ω) := by
    have h1 := condExp_sub (hX.integrable one_le_two) (hg2.integrable one_le_two) (MeasurableSpace.comap D inferInstance)
    rw [condExp_of_stronglyMeasurable hle hgm (hg2.integrable one_le_two)] at h1
    refine (h1.trans ?_)
    filter_upwards [hY] with ω hω
    rw [Pi.sub_apply, hω]
  have hv := condVar_ae_le_condExp_sq hle hXg
  have hint := integral_mono_ae integrable_condVar integrable_condExp hv
  rw [integral_condExp hle] at hint
  unfold condVar at hint
  rw [integral_condExp hle] at hint
  refine le_trans (le_of_eq ?_) hint
  refine integral_congr_ae ?_
  filter_upwards [hc] with ω hω
  simp only [Pi.sub_apply, Pi.pow_apply, hω]
  ring

end Skill
