import Verif.Lemmas.Gauss
import Mathlib.MeasureTheory.Function.ConditionalExpectation.Basic
import Mathlib.MeasureTheory.Integral.Prod
/-
Conditional expectation of a variable whose joint distribution with the data is a mixture of normal distributions around a function of the data.
-/
namespace Skill
open Matrix MeasureTheory ProbabilityTheory Spec

theorem integrable_stdNormal {n : ℕ} (L : Fin n → ℝ) : Integrable (fun z : Fin n → ℝ => L ⬝ᵥ z) (stdNormal (Fin n)) ∧ ∫ z, L ⬝ᵥ z ∂stdNormal (Fin n) = 0 := by
  have hmp : ∀ k, MeasurePreserving (fun z : Fin n → ℝ => z k) (stdNormal (Fin n)) (gaussianReal 0 1) := fun k => measurePreserving_eval _ k
  have h1 : ∀ k, Integrable (fun z : Fin n → ℝ => L k * z k) (stdNormal (Fin n)) := fun k => by
    refine Integrable.const_mul ?_ _
    have hi : Integrable (fun x : ℝ => x) (gaussianReal 0 1) := (memLp_id_gaussianReal 1).integrable le_rfl
    exact (hmp k).integrable_comp_of_integrable hi
  refine ⟨?_, ?_⟩
  · simp only [dotProduct]
    exact integrable_finsetSum _ (fun k _ => h1 k)
  · simp only [dotProduct]
    rw [integral_finsetSum _ (fun k _ => h1 k)]
    refine Finset.sum_eq_zero (fun k _ => ?_)
    rw [integral_const_mul]
    have : ∫ z, z k ∂stdNormal (Fin n) = ∫ x, x ∂gaussianReal 0 1 := by
      rw [← (hmp k).map_eq, integral_map (measurable_pi_apply k).aemeasurable]
      exact aestronglyMeasurable_id
    rw [this, integral_id_gaussianReal, mul_zero]

variable {Ω : Type} [mΩ : MeasurableSpace Ω] {P : Measure Ω} [IsProbabilityMeasure P] {Y : Type} [MeasurableSpace Y] {n : ℕ} {ι : Type} [Fintype ι]

/-- The conditional expectation of `X` given `D`. -/
theorem condExp_mixture {D : Ω → Y} {X : Ω → ℝ} (hD : Measurable D) (hX : Measurable X) (hXi : Integrable X P) {w : ι → ℝ} (hw : ∀ e, 0 ≤ w e) {base : Measure Y} [SigmaFinite base]
    {dens : ι → Y → ℝ} (hdm : ∀ e, Measurable (dens e)) (hd0 : ∀ e y, 0 ≤ dens e y) (hpos : ∀ y, 0 < ∑ e, w e * dens e y) {mean : ι → Y → ℝ} (hmm : ∀ e, Measurable (mean e)) {L : ι → Fin n → ℝ}
    (hlaw : ∀ F : Y × ℝ → ENNReal, Measurable F → ∫⁻ ω, F (D ω, X ω) ∂P = ∑ e, ENNReal.ofReal (w e) * ∫⁻ y, ENNReal.ofReal (dens e y) * ∫⁻ z, F (y, mean e y + L e ⬝ᵥ z) ∂stdNormal (Fin n) ∂base) :
    P[X | MeasurableSpace.comap D inferInstance] =ᵐ[P] fun ω => (∑ e, w e * dens e (D ω) * mean e (D ω)) / ∑ e, w e * dens e (D ω) := by
  set ν : ι → Measure Y := fun e => base.withDensity (fun y => ENNReal.ofReal (w e * dens e y)) with hν
  have hwd : ∀ e, Measurable (fun y => ENNReal.ofReal (w e * dens e y)) := fun e => ((hdm e).const_mul _).ennreal_ofReal
  set Φ : ι → Y × (Fin n → ℝ) → Y × ℝ := fun e p => (p.1, mean e p.1 + L e ⬝ᵥ p.2) with hΦ
  have hLm : ∀ e, Measurable (fun z : Fin n → ℝ => L e ⬝ᵥ z) := fun e => by
    have : Continuous (fun z : Fin n → ℝ => L e ⬝ᵥ z) := by fun_prop
    exact this.measurable
  have hΦm : ∀ e, Measurable (Φ e) := fun e => measurable_fst.prodMk (((hmm e).comp measurable_fst).add ((hLm e).comp measurable_snd))
  have hsf : ∀ e, SFinite (ν e) := fun e => inferInstance
  -- the joint law
  have hjoint : P.map (fun ω => (D ω, X ω)) = ∑ e, ((ν e).prod (stdNormal (Fin n))).map (Φ e) := by
    refine Measure.ext_of_lintegral _ (fun F hF => ?_)
    rw [lintegral_map hF (hD.prodMk hX), hlaw F hF, lintegral_finsetSum_measure]
    refine Finset.sum_congr rfl (fun e _ => ?_)
    have hFm : Measurable (fun p : Y × (Fin n → ℝ) => F (Φ e p)) := hF.comp (hΦm e)
    rw [lintegral_map hF (hΦm e), lintegral_prod _ hFm.aemeasurable, hν, lintegral_withDensity_eq_lintegral_mul _ (hwd e) hFm.lintegral_prod_right', ← lintegral_const_mul']
    · refine lintegral_congr (fun y => ?_)
      rw [Pi.mul_apply, ENNReal.ofReal_mul (hw e), mul_assoc]
    · exact ENNReal.ofReal_ne_top
  have hfin : ∀ e, IsFiniteMeasure (ν e) := by
    intro e
    have h1 : (∑ e, ((ν e).prod (stdNormal (Fin n))).map (Φ e)) Set.univ = 1 := by
      rw [← hjoint, Measure.map_apply (hD.prodMk hX) MeasurableSet.univ, Set.preimage_univ, measure_univ]
    rw [Measure.finset_sum_apply] at h1
    have h2 : (((ν e).prod (stdNormal (Fin n))).map (Φ e)) Set.univ = ν e Set.univ := by
      rw [Measure.map_apply (hΦm e) MeasurableSet.univ, Set.preimage_univ, ← Set.univ_prod_univ, Measure.prod_prod, measure_univ (μ := stdNormal (Fin n)), mul_one]
    have h3 := Finset.single_le_sum (f := fun e => (((ν e).prod (stdNormal (Fin n))).map (Φ e)) Set.univ) (fun _ _ => bot_le) (Finset.mem_univ e)
    refine ⟨?_⟩
    rw [← h2]
    exact lt_of_le_of_lt (h3.trans h1.le) ENNReal.one_lt_top
  -- integrability
  have hint : Integrable (fun p : Y × ℝ => p.2) (P.map (fun ω => (D ω, X ω))) := by
    rw [integrable_map_measure measurable_snd.aestronglyMeasurable (hD.prodMk hX).aemeasurable]
    exact hXi
  have hinte : ∀ e, Integrable (fun p : Y × ℝ => p.2) (((ν e).prod (stdNormal (Fin n))).map (Φ e)) := by
    intro e
    rw [hjoint] at hint
    exact (integrable_finsetSum_measure.mp hint) e (Finset.mem_univ e)
  have hmeanp : ∀ e, Integrable (fun p : Y × (Fin n → ℝ) => mean e p.1) ((ν e).prod (stdNormal (Fin n))) := by
    intro e
    have h1 := (integrable_map_measure measurable_snd.aestronglyMeasurable (hΦm e).aemeasurable).mp (hinte e)
    have h2 : Integrable (fun p : Y × (Fin n → ℝ) => L e ⬝ᵥ p.2) ((ν e).prod (stdNormal (Fin n))) := (integrable_stdNormal (L e)).1.comp_snd _
    have h3 := h1.sub h2
    refine h3.congr (Filter.Eventually.of_forall (fun p => ?_))
    simp [hΦ]
  have hmean : ∀ e, Integrable (mean e) (ν e) := by
    intro e
    have := (hmeanp e).integral_prod_left
    simpa using this
  have hmeanb : ∀ e, Integrable (fun y => w e * dens e y * mean e y) base := by
    intro e
    have := (integrable_withDensity_iff_integrable_smul' (hwd e) (Filter.Eventually.of_forall (fun y => ENNReal.ofReal_lt_top))).mp (hmean e)
    refine this.congr (Filter.Eventually.of_forall (fun y => ?_))
    simp only [smul_eq_mul, ENNReal.toReal_ofReal (mul_nonneg (hw e) (hd0 e y))]
  -- the law of the data
  have hDlaw : P.map D = base.withDensity (fun y => ENNReal.ofReal (∑ e, w e * dens e y)) := by
    refine Measure.ext_of_lintegral _ (fun F hF => ?_)
    have hs : Measurable (fun y => ENNReal.ofReal (∑ e, w e * dens e y)) := (Finset.measurable_fun_sum _ (fun e _ => (hdm e).const_mul _)).ennreal_ofReal
    have := hlaw (fun p => F p.1) (hF.comp measurable_fst)
    rw [lintegral_map hF hD, this, lintegral_withDensity_eq_lintegral_mul _ hs hF]
    simp only [lintegral_const, measure_univ, mul_one, Pi.mul_apply]
    have h2 : ∀ e, ENNReal.ofReal (w e) * ∫⁻ y, ENNReal.ofReal (dens e y) * F y ∂base = ∫⁻ y, ENNReal.ofReal (w e * dens e y) * F y ∂base := by
      intro e
      rw [← lintegral_const_mul' _ _ ENNReal.ofReal_ne_top]
      refine lintegral_congr (fun y => ?_)
      rw [ENNReal.ofReal_mul (hw e), mul_assoc]
    have h3 : ∀ e ∈ (Finset.univ : Finset ι), Measurable (fun y => ENNReal.ofReal (w e * dens e y) * F y) := fun e _ => (hwd e).mul hF
    rw [Finset.sum_congr rfl (fun e _ => h2 e), ← lintegral_finsetSum _ h3]
    refine lintegral_congr (fun y => ?_)
    rw [← Finset.sum_mul, ENNReal.ofReal_sum_of_nonneg (fun e _ => mul_nonneg (hw e) (hd0 e y))]
  set M : Y → ℝ := fun y => (∑ e, w e * dens e y * mean e y) / ∑ e, w e * dens e y with hM
  have hsm : Measurable (fun y => ∑ e, w e * dens e y) := Finset.measurable_fun_sum _ (fun e _ => (hdm e).const_mul _)
  have hMm : Measurable M := (Finset.measurable_fun_sum _ (fun e _ => ((hdm e).const_mul _).mul (hmm e))).div hsm
  have hMs : ∀ y, (∑ e, w e * dens e y) * M y = ∑ e, w e * dens e y * mean e y := fun y => mul_div_cancel₀ _ (hpos y).ne'
  have hMi : Integrable M (P.map D) := by
    rw [hDlaw, integrable_withDensity_iff_integrable_smul' hsm.ennreal_ofReal (Filter.Eventually.of_forall (fun y => ENNReal.ofReal_lt_top))]
    refine (integrable_finsetSum Finset.univ (fun e _ => hmeanb e)).congr (Filter.Eventually.of_forall (fun y => ?_))
    simp only [smul_eq_mul, ENNReal.toReal_ofReal (hpos y).le]
    exact (hMs y).symm
  have hMD : Integrable (fun ω => M (D ω)) P := (integrable_map_measure hMm.aestronglyMeasurable hD.aemeasurable).mp hMi
  have hle : MeasurableSpace.comap D inferInstance ≤ mΩ := hD.comap_le
  refine (ae_eq_condExp_of_forall_setIntegral_eq hle hXi (fun s _ _ => hMD.integrableOn) (fun s hs _ => ?_) ?_).symm
  · obtain ⟨B, hB, rfl⟩ := hs
    -- the left side
    have hl : ∫ ω in D ⁻¹' B, M (D ω) ∂P = ∫ y in B, ∑ e, w e * dens e y * mean e y ∂base := by
      rw [← setIntegral_map hB hMm.aestronglyMeasurable hD.aemeasurable, hDlaw, setIntegral_withDensity_eq_setIntegral_toReal_smul₀ hsm.ennreal_ofReal.aemeasurable
        (Filter.Eventually.of_forall (fun y => ENNReal.ofReal_lt_top)) _ hB]
      refine integral_congr_ae (Filter.Eventually.of_forall (fun y => ?_))
      simp only [smul_eq_mul, ENNReal.toReal_ofReal (hpos y).le]
      exact hMs y
    have hr : ∫ ω in D ⁻¹' B, X ω ∂P = ∑ e, ∫ y in B, w e * dens e y * mean e y ∂base := by
      have hBm : MeasurableSet ((fun p : Y × ℝ => p.1) ⁻¹' B) := measurable_fst hB
      have h1 : ∫ ω in D ⁻¹' B, X ω ∂P = ∫ p in (fun p : Y × ℝ => p.1) ⁻¹' B, p.2 ∂(P.map (fun ω => (D ω, X ω))) := by
        rw [setIntegral_map hBm measurable_snd.aestronglyMeasurable (hD.prodMk hX).aemeasurable]
        rfl
      have hsum : (∑ e, ((ν e).prod (stdNormal (Fin n))).map (Φ e)).restrict ((fun p : Y × ℝ => p.1) ⁻¹' B) = ∑ e, (((ν e).prod (stdNormal (Fin n))).map (Φ e)).restrict ((fun p : Y × ℝ => p.1) ⁻¹' B) := by
        simp only [← Measure.restrictₗ_apply, map_sum]
      rw [h1, hjoint, hsum, integral_finsetSum_measure (fun e _ => (hinte e).integrableOn)]
      refine Finset.sum_congr rfl (fun e _ => ?_)
      rw [setIntegral_map hBm measurable_snd.aestronglyMeasurable (hΦm e).aemeasurable]
      have hpre : Φ e ⁻¹' ((fun p : Y × ℝ => p.1) ⁻¹' B) = B ×ˢ Set.univ := by
        ext p
        simp [hΦ]
      rw [hpre]
      have h2 : ∫ p in B ×ˢ Set.univ, (Φ e p).2 ∂((ν e).prod (stdNormal (Fin n))) = ∫ y in B, mean e y ∂(ν e) := by
        rw [← Measure.prod_restrict, Measure.restrict_univ]
        have hi1 : Integrable (fun p : Y × (Fin n → ℝ) => mean e p.1) (((ν e).restrict B).prod (stdNormal (Fin n))) := (hmean e).integrableOn.comp_fst _
        have hi2 : Integrable (fun p : Y × (Fin n → ℝ) => L e ⬝ᵥ p.2) (((ν e).restrict B).prod (stdNormal (Fin n))) := (integrable_stdNormal (L e)).1.comp_snd _
        have : (fun p : Y × (Fin n → ℝ) => (Φ e p).2) = fun p => mean e p.1 + L e ⬝ᵥ p.2 := rfl
        rw [this, integral_add hi1 hi2, integral_prod _ hi1, integral_prod _ hi2]
        simp [(integrable_stdNormal (L e)).2]
      rw [h2, hν, setIntegral_withDensity_eq_setIntegral_toReal_smul₀ (hwd e).aemeasurable (Filter.Eventually.of_forall (fun y => ENNReal.ofReal_lt_top)) _ hB]
      refine integral_congr_ae (Filter.Eventually.of_forall (fun y => ?_))
      simp only [smul_eq_mul, ENNReal.toReal_ofReal (mul_nonneg (hw e) (hd0 e y))]
    rw [hl, hr, integral_finsetSum _ (fun e _ => (hmeanb e).integrableOn)]
  · exact (hMm.comp (comap_measurable D)).aestronglyMeasurable

end Skill
