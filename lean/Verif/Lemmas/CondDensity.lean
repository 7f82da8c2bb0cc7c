import Mathlib.MeasureTheory.Constructions.Pi
import Mathlib.MeasureTheory.Function.ConditionalExpectation.Basic
import Mathlib.MeasureTheory.Function.ConditionalExpectation.CondexpL1
import Mathlib.MeasureTheory.Measure.WithDensity
import Mathlib.MeasureTheory.Measure.Lebesgue.Basic
import Mathlib.Probability.Notation
import Mathlib.MeasureTheory.Integral.Bochner.Set
/-
Conditional densities of one coordinate of a random vector.
-/
namespace Skill
open MeasureTheory ProbabilityTheory

theorem sigmaFinite_update {N : ℕ} (μ : Fin N → Measure ℝ) [∀ i, SigmaFinite (μ i)] (J : Fin N) (i : Fin N) : SigmaFinite (Function.update μ J (Measure.dirac 0) i) := by
  by_cases h : i = J
  · subst h
    rw [Function.update_self]
    infer_instance
  · rw [Function.update_of_ne h]
    infer_instance

theorem measurable_updatePair {N : ℕ} (J : Fin N) : Measurable (fun p : (Fin N → ℝ) × ℝ => Function.update p.1 J p.2) := by
  refine measurable_pi_iff.mpr (fun i => ?_)
  by_cases h : i = J
  · subst h
    simp only [Function.update_self]
    exact measurable_snd
  · simp only [Function.update_of_ne h]
    exact (measurable_pi_apply i).comp measurable_fst

/-- One coordinate after the others. -/
theorem pi_update {N : ℕ} (μ : Fin N → Measure ℝ) [∀ i, SigmaFinite (μ i)] (J : Fin N) :
    ((Measure.pi (Function.update μ J (Measure.dirac 0))).prod (μ J)).map (fun p => Function.update p.1 J p.2) = Measure.pi μ := by
  have hsf := sigmaFinite_update μ J
  symm
  refine Measure.pi_eq (fun s hs => ?_)
  rw [Measure.map_apply (measurable_updatePair J) (MeasurableSet.univ_pi hs)]
  have hpre : (fun p : (Fin N → ℝ) × ℝ => Function.update p.1 J p.2) ⁻¹' (Set.univ.pi s) = (Set.univ.pi (Function.update s J Set.univ)) ×ˢ (s J) := by
    ext p
    simp only [Set.mem_preimage, Set.mem_pi, Set.mem_univ, true_implies, Set.mem_prod]
    constructor
    · intro h
      refine ⟨fun i => ?_, by simpa using h J⟩
      by_cases hi : i = J
      · subst hi
        simp
      · have := h i
        rw [Function.update_of_ne hi] at this
        rw [Function.update_of_ne hi]
        exact this
    · rintro ⟨h1, h2⟩ i
      by_cases hi : i = J
      · subst hi
        simpa using h2
      · have := h1 i
        rw [Function.update_of_ne hi] at this
        rw [Function.update_of_ne hi]
        exact this
  rw [hpre, Measure.prod_prod, Measure.pi_pi, ← Finset.mul_prod_erase _ _ (Finset.mem_univ J), ← Finset.mul_prod_erase (a := J) _ (fun i => μ i (s i)) (Finset.mem_univ J)]
  rw [Function.update_self, Function.update_self, measure_univ, one_mul, mul_comm]
  congr 1
  refine Finset.prod_congr rfl (fun i hi => ?_)
  have hi := Finset.ne_of_mem_erase hi
  rw [Function.update_of_ne hi, Function.update_of_ne hi]

/-- The conditional distribution of a coordinate given the others, if the vector and the vector without the coordinate have densities. -/
theorem condExp_density {Ω : Type} [mΩ : MeasurableSpace Ω] {P : Measure Ω} [IsProbabilityMeasure P] {N : ℕ} {μ : Fin N → Measure ℝ} [∀ i, SigmaFinite (μ i)] {J : Fin N} {X past : Ω → Fin N → ℝ} (hX : Measurable X)
    (hpast : ∀ ω, past ω = Function.update (X ω) J 0) {d1 d2 : (Fin N → ℝ) → ℝ} (hd1 : Measurable d1) (hd2 : Measurable d2) (hpos1 : ∀ y, 0 < d1 y) (hpos2 : ∀ y, 0 < d2 y)
    (hl1 : P.map X = (Measure.pi μ).withDensity (fun y => ENNReal.ofReal (d1 y))) (hl2 : P.map past = (Measure.pi (Function.update μ J (Measure.dirac 0))).withDensity (fun y => ENNReal.ofReal (d2 y)))
    {B : Set ℝ} (hB : MeasurableSet B) :
    P⟦(fun ω => X ω J) ⁻¹' B | MeasurableSpace.comap past inferInstance⟧ =ᵐ[P] fun ω => ∫ x in B, d1 (Function.update (past ω) J x) / d2 (past ω) ∂(μ J) := by
  have hsf := sigmaFinite_update μ J
  have hpm : Measurable past := by
    have : past = (fun p : (Fin N → ℝ) × ℝ => Function.update p.1 J p.2) ∘ fun ω => (X ω, 0) := funext hpast
    rw [this]
    exact (measurable_updatePair J).comp (hX.prodMk measurable_const)
  have hm : MeasurableSpace.comap past inferInstance ≤ mΩ := hpm.comap_le
  have hA : MeasurableSet ((fun ω => X ω J) ⁻¹' B) := (measurable_pi_apply J).comp hX hB
  -- the density as a function of the other coordinates
  let F : (Fin N → ℝ) → ENNReal := fun y => ∫⁻ x in B, ENNReal.ofReal (d1 (Function.update y J x) / d2 y) ∂(μ J)
  have he1 : Measurable (fun y => ENNReal.ofReal (d1 y)) := ENNReal.measurable_ofReal.comp hd1
  have he2 : Measurable (fun y => ENNReal.ofReal (d2 y)) := ENNReal.measurable_ofReal.comp hd2
  have hquot : Measurable (fun p : (Fin N → ℝ) × ℝ => ENNReal.ofReal (d1 (Function.update p.1 J p.2) / d2 p.1)) :=
    ENNReal.measurable_ofReal.comp ((hd1.comp (measurable_updatePair J)).div (hd2.comp measurable_fst))
  have hF : Measurable F := hquot.lintegral_prod_right'
  have hFint : ∀ y, ∫ x in B, d1 (Function.update y J x) / d2 y ∂(μ J) = (F y).toReal := by
    intro y
    rw [integral_eq_lintegral_of_nonneg_ae (Filter.Eventually.of_forall (fun x => (div_pos (hpos1 _) (hpos2 _)).le))]
    exact ((hd1.comp (measurable_updatePair J)).comp (measurable_const.prodMk measurable_id)).div measurable_const |>.aestronglyMeasurable
  -- the integral over events that depend on the other coordinates
  have hset : ∀ S : Set (Fin N → ℝ), MeasurableSet S → ∫⁻ ω in past ⁻¹' S, F (past ω) ∂P = P ((fun ω => X ω J) ⁻¹' B ∩ past ⁻¹' S) := by
    intro S hS
    have h1 : ∫⁻ ω in past ⁻¹' S, F (past ω) ∂P = ∫⁻ y in S, (∫⁻ x in B, ENNReal.ofReal (d1 (Function.update y J x)) ∂(μ J)) ∂(Measure.pi (Function.update μ J (Measure.dirac 0))) := by
      rw [← setLIntegral_map hS hF hpm, hl2, restrict_withDensity hS, lintegral_withDensity_eq_lintegral_mul _ he2 hF]
      refine lintegral_congr (fun y => ?_)
      show ENNReal.ofReal (d2 y) * ∫⁻ x in B, ENNReal.ofReal (d1 (Function.update y J x) / d2 y) ∂(μ J) = _
      have hq : Measurable (fun x : ℝ => ENNReal.ofReal (d1 (Function.update y J x) / d2 y)) := hquot.comp (measurable_const.prodMk measurable_id)
      rw [← lintegral_const_mul _ hq]
      refine lintegral_congr (fun x => ?_)
      rw [← ENNReal.ofReal_mul (hpos2 y).le, mul_div_cancel₀ _ (hpos2 y).ne']
    have h2 : P ((fun ω => X ω J) ⁻¹' B ∩ past ⁻¹' S) = (P.map X) ((fun y => y J) ⁻¹' B ∩ (fun y => Function.update y J 0) ⁻¹' S) := by
      have hmeas : Measurable (fun y : Fin N → ℝ => Function.update y J (0 : ℝ)) := (measurable_updatePair J).comp (measurable_id.prodMk measurable_const)
      rw [Measure.map_apply hX (((measurable_pi_apply J) hB).inter (hmeas hS))]
      congr 1
      ext ω
      simp only [Set.mem_inter_iff, Set.mem_preimage, hpast]
    have hmeas : Measurable (fun y : Fin N → ℝ => Function.update y J (0 : ℝ)) := (measurable_updatePair J).comp (measurable_id.prodMk measurable_const)
    have hT : MeasurableSet ((fun y : Fin N → ℝ => y J) ⁻¹' B ∩ (fun y => Function.update y J 0) ⁻¹' S) := ((measurable_pi_apply J) hB).inter (hmeas hS)
    have hind : Measurable (fun p : (Fin N → ℝ) × ℝ => ((fun y : Fin N → ℝ => y J) ⁻¹' B ∩ (fun y => Function.update y J 0) ⁻¹' S).indicator (fun y => ENNReal.ofReal (d1 y)) (Function.update p.1 J p.2)) :=
      (he1.indicator hT).comp (measurable_updatePair J)
    rw [h1, h2, hl1, withDensity_apply _ hT, ← lintegral_indicator hT, ← pi_update μ J,
      lintegral_map (he1.indicator hT) (measurable_updatePair J), lintegral_prod _ hind.aemeasurable,
      ← lintegral_indicator hS]
    -- the J-th coordinate of the first vector is zero
    have hzero : ∀ᵐ y ∂(Measure.pi (Function.update μ J (Measure.dirac 0))), y J = 0 := by
      have h0 : (Function.update μ J (Measure.dirac 0) J) {0}ᶜ = 0 := by
        rw [Function.update_self]
        simp
      have hae : ∀ᵐ x ∂(Function.update μ J (Measure.dirac 0) J), x = 0 := h0
      exact (Measure.quasiMeasurePreserving_eval (μ := Function.update μ J (Measure.dirac 0)) J).ae hae
    refine lintegral_congr_ae ?_
    filter_upwards [hzero] with y hy
    by_cases hyS : y ∈ S
    · rw [Set.indicator_of_mem hyS, ← lintegral_indicator hB]
      refine lintegral_congr (fun x => ?_)
      by_cases hx : x ∈ B
      · rw [Set.indicator_of_mem hx, Set.indicator_of_mem]
        refine ⟨by simpa using hx, ?_⟩
        show Function.update (Function.update y J x) J 0 ∈ S
        rw [Function.update_idem, ← hy, Function.update_eq_self]
        exact hyS
      · rw [Set.indicator_of_notMem hx, Set.indicator_of_notMem]
        rintro ⟨h, _⟩
        exact hx (by simpa using h)
    · rw [Set.indicator_of_notMem hyS]
      refine ((lintegral_congr (g := fun _ => 0) (fun x => Set.indicator_of_notMem ?_ _)).trans (by simp)).symm
      rintro ⟨_, h⟩
      refine hyS ?_
      change Function.update (Function.update y J x) J 0 ∈ S at h
      rwa [Function.update_idem, ← hy, Function.update_eq_self] at h
  have hfin : ∫⁻ ω, F (past ω) ∂P ≠ ⊤ := by
    have := hset Set.univ MeasurableSet.univ
    rw [Set.preimage_univ, Measure.restrict_univ] at this
    rw [this]
    exact measure_ne_top _ _
  have hFp : Measurable (fun ω => F (past ω)) := hF.comp hpm
  have hlt : ∀ᵐ ω ∂P, F (past ω) < ⊤ := ae_lt_top hFp hfin
  have hint : Integrable (fun ω => (F (past ω)).toReal) P := integrable_toReal_of_lintegral_ne_top hFp.aemeasurable hfin
  simp only [hFint]
  symm
  refine ae_eq_condExp_of_forall_setIntegral_eq hm ?_ (fun _ _ _ => hint.integrableOn) ?_ ?_
  · exact (integrable_const 1).indicator hA
  · rintro s ⟨S, hS, rfl⟩ _
    rw [setIntegral_indicator hA, integral_toReal hFp.aemeasurable.restrict (ae_restrict_of_ae hlt), hset S hS, setIntegral_const, Set.inter_comm]
    simp [Measure.real]
  · exact (ENNReal.measurable_toReal.comp hF).comp (comap_measurable past) |>.aestronglyMeasurable

end Skill
