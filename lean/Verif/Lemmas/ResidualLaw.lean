import Verif.Lemmas.Residuals
import Mathlib.Probability.ConditionalExpectation
/-
The law of the residuals, and the predictions as conditional expectations.
-/
namespace Skill
open Matrix MeasureTheory ProbabilityTheory Spec
variable {n : ℕ}

instance (steps : List (Step n)) : IsProbabilityMeasure (residualMeasure steps) := by
  unfold residualMeasure
  have : ∀ k : Fin steps.length, IsProbabilityMeasure (if (steps.get k).observed then gaussianReal 0 1 else Measure.dirac 0 : Measure ℝ) := fun k => by split_ifs <;> infer_instance
  infer_instance

theorem residualMeasure_eval (steps : List (Step n)) (k : Fin steps.length) : (residualMeasure steps).map (fun z => z k) = if (steps.get k).observed then gaussianReal 0 1 else Measure.dirac 0 := by
  unfold residualMeasure
  have : ∀ k : Fin steps.length, IsProbabilityMeasure (if (steps.get k).observed then gaussianReal 0 1 else Measure.dirac 0 : Measure ℝ) := fun k => by split_ifs <;> infer_instance
  exact (measurePreserving_eval (fun k : Fin steps.length => (if (steps.get k).observed then gaussianReal 0 1 else Measure.dirac 0 : Measure ℝ)) k).map_eq

section
variable {steps : List (Step n)} (hs : ∀ s ∈ steps, s.Affine) (hsd : ∀ s ∈ steps, s.sd ≠ 0) (m : Fin n → ℝ) {C : Matrix (Fin n) (Fin n) ℝ} (hC : C.PosSemidef)
  {Ω : Type} [MeasurableSpace Ω] {P : Measure Ω} [IsProbabilityMeasure P] {D : Ω → Fin steps.length → ℝ} (hD : Measurable D)
  (hlaw : P.map D = (baseMeasure steps).withDensity (fun y => ENNReal.ofReal (kalmanDensity steps m C y)))
include hs hsd hC hD hlaw

theorem stdResiduals_law : P.map (fun ω => stdResiduals steps m C (D ω)) = residualMeasure steps := by
  have hR := (continuous_stdResiduals hs m C).measurable
  have hd : Measurable (fun y => ENNReal.ofReal (kalmanDensity steps m C y)) := ((measurable_kalmanDensity hs C).comp (measurable_const.prodMk measurable_id)).ennreal_ofReal
  refine Measure.ext_of_lintegral _ (fun F hF => ?_)
  have hRD : Measurable (fun ω => stdResiduals steps m C (D ω)) := hR.comp hD
  rw [lintegral_map hF hRD, ← lintegral_stdResiduals hs hsd m hC hF]
  have h1 : ∫⁻ ω, F (stdResiduals steps m C (D ω)) ∂P = ∫⁻ y, F (stdResiduals steps m C y) ∂(P.map D) := (lintegral_map (hF.comp hR) hD).symm
  rw [h1, hlaw]
  exact lintegral_withDensity_eq_lintegral_mul _ hd (hF.comp hR)

theorem stdResiduals_marginal (k : Fin steps.length) : P.map (fun ω => stdResiduals steps m C (D ω) k) = if (steps.get k).observed then gaussianReal 0 1 else Measure.dirac 0 := by
  have hRD : Measurable (fun ω => stdResiduals steps m C (D ω)) := (continuous_stdResiduals hs m C).measurable.comp hD
  rw [← residualMeasure_eval, ← stdResiduals_law hs hsd m hC hD hlaw, Measure.map_map (measurable_pi_apply k) hRD]
  rfl

theorem stdResiduals_indep : iIndepFun (fun k ω => stdResiduals steps m C (D ω) k) P := by
  have hm := (continuous_stdResiduals hs m C).measurable.comp hD
  refine (iIndepFun_iff_map_fun_eq_pi_map (f := fun k ω => stdResiduals steps m C (D ω) k) (fun k => ((measurable_pi_apply k).comp hm).aemeasurable)).mpr ?_
  refine (stdResiduals_law hs hsd m hC hD hlaw).trans ?_
  unfold residualMeasure
  congr 1
  funext k
  exact (stdResiduals_marginal hs hsd m hC hD hlaw k).symm

/-- A residual is independent of the earlier measurements. -/
theorem residual_indep_earlier (h0 : ∀ ω k, (steps.get k).observed = false → D ω k = 0) (j : Fin steps.length) :
    IndepFun (fun ω => stdResiduals steps m C (D ω) j) (fun ω (i : {i // i < j}) => D ω i) P := by
  have hm := (continuous_stdResiduals hs m C).measurable.comp hD
  obtain ⟨g, hg1, hg2, hg3⟩ := stdResiduals_inverse hs hsd m hC j.val
  have hind := (stdResiduals_indep hs hsd m hC hD hlaw).indepFun_finset {j} (Finset.Iio j) (by simp) (fun k => (measurable_pi_apply k).comp hm)
  let ext : ({i // i ∈ Finset.Iio j} → ℝ) → Fin steps.length → ℝ := fun z k => if h : k < j then z ⟨k, Finset.mem_Iio.mpr h⟩ else 0
  have hext : Measurable ext := by
    refine measurable_pi_lambda _ (fun k => ?_)
    by_cases h : k < j
    · simp only [ext, dif_pos h]
      exact measurable_pi_apply _
    · simp only [ext, dif_neg h]
      exact measurable_const
  have hφ : Measurable (fun z : {i // i ∈ ({j} : Finset (Fin steps.length))} → ℝ => z ⟨j, by simp⟩) := measurable_pi_apply _
  have hψ : Measurable (fun (z : {i // i ∈ Finset.Iio j} → ℝ) (i : {i // i < j}) => g (ext z) i) := measurable_pi_lambda _ (fun i => (measurable_pi_apply _).comp (hg1.comp hext))
  have := hind.comp hφ hψ
  refine Eq.mp (congrArg (fun f => IndepFun (fun ω => stdResiduals steps m C (D ω) j) f P) ?_) this
  funext ω i
  show g (ext fun k => stdResiduals steps m C (D ω) k) i = D ω i
  rw [hg3 (D ω) (h0 ω) i.1 i.2]
  refine congrFun (hg2 _ _ (fun k hk => ?_)) _
  exact dif_pos (show k < j from hk)

/-- The prediction of a measurement is its conditional expectation given the earlier measurements. -/
theorem prediction_condExp (h0 : ∀ ω k, (steps.get k).observed = false → D ω k = 0) (j : Fin steps.length) (hj : (steps.get j).observed = true) (hint : Integrable (fun ω => D ω j) P) :
    P[fun ω => D ω j | MeasurableSpace.comap (fun ω (i : {i // i < j}) => D ω i) inferInstance] =ᵐ[P] fun ω => D ω j - stepResiduals steps m C (D ω) j := by
  have hm := (continuous_stdResiduals hs m C).measurable.comp hD
  have hRm : Measurable (fun ω => stdResiduals steps m C (D ω) j) := (measurable_pi_apply j).comp hm
  have hEm : Measurable (fun ω (i : {i // i < j}) => D ω i) := measurable_pi_lambda _ (fun i => (measurable_pi_apply _).comp hD)
  have hlawj := stdResiduals_marginal hs hsd m hC hD hlaw j
  rw [if_pos hj] at hlawj
  have hsdj := stepSds_pos hsd hC j
  have hres : ∀ y, stepResiduals steps m C y j = stepSds steps C j * stdResiduals steps m C y j := fun y => by
    rw [stdResiduals, if_pos hj, mul_div_cancel₀ _ hsdj.ne']
  have hRint : Integrable (fun ω => stdResiduals steps m C (D ω) j) P := by
    have : Integrable (id : ℝ → ℝ) (gaussianReal 0 1) := (memLp_id_gaussianReal 1).integrable le_rfl
    rw [← hlawj] at this
    exact (integrable_map_measure measurable_id.aestronglyMeasurable hRm.aemeasurable).mp this
  have hR0 : ∫ ω, stdResiduals steps m C (D ω) j ∂P = 0 := by
    have := integral_id_gaussianReal (μ := 0) (v := 1)
    rw [← hlawj] at this
    exact (integral_map hRm.aemeasurable measurable_id.aestronglyMeasurable).symm.trans this
  have hresint : Integrable (fun ω => stepResiduals steps m C (D ω) j) P := by
    simp only [hres]
    exact hRint.const_mul _
  have hle : MeasurableSpace.comap (fun ω (i : {i // i < j}) => D ω i) inferInstance ≤ (inferInstance : MeasurableSpace Ω) := hEm.comap_le
  -- the prediction is a function of the earlier measurements
  let ext : ({i // i < j} → ℝ) → Fin steps.length → ℝ := fun z k => if h : k < j then z ⟨k, h⟩ else 0
  have hext : Measurable ext := by
    refine measurable_pi_lambda _ (fun k => ?_)
    by_cases h : k < j
    · simp only [ext, dif_pos h]
      exact measurable_pi_apply _
    · simp only [ext, dif_neg h]
      exact measurable_const
  have hRes : Measurable (fun y => stepResiduals steps m C y j) := (measurable_pi_apply j).comp ((continuous_stepResiduals hs C).comp (continuous_const.prodMk continuous_id)).measurable
  have hpred : ∀ ω, D ω j - stepResiduals steps m C (D ω) j = (fun z => ext z j - stepResiduals steps m C (ext z) j) (fun i : {i // i < j} => D ω i) := fun ω =>
    stepResiduals_sequential m C (D ω) (ext (fun i : {i // i < j} => D ω i)) j (fun k hk => (dif_pos (t := fun h => D ω (⟨k, h⟩ : {i // i < j}).1) (e := fun _ => (0 : ℝ)) hk).symm)
  have hpm : StronglyMeasurable[MeasurableSpace.comap (fun ω (i : {i // i < j}) => D ω i) inferInstance] (fun ω => D ω j - stepResiduals steps m C (D ω) j) := by
    have hφ : Measurable (fun z : {i // i < j} → ℝ => ext z j - stepResiduals steps m C (ext z) j) := ((measurable_pi_apply _).comp hext).sub (hRes.comp hext)
    have e : (fun ω => D ω j - stepResiduals steps m C (D ω) j) = (fun z : {i // i < j} → ℝ => ext z j - stepResiduals steps m C (ext z) j) ∘ (fun ω (i : {i // i < j}) => D ω i) := funext hpred
    rw [e]
    exact hφ.stronglyMeasurable.comp_measurable (comap_measurable _)
  have hpredint : Integrable (fun ω => D ω j - stepResiduals steps m C (D ω) j) P := hint.sub hresint
  have h1 : P[fun ω => D ω j - stepResiduals steps m C (D ω) j | MeasurableSpace.comap (fun ω (i : {i // i < j}) => D ω i) inferInstance] = fun ω => D ω j - stepResiduals steps m C (D ω) j :=
    condExp_of_stronglyMeasurable hle hpm hpredint
  have h2 : P[fun ω => stepResiduals steps m C (D ω) j | MeasurableSpace.comap (fun ω (i : {i // i < j}) => D ω i) inferInstance] =ᵐ[P] fun _ => 0 := by
    have hind := residual_indep_earlier hs hsd m hC hD hlaw h0 j
    have := condExp_indep_eq (m₁ := MeasurableSpace.comap (fun ω => stdResiduals steps m C (D ω) j) inferInstance) (μ := P) hRm.comap_le hle (f := fun ω => stepResiduals steps m C (D ω) j) (by
      have e : (fun ω => stepResiduals steps m C (D ω) j) = (fun z => stepSds steps C j * z) ∘ (fun ω => stdResiduals steps m C (D ω) j) := funext (fun ω => hres _)
      rw [e]
      exact (measurable_const_mul _).stronglyMeasurable.comp_measurable (comap_measurable _)) hind
    refine this.trans (Filter.Eventually.of_forall (fun ω => ?_))
    dsimp only
    simp only [hres]
    rw [integral_const_mul, hR0, mul_zero]
  have h3 : (fun ω => D ω j) = (fun ω => D ω j - stepResiduals steps m C (D ω) j) + fun ω => stepResiduals steps m C (D ω) j := by
    funext ω
    simp
  have h4 := condExp_add hpredint hresint (MeasurableSpace.comap (fun ω (i : {i // i < j}) => D ω i) inferInstance)
  rw [← h3, h1] at h4
  refine h4.trans ?_
  filter_upwards [h2] with ω hω
  rw [Pi.add_apply, hω, add_zero]

end

/-- The same, for data whose length is only known to be the number of steps. -/
theorem residuals_transport {steps : List (Step n)} (hs : ∀ s ∈ steps, s.Affine) (hsd : ∀ s ∈ steps, s.sd ≠ 0) (m : Fin n → ℝ) {C : Matrix (Fin n) (Fin n) ℝ} (hC : C.PosSemidef)
    {Ω : Type} [MeasurableSpace Ω] {P : Measure Ω} [IsProbabilityMeasure P] {N : ℕ} (hlen : steps.length = N) {D : Ω → Fin N → ℝ} (hD : Measurable D) {obs : Fin N → Bool} (hobs : ∀ k, (steps.get k).observed = obs (Fin.cast hlen k))
    (hlaw : P.map D = (Measure.pi (fun k => if obs k then volume else Measure.dirac 0)).withDensity (fun y => ENNReal.ofReal (kalmanDensity steps m C (fun j => y (Fin.cast hlen j)))))
    (h0 : ∀ ω k, obs k = false → D ω k = 0) (hint : ∀ k, Integrable (fun ω => D ω k) P) {present : Fin N → Prop} (hp : ∀ j, present j → obs j = true) :
    (∀ j, present j → P[fun ω => D ω j | MeasurableSpace.comap (fun ω (i : {i // i < j}) => D ω i) inferInstance] =ᵐ[P]
      fun ω => D ω j - stepResiduals steps m C (fun k => D ω (Fin.cast hlen k)) (Fin.cast hlen.symm j)) ∧
    (∀ j, present j → P.map (fun ω => stepResiduals steps m C (fun k => D ω (Fin.cast hlen k)) (Fin.cast hlen.symm j) / stepSds steps C (Fin.cast hlen.symm j)) = gaussianReal 0 1) ∧
    iIndepFun (fun (j : {j // present j}) ω => stepResiduals steps m C (fun k => D ω (Fin.cast hlen k)) (Fin.cast hlen.symm j) / stepSds steps C (Fin.cast hlen.symm j)) P := by
  subst hlen
  have hlaw' : P.map D = (baseMeasure steps).withDensity (fun y => ENNReal.ofReal (kalmanDensity steps m C y)) := by
    rw [hlaw]
    unfold baseMeasure
    congr 2
    funext k
    rw [hobs k]
    rfl
  have h0' : ∀ ω k, (steps.get k).observed = false → D ω k = 0 := fun ω k h => h0 ω k ((hobs k).symm.trans h)
  have hp' : ∀ j, present j → (steps.get j).observed = true := fun j h => (hobs j).trans (hp j h)
  have hstd : ∀ (j : Fin steps.length) (y : Fin steps.length → ℝ), present j → stdResiduals steps m C y j = stepResiduals steps m C y j / stepSds steps C j := fun j y h => if_pos (hp' j h)
  refine ⟨fun j hj => prediction_condExp hs hsd m hC hD hlaw' h0' j (hp' j hj) (hint j), fun j hj => ?_, ?_⟩
  · have := stdResiduals_marginal hs hsd m hC hD hlaw' j
    rw [if_pos (hp' j hj)] at this
    rw [← this]
    congr 1
    funext ω
    exact (hstd j _ hj).symm
  · have := (stdResiduals_indep hs hsd m hC hD hlaw').precomp (g := fun j : {j // present j} => j.1) Subtype.val_injective
    refine Eq.mp (congrArg (fun f => iIndepFun f P) ?_) this
    funext j ω
    exact hstd j.1 _ j.2

end Skill
