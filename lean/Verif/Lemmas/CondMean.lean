import Verif.Props.ObservationalEquivalence
import Verif.Props.FilteredStates

/-! The conditional mean is determined by the joint distribution (used for C107). -/

namespace Skill
open MeasureTheory ProbabilityTheory Spec

/-- Integrals over events that depend on the data. -/
theorem setIntegral_of_condMean {Ω D : Type} [MeasurableSpace Ω] [MeasurableSpace D] {P : Measure Ω} [IsProbabilityMeasure P] {X : Ω → D} {F : Ω → ℝ} (hX : Measurable X) (hF : Integrable F P) {M : D → ℝ}
    (h : P[F | MeasurableSpace.comap X inferInstance] =ᵐ[P] fun ω => M (X ω)) : Integrable (fun ω => M (X ω)) P ∧ ∀ A, MeasurableSet A → ∫ ω in X ⁻¹' A, M (X ω) ∂P = ∫ ω in X ⁻¹' A, F ω ∂P := by
  have hle : MeasurableSpace.comap X inferInstance ≤ (inferInstance : MeasurableSpace Ω) := hX.comap_le
  refine ⟨(integrable_congr h).mp integrable_condExp, fun A hA => ?_⟩
  rw [← setIntegral_condExp hle hF (s := X ⁻¹' A) ⟨A, hA, rfl⟩]
  exact setIntegral_congr_ae (hX hA) (h.mono (fun ω hω _ => hω.symm))

/-- Two random experiments with the same joint distribution have the same conditional mean. -/
theorem condMean_unique {Ω Ω' D : Type} [MeasurableSpace Ω] [MeasurableSpace Ω'] [MeasurableSpace D] {P : Measure Ω} {P' : Measure Ω'} [IsProbabilityMeasure P] [IsProbabilityMeasure P'] {X : Ω → D} {X' : Ω' → D} {F : Ω → ℝ} {F' : Ω' → ℝ}
    (hX : Measurable X) (hX' : Measurable X') (hF : Measurable F) (hF' : Measurable F') (hjoint : P.map (fun ω => (X ω, F ω)) = P'.map (fun ω => (X' ω, F' ω))) {M N : D → ℝ} (hM : Measurable M) (hN : Measurable N)
    (hMi : Integrable (fun ω => M (X ω)) P) (hNi : Integrable (fun ω => N (X' ω)) P') (h : ∀ A, MeasurableSet A → ∫ ω in X ⁻¹' A, M (X ω) ∂P = ∫ ω in X ⁻¹' A, F ω ∂P)
    (h' : ∀ A, MeasurableSet A → ∫ ω in X' ⁻¹' A, N (X' ω) ∂P' = ∫ ω in X' ⁻¹' A, F' ω ∂P') : M =ᵐ[P.map X] N := by
  have hpair : ∀ {Ω : Type} [MeasurableSpace Ω] {P : Measure Ω} {X : Ω → D} {F : Ω → ℝ}, Measurable X → Measurable F → ∀ A, MeasurableSet A →
      ∫ ω in X ⁻¹' A, F ω ∂P = ∫ p in Prod.fst ⁻¹' A, p.2 ∂P.map (fun ω => (X ω, F ω)) := by
    intro Ω _ P X F hX hF A hA
    rw [setIntegral_map (measurable_fst hA) measurable_snd.aestronglyMeasurable (hX.prodMk hF).aemeasurable]
    rfl
  have hmarg : P.map X = P'.map X' := by
    have := congrArg (Measure.map Prod.fst) hjoint
    rwa [Measure.map_map measurable_fst (hX.prodMk hF), Measure.map_map measurable_fst (hX'.prodMk hF')] at this
  refine Integrable.ae_eq_of_forall_setIntegral_eq M N ((integrable_map_measure hM.aestronglyMeasurable hX.aemeasurable).mpr hMi) ?_ (fun A hA _ => ?_)
  · rw [hmarg]
    exact (integrable_map_measure hN.aestronglyMeasurable hX'.aemeasurable).mpr hNi
  · rw [setIntegral_map hA hM.aestronglyMeasurable hX.aemeasurable, h A hA, hpair hX hF A hA, hjoint, ← hpair hX' hF' A hA, ← h' A hA, hmarg, setIntegral_map hA hN.aestronglyMeasurable hX'.aemeasurable]

/-- The data have a positive density. -/
theorem positive_density {qr : QR} (hqr : ValidQR qr) {m : ModelDict ℝ} {pm : Processed ℝ} (hpm : processModel m = .ok pm) {k : ℕ} (hm : LinearModel m k) (hanch : m.anchoring = none ∨ k = 1) (hg : GoodNames m)
    (hkappa : ∀ o x, m.estimationOptions = some o → o.sigmaPointsScale = some x → 0 ≤ x) {val : Loc → ℝ} (hv : ProperValues m k val) {Ω : Type} [MeasurableSpace Ω] {P : Measure Ω} [IsProbabilityMeasure P] {E : Ω → Fin k}
    {Z : Noise → Ω → ℝ} (hZ : RandomNoise P val E Z) :
    ∃ updates, Enumerates m updates ∧ ∀ cov, ∃ d : (Fin updates.length → ℝ) → ℝ, Continuous d ∧ (∀ y, 0 < d y) ∧
      P.map (fun ω => observedData updates cov (measurementValue m val cov (E ω) (fun j => Z j ω))) = (referenceMeasure updates cov).withDensity (fun y => ENNReal.ofReal (d y)) := by
  rcases hanch with hna | rfl
  · obtain ⟨a, ha, d, hd⟩ := density_of_values hqr hpm hm hna hg hkappa (fun _ => default) 0
    have hd := hd val hv
    exact ⟨a, ha, fun cov => ⟨d val cov, hd.continuous cov, hd.pos cov, hd.law cov P E Z hZ⟩⟩
  · obtain ⟨a, ha, d, hd, hlaw, _⟩ := C87_anchored_likelihood hqr hpm hm hg hkappa hv (fun _ => default) 0
    exact ⟨a, ha, fun cov => ⟨d cov, (hd cov).1, (hd cov).2, hlaw cov P E Z hZ⟩⟩

/-- Continuous functions of the data that are equal almost surely are equal. -/
theorem eq_of_ae_law {a b : List (Nat × String)} (ha : a.Nodup) (hb : b.Nodup) (hab : ∀ x, x ∈ a ↔ x ∈ b) {cov : Covariates} {Ω : Type} [MeasurableSpace Ω] {P : Measure Ω} {Y : Ω → Nat → String → ℝ}
    (hY : ∀ l, Measurable (fun ω => observedData l cov (Y ω))) {d : (Fin b.length → ℝ) → ℝ} (hd : Continuous d) (hpos : ∀ y, 0 < d y)
    (hl : P.map (fun ω => observedData b cov (Y ω)) = (referenceMeasure b cov).withDensity (fun y => ENNReal.ofReal (d y))) {M N : (Fin a.length → ℝ) → ℝ} (hM : Continuous M) (hN : Continuous N)
    (h : M =ᵐ[P.map (fun ω => observedData a cov (Y ω))] N) (y : Nat → String → ℝ) : M (observedData a cov y) = N (observedData a cov y) := by
  obtain ⟨T, hTc, hmp, hTo⟩ := exists_reorder ha hb hab cov
  rw [law_reorder hmp hTo (hY a) (hY b) hd hl] at h
  have hmd : Measurable (fun y => ENNReal.ofReal (d (T y))) := ENNReal.measurable_ofReal.comp (hd.measurable.comp T.measurable)
  have h := (ae_withDensity_iff hmd).mp h
  refine eq_of_ae (fun j => cov.isObserved (a.get j).1 (a.get j).2) hM hN ?_ (fun j hj => ?_)
  · filter_upwards [h] with y hy
    exact hy (by rw [ne_eq, ENNReal.ofReal_eq_zero, not_le]; exact hpos _)
  · unfold observedData
    rw [hj]
    simp

end Skill
