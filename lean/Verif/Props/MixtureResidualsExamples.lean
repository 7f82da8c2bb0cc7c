import Verif.Props.MixtureResiduals
import Verif.Props.PostUpdateStatesExamples
/-
C128 applies to a model with two mixture elements.
-/
namespace Skill
namespace Ex
open MeasureTheory ProbabilityTheory Spec

/-- C128 applies to the example: the residuals of the third individual in the second period, for both mixture elements. The first measurement is missing. -/
theorem C128_example (custom : String → CustomFn) (nan : ℝ) : ∃ (qr : QR) (params : List (Loc × ℝ)) (inputs : MaximizationInputs) (out : DebugData) (updates : List (Nat × String)) (j1 j2 : Fin updates.length)
    (residual : Fin 2 → (Fin updates.length → ℝ) → ℝ) (sd : Fin 2 → ℝ) (Ω : Type) (_ : MeasurableSpace Ω) (P : Measure Ω) (_ : IsProbabilityMeasure P) (E : Ω → Fin 2) (Z : Noise → Ω → ℝ), ValidQR qr ∧
      getMaximizationInputs plainModel linearData = .ok inputs ∧ inputs.debugLoglike qr custom nan plainModel params = .ok out ∧ updates.length = 6 ∧ updates.get j1 = (1, "y1") ∧ updates.get j2 = (1, "y2") ∧ RandomNoise P cesValues E Z ∧
      ∀ e, P {ω | E ω = e} ≠ 0 ∧ 0 < sd e ∧
        (let data := fun ω => observedData updates (linearCovariates.only (fun s v => IsMeasurement plainModel s v)) (measurementValue plainModel cesValues linearCovariates (E ω) (fun a => Z a ω))
         (cond P {ω | E ω = e}).map (fun ω => residual e (data ω) / sd e) = gaussianReal 0 1) ∧
        out.residuals[j1.val * 6 + (4 + e.val)]? = some ⟨none, e.val, 1, 4 + e.val, "y1"⟩ ∧
        out.residuals[j2.val * 6 + (4 + e.val)]? = some ⟨some (residual e (observedData updates (linearCovariates.only (fun s v => IsMeasurement plainModel s v)) (fun t _ => 3 + 10 * (t + 1)))), e.val, 1, 4 + e.val, "y2"⟩ ∧
        out.residualSds[j2.val * 6 + (4 + e.val)]? = some ⟨some (sd e), e.val, 1, 4 + e.val, "y2"⟩ := by
  obtain ⟨qr, hqr⟩ := validQR
  obtain ⟨pm, hpm, hper, hupd⟩ := plainModel_ok
  obtain ⟨Ω, hΩ, P, E, Z, hP, hZ⟩ := exists_randomNoise (k := 2) (val := cesValues) (fun e he => (plainValues_proper.positive e he).le) plainValues_proper.sum
  let params : List (Loc × ℝ) := pm.paramsIndex.map (fun l => (l, cesValues l))
  have hfst : params.map Prod.fst = pm.paramsIndex := by
    simp only [params, List.map_map]
    exact List.map_id _
  have hnodup : (params.map Prod.fst).Nodup := by
    rw [hfst]
    exact C06_index_unique_partial hpm plainModel_names
  have hvals : ∀ l x, (l, x) ∈ params → x = cesValues l := by
    intro l x h
    obtain ⟨l', _, h⟩ := List.mem_map.mp h
    rw [Prod.mk.injEq] at h
    rw [← h.1, ← h.2]
  obtain ⟨out, hout, _⟩ := C86_get_filtered_states qr hpm plainModel_names plainModel_linear.anchoring.1 plainModel_linear.anchoring.2.1 plainModel_linear.anchoring.2.2 (fun f hf => plainModel_simulation.safe f hf)
    (by
      rintro f ⟨spec, hf⟩
      simp only [plainModel, List.mem_cons, Prod.mk.injEq, List.not_mem_nil, or_false] at hf
      rcases hf with ⟨rfl, _⟩ | ⟨rfl, _⟩ <;> decide)
    plainModel_linear.periods (fun t ht => by
      obtain ⟨v, f, h⟩ := plainModel_linear.measured t ht
      exact ⟨v, f, h, fun ⟨g, hg⟩ => plainModel_linear.anchoring.1.notMeasured v g t f hg h⟩)
    plainModel_linear.mixture (Or.inr ⟨two_ne_zero, rfl⟩) linearData_index.1 linearData_index.2.1 linearData_ids.1 linearData_ids.2 plainData_ok custom nan hnodup
    (fun l hl => by rw [hfst]; exact (mem_paramsIndex_iff hpm l).mpr hl) hvals (by
      intro fs hmem
      simp only [plainModel, List.mem_cons, List.not_mem_nil, or_false] at hmem
      rcases hmem with rfl | rfl
      · exact ⟨rfl, fun h => by simp at h⟩
      · exact ⟨rfl, fun h => by simp at h⟩)
  unfold getFilteredStates at hout
  simp only [py_bind_ok, py_pure_ok] at hout
  obtain ⟨inputs, hin, params', hloc, debug, hdebug, -⟩ := hout
  obtain ⟨hl1, hl2⟩ := locParams_ok hnodup hloc
  have hin' := hin
  unfold getMaximizationInputs at hin'
  simp only [py_bind_ok, py_pure_ok] at hin'
  obtain ⟨pm', hpm', _, _, _, _, _, _, hinp⟩ := hin'
  obtain rfl := Except.ok.inj (hpm.symm.trans hpm')
  have hn' : (params'.map Prod.fst).Nodup := by
    rw [hl1, ← hinp]
    simpa [Processed.paramsTemplate, addBounds, Function.comp_def] using C06_index_unique_partial hpm plainModel_names
  obtain ⟨updates, hen, _, residual, sd, hsd, _, hlaw, hrows⟩ := C128_mixture_residuals hqr hpm plainModel_linear plainModel_names (by rintro o x ⟨⟩ ⟨⟩) plainValues_proper custom nan
  obtain ⟨_, _, hrow⟩ := hrows linearData [1, 2, 3] [10, 20] params' inputs debug linearData_index.1 linearData_index.2.1 linearData_ids.1 linearData_ids.2 hn' (fun l x h => hvals l x (hl2 _ h)) hin hdebug
  have hperm : updates.Perm (pm.updateInfo.map (fun r => (r.period, r.var))) := by
    obtain ⟨hu1, hu2, _⟩ := C01_update_info_exact hpm
    refine (List.perm_ext_iff_of_nodup hen.nodup hu1).mpr ?_
    rintro ⟨t, v⟩
    rw [hen.all, ← hu2]
    simp [List.mem_map]
  have hmeas : ∀ v ∈ ["y1", "y2"], IsMeasurement plainModel 1 v ∧ ∃ j, updates.get j = (1, v) := by
    intro v hv
    have hj : ((1 : ℕ), v) ∈ updates := hperm.mem_iff.mpr (by
      rw [hupd]
      simp only [List.mem_cons, List.not_mem_nil, or_false] at hv
      rcases hv with rfl | rfl <;> simp)
    refine ⟨?_, List.mem_iff_get.mp hj⟩
    rcases (hen.all 1 v).mp hj with h | h
    · exact h
    · obtain ⟨_, f, a, ha, _⟩ := h
      obtain ⟨b, hb, _⟩ := ha
      cases hb
  obtain ⟨m1, j1, h1⟩ := hmeas "y1" (by simp)
  obtain ⟨m2, j2, h2⟩ := hmeas "y2" (by simp)
  have o1 : linearCovariates.isObserved 1 "y1" = false := by simp [linearCovariates]
  have o2 : linearCovariates.isObserved 1 "y2" = true := by simp [linearCovariates]
  refine ⟨qr, params', inputs, debug, updates, j1, j2, fun e y => residual linearCovariates e y j2, fun e => sd linearCovariates e j2, Ω, hΩ, P, hP, E, Z, hqr, hin, hdebug, by rw [hperm.length_eq, hupd]; rfl, h1, h2, hZ,
    fun e => ⟨?_, hsd _ _ _, ?_, ?_⟩⟩
  · have := hZ.element_weights e
    show P (E ⁻¹' {e}) ≠ 0
    rw [this]
    simpa using plainValues_proper.positive e e.isLt
  · exact (hlaw linearCovariates e P E Z hZ).2.1 j2 (by dsimp only; rw [h2]; exact ⟨m2, o2⟩)
  · have r1 := hrow j1 2 e linearCovariates _ (by simp) plainData_describes (by rw [h1]; exact m1)
    have r2 := hrow j2 2 e linearCovariates _ (by simp) plainData_describes (by rw [h2]; exact m2)
    dsimp only at r1 r2
    rw [h1] at r1
    rw [h2] at r2
    simp only [o1, o2, if_true, Bool.false_eq_true, if_false] at r1 r2
    exact ⟨r1.1, r2.1, r2.2⟩

end Ex
end Skill
