import Verif.Props.Residuals
import Verif.Props.AnchoredExamples
/-
C123 applies to the model with anchoring of Props/AnchoredExamples.lean.
-/
namespace Skill
namespace Ex
open MeasureTheory ProbabilityTheory Spec

/-- C123 applies to the example: the residuals of the third individual in the second period. The first measurement is missing. -/
theorem C123_example (custom : String → CustomFn) (nan : ℝ) : ∃ (qr : QR) (params : List (Loc × ℝ)) (inputs : MaximizationInputs) (out : DebugData) (updates : List (Nat × String)) (j1 j2 : Fin updates.length)
    (residual : (Fin updates.length → ℝ) → ℝ) (sd : ℝ) (Ω : Type) (_ : MeasurableSpace Ω) (P : Measure Ω) (E : Ω → Fin 1) (Z : Noise → Ω → ℝ), ValidQR qr ∧ getMaximizationInputs anchoredModel anchoredData = .ok inputs ∧
      inputs.debugLoglike qr custom nan anchoredModel params = .ok out ∧ updates.length = 8 ∧ updates.get j1 = (1, "y1") ∧ updates.get j2 = (1, "y2") ∧ 0 < sd ∧ RandomNoise P linearValues E Z ∧
      (let data := fun ω => observedData updates (linearCovariates.only (fun s v => IsMeasurement anchoredModel s v)) (measurementValue anchoredModel linearValues linearCovariates (E ω) (fun a => Z a ω))
       P.map (fun ω => residual (data ω) / sd) = gaussianReal 0 1) ∧
      out.residuals[j1.val * 3 + 2]? = some ⟨none, 0, 1, 2, "y1"⟩ ∧
      out.residuals[j2.val * 3 + 2]? = some ⟨some (residual (observedData updates (linearCovariates.only (fun s v => IsMeasurement anchoredModel s v)) (fun t _ => 3 + 10 * (t + 1)))), 0, 1, 2, "y2"⟩ ∧
      out.residualSds[j2.val * 3 + 2]? = some ⟨some sd, 0, 1, 2, "y2"⟩ := by
  obtain ⟨qr, hqr⟩ := validQR
  obtain ⟨pm, hpm, hper, hupd⟩ := anchoredModel_ok
  obtain ⟨Ω, hΩ, P, E, Z, hP, hZ⟩ := exists_randomNoise (k := 1) (val := linearValues) (by intro e _; simp [linearValues]) (by simp [linearValues])
  let params : List (Loc × ℝ) := pm.paramsIndex.map (fun l => (l, linearValues l))
  have hfst : params.map Prod.fst = pm.paramsIndex := by
    simp only [params, List.map_map]
    exact List.map_id _
  have hnodup : (params.map Prod.fst).Nodup := by
    rw [hfst]
    exact C06_index_unique_partial hpm anchoredModel_names
  have hvals : ∀ l x, (l, x) ∈ params → x = linearValues l := by
    intro l x h
    obtain ⟨l', _, h⟩ := List.mem_map.mp h
    rw [Prod.mk.injEq] at h
    rw [← h.1, ← h.2]
  obtain ⟨out, hout, _⟩ := C86_get_filtered_states qr hpm anchoredModel_names anchoredModel_clean anchoredModel_order anchoredModel_clash (fun f hf => (anchoredModel_safe f hf).1) (fun f hf => (anchoredModel_safe f hf).2)
    anchoredModel_linear.periods (fun t ht => by
      obtain ⟨v, f, h⟩ := anchoredModel_linear.measured t ht
      exact ⟨v, f, h, fun ⟨g, hg⟩ => anchoredModel_clean.notMeasured v g t f hg h⟩)
    anchoredModel_linear.mixture (Or.inl rfl) anchoredData_index.1 anchoredData_index.2.1 anchoredData_ids.1 anchoredData_ids.2 anchoredData_ok custom nan hnodup
    (fun l hl => by rw [hfst]; exact (mem_paramsIndex_iff hpm l).mpr hl) hvals (anchoredModel_usable custom _)
  unfold getFilteredStates at hout
  simp only [py_bind_ok, py_pure_ok] at hout
  obtain ⟨inputs, hin, params', hloc, debug, hdebug, -⟩ := hout
  obtain ⟨hl1, hl2⟩ := locParams_ok hnodup hloc
  have hin' := hin
  unfold getMaximizationInputs at hin'
  simp only [py_bind_ok, py_pure_ok] at hin'
  obtain ⟨pm', hpm', _, _, _, _, _, _, hinp⟩ := hin'
  obtain rfl := Except.ok.inj (hpm.symm.trans hpm')
  have hn' : (params'.map Prod.fst).Nodup := by
    rw [hl1, ← hinp]
    simpa [Processed.paramsTemplate, addBounds, Function.comp_def] using C06_index_unique_partial hpm anchoredModel_names
  obtain ⟨updates, hen, _, residual, sd, hsd, _, hlaw, hrows⟩ := C123_residuals hqr hpm anchoredModel_linear anchoredModel_names (by rintro o x ⟨⟩ ⟨⟩) anchoredValues_proper custom nan
  obtain ⟨_, _, hrow⟩ := hrows anchoredData [1, 2, 3] [10, 20] params' inputs debug anchoredData_index.1 anchoredData_index.2.1 anchoredData_ids.1 anchoredData_ids.2 hn' (fun l x h => hvals l x (hl2 _ h)) hin hdebug
  have hlen : updates.length = 8 := by
    obtain ⟨hu1, hu2, _⟩ := C01_update_info_exact hpm
    have hperm : updates.Perm (pm.updateInfo.map (fun r => (r.period, r.var))) := by
      refine (List.perm_ext_iff_of_nodup hen.nodup hu1).mpr ?_
      rintro ⟨t, v⟩
      rw [hen.all, ← hu2]
      simp [List.mem_map]
    rw [hperm.length_eq, hupd]
    rfl
  have hmeas : ∀ v ∈ ["y1", "y2"], IsMeasurement anchoredModel 1 v ∧ ∃ j, updates.get j = (1, v) := by
    intro v hv
    have hup : IsUpdate anchoredModel 1 v := (anchoredModel_update 1 v).mpr ⟨by norm_num, by
      simp only [List.mem_cons, List.not_mem_nil, or_false] at hv ⊢
      rcases hv with rfl | rfl <;> simp⟩
    refine ⟨?_, List.mem_iff_get.mp ((hen.all 1 v).mpr hup)⟩
    rcases hup with h | ⟨_, f, hf⟩
    · exact h
    · obtain ⟨_, rfl⟩ := (anchoredModel_anchors v f).mp hf
      simp at hv
  obtain ⟨m1, j1, h1⟩ := hmeas "y1" (by simp)
  obtain ⟨m2, j2, h2⟩ := hmeas "y2" (by simp)
  have r1 := hrow j1 2 linearCovariates _ (by simp) anchoredData_describes (by rw [h1]; exact m1)
  have r2 := hrow j2 2 linearCovariates _ (by simp) anchoredData_describes (by rw [h2]; exact m2)
  dsimp only at r1 r2
  rw [h1] at r1
  rw [h2] at r2
  have o1 : linearCovariates.isObserved 1 "y1" = false := by simp [linearCovariates]
  have o2 : linearCovariates.isObserved 1 "y2" = true := by simp [linearCovariates]
  simp only [o1, o2, if_true, Bool.false_eq_true, if_false] at r1 r2
  refine ⟨qr, params', inputs, debug, updates, j1, j2, fun y => residual linearCovariates y j2, sd linearCovariates j2, Ω, hΩ, P, E, Z, hqr, hin, hdebug, hlen, h1, h2, hsd _ _, hZ, ?_, r1.1, r2.1, r2.2⟩
  exact (hlaw linearCovariates P E Z hZ).2.1 j2 (by dsimp only; rw [h2]; exact ⟨m2, o2⟩)

end Ex
end Skill
