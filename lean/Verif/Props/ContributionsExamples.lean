import Verif.Props.Contributions
import Verif.Props.AnchoredExamples
/-
C126 applies to the model with anchoring of Props/AnchoredExamples.lean.
-/
namespace Skill
namespace Ex
open MeasureTheory ProbabilityTheory Spec

/-- C126 applies to the example: the contributions of the third individual in the second period. The first measurement is missing, the second one is observed, the variable q is an anchoring outcome. -/
theorem C126_example (custom : String → CustomFn) (nan : ℝ) : ∃ (qr : QR) (params : List (Loc × ℝ)) (inputs : MaximizationInputs) (out : DebugData) (updates : List (Nat × String)) (j1 j2 j3 : Fin updates.length)
    (density : (Fin updates.length → ℝ) → Fin updates.length → ℝ) (Ω : Type) (_ : MeasurableSpace Ω) (P : Measure Ω) (_ : IsProbabilityMeasure P) (E : Ω → Fin 1) (Z : Noise → Ω → ℝ), ValidQR qr ∧ getMaximizationInputs anchoredModel anchoredData = .ok inputs ∧
      inputs.debugLoglike qr custom nan anchoredModel params = .ok out ∧ updates.length = 8 ∧ updates.get j1 = (1, "y1") ∧ updates.get j2 = (1, "y2") ∧ updates.get j3 = (1, "q_a") ∧ RandomNoise P linearValues E Z ∧
      (∀ v j, (v = "y2" ∧ j = j2) ∨ (v = "q_a" ∧ j = j3) →
        let past := fun ω => observedData updates (linearCovariates.only (EarlierMeasurement anchoredModel updates j)) (measurementValue anchoredModel linearValues linearCovariates (E ω) (fun a => Z a ω))
        (∀ B, MeasurableSet B → P⟦(fun ω => measurementValue anchoredModel linearValues linearCovariates (E ω) (fun a => Z a ω) 1 v) ⁻¹' B | MeasurableSpace.comap past inferInstance⟧ =ᵐ[P]
          fun ω => ∫ x in B, density (Function.update (past ω) j x) j) ∧
        out.allContributions[j.val * 3 + 2]? = some ⟨Real.log (density (observedData updates linearCovariates (fun t _ => 3 + 10 * (t + 1))) j), v, 1, 2⟩) ∧
      out.allContributions[j1.val * 3 + 2]? = some ⟨0, "y1", 1, 2⟩ := by
  obtain ⟨qr, hqr⟩ := validQR
  obtain ⟨pm, hpm, hper, hupd⟩ := anchoredModel_ok
  obtain ⟨Ω, hΩ, P, E, Z, hP, hZ⟩ := exists_randomNoise (k := 1) (val := linearValues) (by intro e _; simp [linearValues]) (by simp [linearValues])
  let params : List (Loc × ℝ) := pm.paramsIndex.map (fun l => (l, linearValues l))
  have hfst : params.map Prod.fst = pm.paramsIndex := by
    simp only [params, List.map_map]
    exact List.map_id _
  have hnodup : (params.map Prod.fst).Nodup := by
    rw [hfst]
    exact C06_index_unique_partial hpm anchoredModel_names
  have hvals : ∀ l x, (l, x) ∈ params → x = linearValues l := by
    intro l x h
    obtain ⟨l', _, h⟩ := List.mem_map.mp h
    rw [Prod.mk.injEq] at h
    rw [← h.1, ← h.2]
  obtain ⟨out, hout, _⟩ := C86_get_filtered_states qr hpm anchoredModel_names anchoredModel_clean anchoredModel_order anchoredModel_clash (fun f hf => (anchoredModel_safe f hf).1) (fun f hf => (anchoredModel_safe f hf).2)
    anchoredModel_linear.periods (fun t ht => by
      obtain ⟨v, f, h⟩ := anchoredModel_linear.measured t ht
      exact ⟨v, f, h, fun ⟨g, hg⟩ => anchoredModel_clean.notMeasured v g t f hg h⟩)
    anchoredModel_linear.mixture (Or.inl rfl) anchoredData_index.1 anchoredData_index.2.1 anchoredData_ids.1 anchoredData_ids.2 anchoredData_ok custom nan hnodup
    (fun l hl => by rw [hfst]; exact (mem_paramsIndex_iff hpm l).mpr hl) hvals (anchoredModel_usable custom _)
  unfold getFilteredStates at hout
  simp only [py_bind_ok, py_pure_ok] at hout
  obtain ⟨inputs, hin, params', hloc, debug, hdebug, -⟩ := hout
  obtain ⟨hl1, hl2⟩ := locParams_ok hnodup hloc
  have hin' := hin
  unfold getMaximizationInputs at hin'
  simp only [py_bind_ok, py_pure_ok] at hin'
  obtain ⟨pm', hpm', _, _, _, _, _, _, hinp⟩ := hin'
  obtain rfl := Except.ok.inj (hpm.symm.trans hpm')
  have hn' : (params'.map Prod.fst).Nodup := by
    rw [hl1, ← hinp]
    simpa [Processed.paramsTemplate, addBounds, Function.comp_def] using C06_index_unique_partial hpm anchoredModel_names
  obtain ⟨updates, hen, _, density, _, _, _, hlaw, hrows⟩ := C126_contributions hqr anchoredModel_linear (Or.inr rfl) anchoredModel_names (by rintro o x ⟨⟩ ⟨⟩) anchoredValues_proper ⟨pm, hpm⟩ custom nan
  obtain ⟨_, hrow⟩ := hrows anchoredData [1, 2, 3] [10, 20] params' inputs debug anchoredData_index.1 anchoredData_index.2.1 anchoredData_ids.1 anchoredData_ids.2 hn' (fun l x h => hvals l x (hl2 _ h)) hin hdebug
  have hlen : updates.length = 8 := by
    obtain ⟨hu1, hu2, _⟩ := C01_update_info_exact hpm
    have hperm : updates.Perm (pm.updateInfo.map (fun r => (r.period, r.var))) := by
      refine (List.perm_ext_iff_of_nodup hen.nodup hu1).mpr ?_
      rintro ⟨t, v⟩
      rw [hen.all, ← hu2]
      simp [List.mem_map]
    rw [hperm.length_eq, hupd]
    rfl
  have hmem : ∀ v ∈ ["y1", "y2", "q_a"], ∃ j, updates.get j = (1, v) := by
    intro v hv
    refine List.mem_iff_get.mp ((hen.all 1 v).mpr ((anchoredModel_update 1 v).mpr ⟨by norm_num, ?_⟩))
    simp only [List.mem_cons, List.not_mem_nil, or_false] at hv ⊢
    rcases hv with rfl | rfl | rfl <;> simp
  obtain ⟨j1, h1⟩ := hmem "y1" (by simp)
  obtain ⟨j2, h2⟩ := hmem "y2" (by simp)
  obtain ⟨j3, h3⟩ := hmem "q_a" (by simp)
  have r1 := hrow j1 2 linearCovariates _ (by simp) anchoredData_describes
  rw [h1] at r1
  have o1 : linearCovariates.isObserved 1 "y1" = false := by simp [linearCovariates]
  simp only [o1, Bool.false_eq_true, if_false] at r1
  have key : ∀ v j, linearCovariates.isObserved 1 v = true → updates.get j = (1, v) →
        let past := fun ω => observedData updates (linearCovariates.only (EarlierMeasurement anchoredModel updates j)) (measurementValue anchoredModel linearValues linearCovariates (E ω) (fun a => Z a ω))
        (∀ B, MeasurableSet B → P⟦(fun ω => measurementValue anchoredModel linearValues linearCovariates (E ω) (fun a => Z a ω) 1 v) ⁻¹' B | MeasurableSpace.comap past inferInstance⟧ =ᵐ[P]
          fun ω => ∫ x in B, density linearCovariates (Function.update (past ω) j x) j) ∧
        debug.allContributions[j.val * 3 + 2]? = some ⟨Real.log (density linearCovariates (observedData updates linearCovariates (fun t _ => 3 + 10 * (t + 1))) j), v, 1, 2⟩ := by
    intro v j o hj past
    have r2 := hrow j 2 linearCovariates _ (by simp) anchoredData_describes
    have l2 := hlaw linearCovariates P E Z hZ j (by rw [hj]; exact o)
    rw [hj] at r2
    simp only [o, if_true] at r2
    refine ⟨fun B hB => ?_, r2⟩
    have := l2 B hB
    simp only [hj] at this
    exact this
  refine ⟨qr, params', inputs, debug, updates, j1, j2, j3, density linearCovariates, Ω, hΩ, P, hP, E, Z, hqr, hin, hdebug, hlen, h1, h2, h3, hZ, ?_, r1⟩
  rintro v j (⟨rfl, rfl⟩ | ⟨rfl, rfl⟩)
  · exact key _ _ (by simp [linearCovariates]) h2
  · exact key _ _ (by simp [linearCovariates]) h3

end Ex
end Skill
