import Verif.Props.ParamsUpTo
import Verif.Props.SimulationUpToExamples
import Verif.Props.AnchoredExamples
/- Examples for C134. -/
namespace Skill
open Spec
namespace Ex

theorem anchored_filtered (qr : QR) (custom : String → CustomFn) (nan : ℝ) {pm : Processed ℝ} (hpm : processModel anchoredModel = .ok pm) (val : Loc → ℝ) : ∃ params out inputs debug loglike,
    (params.map Prod.fst).Nodup ∧ (∀ l x, (l, x) ∈ params → x = val l) ∧ (∀ l, IsParam anchoredModel l → (l, val l) ∈ params) ∧ getFilteredStates qr custom nan anchoredModel anchoredData params = .ok out ∧
      getMaximizationInputs anchoredModel anchoredData = .ok inputs ∧ inputs.debugLoglike qr custom nan anchoredModel params = .ok debug ∧ inputs.loglike qr custom nan anchoredModel params = .ok loglike := by
  let params : List (Loc × ℝ) := pm.paramsIndex.map (fun l => (l, val l))
  have hfst : params.map Prod.fst = pm.paramsIndex := by
    simp only [params, List.map_map]
    exact List.map_id _
  have hnodup : (params.map Prod.fst).Nodup := by
    rw [hfst]
    exact C06_index_unique_partial hpm anchoredModel_names
  have hvals : ∀ l x, (l, x) ∈ params → x = val l := by
    intro l x h
    obtain ⟨l', _, h⟩ := List.mem_map.mp h
    rw [Prod.mk.injEq] at h
    rw [← h.1, ← h.2]
  obtain ⟨out, hout, _⟩ := C86_get_filtered_states qr hpm anchoredModel_names anchoredModel_clean anchoredModel_order anchoredModel_clash (fun f hf => (anchoredModel_safe f hf).1) (fun f hf => (anchoredModel_safe f hf).2)
    anchoredModel_linear.periods (fun t ht => by
      obtain ⟨v, f, h⟩ := anchoredModel_linear.measured t ht
      exact ⟨v, f, h, fun ⟨g, hg⟩ => anchoredModel_clean.notMeasured v g t f hg h⟩)
    anchoredModel_linear.mixture (Or.inl rfl) anchoredData_index.1 anchoredData_index.2.1 anchoredData_ids.1 anchoredData_ids.2 anchoredData_ok custom nan hnodup
    (fun l hl => by rw [hfst]; exact (mem_paramsIndex_iff hpm l).mpr hl) hvals (anchoredModel_usable custom _)
  obtain ⟨inputs, updates, hin, _, hlog⟩ := C70_likelihood_evaluates qr hpm anchoredModel_names anchoredModel_clean anchoredModel_order anchoredModel_clash (fun f hf => (anchoredModel_safe f hf).1)
    anchoredModel_linear.periods anchoredModel_linear.mixture (Or.inl rfl) anchoredData_index.1 anchoredData_index.2.1 anchoredData_ids.1 anchoredData_ids.2 anchoredData_ok
  have hix : inputs.index = pm.paramsIndex ∧ inputs.template.map Prod.fst = pm.paramsIndex := by
    have h := hin
    unfold getMaximizationInputs at h
    simp only [py_bind_ok, py_pure_ok] at h
    obtain ⟨pm', hpm', _, _, _, _, _, _, rfl⟩ := h
    obtain rfl := Except.ok.inj (hpm.symm.trans hpm')
    refine ⟨rfl, ?_⟩
    simp [Processed.paramsTemplate, addBounds, Function.comp_def]
  obtain ⟨ll, hll, _⟩ := hlog custom nan params val hnodup (fun l => by rw [hfst, hix.1]) hvals (anchoredModel_usable custom _)
  have hout' := hout
  unfold getFilteredStates at hout'
  simp only [py_bind_ok, py_pure_ok] at hout'
  obtain ⟨inputs', hin', par, hpar, d, hdeb, _⟩ := hout'
  obtain rfl := Except.ok.inj (hin.symm.trans hin')
  have hpp : par = params := by
    obtain ⟨k1, k2⟩ := locParams_ok hnodup hpar
    rw [hix.2] at k1
    refine List.ext_getElem? (fun k => ?_)
    have e := congrArg (fun l => l[k]?) k1
    rw [List.getElem?_map] at e
    simp only [params, List.getElem?_map]
    rw [← e]
    cases hk : par[k]? with
    | none => rfl
    | some lx =>
      have := hvals lx.1 lx.2 (k2 _ (List.mem_of_getElem? hk))
      simp only [Option.map_some]
      rw [← this]
  rw [hpp] at hdeb
  exact ⟨params, out, inputs, d, ll, hnodup, hvals, fun l hl => List.mem_map.mpr ⟨l, (mem_paramsIndex_iff hpm l).mpr hl, rfl⟩, hout, hin, hdeb, hll⟩

theorem laterValues_same (l : Loc) (h : ParamUpTo 0 l) : linearValues l = laterValues l := by
  have : l.period ≠ 1 := by have := h.1; omega
  simp [laterValues, this]

/-- C134 is not vacuous: the parameters of the second period have other values. The contributions and the filtered states of the first period are the same. -/
theorem C134_example (custom : String → CustomFn) (nan : ℝ) : ∃ (qr : QR) (params params' : List (Loc × ℝ)) (inputs : MaximizationInputs) (loglike loglike' : LoglikeOutput) (debug debug' : DebugData) (out out' : FilteredStates),
    params ≠ params' ∧ getMaximizationInputs anchoredModel anchoredData = .ok inputs ∧ inputs.loglike qr custom nan anchoredModel params = .ok loglike ∧ inputs.loglike qr custom nan anchoredModel params' = .ok loglike' ∧
      inputs.debugLoglike qr custom nan anchoredModel params = .ok debug ∧ inputs.debugLoglike qr custom nan anchoredModel params' = .ok debug' ∧
      getFilteredStates qr custom nan anchoredModel anchoredData params = .ok out ∧ getFilteredStates qr custom nan anchoredModel anchoredData params' = .ok out' ∧
      (∃ c, loglike.allContributions[3]? = some c ∧ loglike'.allContributions[3]? = some c) ∧
      debug.residuals.filter (fun d => decide (d.period ≤ 0)) = debug'.residuals.filter (fun d => decide (d.period ≤ 0)) ∧
      out.anchored.states.rows.filter (fun r => decide (r.1 ≤ 0)) = out'.anchored.states.rows.filter (fun r => decide (r.1 ≤ 0)) := by
  obtain ⟨qr, _⟩ := validQR
  obtain ⟨pm, hpm, hper, hupd⟩ := anchoredModel_ok
  obtain ⟨params, out, inputs, debug, ll, hn, hval, hmem, h1, hin, h2, h3⟩ := anchored_filtered qr custom nan hpm linearValues
  obtain ⟨params', out', inputs', debug', ll', hn', hval', hmem', h1', hin', h2', h3'⟩ := anchored_filtered qr custom nan hpm laterValues
  obtain rfl := Except.ok.inj (hin.symm.trans hin')
  have hsame : ∀ l x x', ParamUpTo 0 l → (l, x) ∈ params → (l, x') ∈ params' → x = x' := fun l x x' hl hx hx' => by rw [hval l x hx, hval' l x' hx', laterValues_same l hl]
  have hmeas : ∀ t, IsPeriod anchoredModel t → ∃ v f, Measures anchoredModel t v f ∧ ¬ ∃ g, Anchors anchoredModel v g := fun t ht => by
    obtain ⟨v, f, h⟩ := anchoredModel_linear.measured t ht
    exact ⟨v, f, h, fun ⟨g, hg⟩ => anchoredModel_clean.notMeasured v g t f hg h⟩
  obtain ⟨v, f, hv, _⟩ := hmeas 1 anchoredModel_linear.periods
  refine ⟨qr, params, params', inputs, ll, ll', debug, debug', out, out', ?_, hin, h3, h3', h2, h2', h1, h1', ?_, ?_, ?_⟩
  · rintro rfl
    have hl : IsParam anchoredModel ⟨.measSds, 1, v, "-"⟩ := .measSd (Or.inl ⟨f, hv⟩)
    have := hval' _ _ (hmem _ hl)
    simp [laterValues] at this
  · have e := congrArg (fun l => l[3]?) hupd
    rw [List.getElem?_map] at e
    cases hrow : pm.updateInfo[3]? with
    | none => rw [hrow] at e; cases e
    | some row =>
      rw [hrow] at e
      have hper0 : row.period = 0 := congrArg Prod.fst (Option.some.inj e)
      exact C134_contributions hpm anchoredModel_names anchoredModel_clean anchoredModel_order hin hn hn' hsame h3 h3' 3 row hrow hper0.le
  · exact (C134_debug anchoredModel_names anchoredModel_clean anchoredModel_order hin hn hn' hsame h2 h2').2.1
  · refine (C134_filtered_states anchoredModel_names anchoredModel_clean anchoredModel_order (fun f hf => (anchoredModel_safe f hf).1) anchoredModel_linear.periods ?_ hmeas hn hn' hsame h1 h1').2
    intro h0
    have e1 := (hasNMixtures_of_ok hpm 0).mp h0
    have e2 := (hasNMixtures_of_ok hpm 1).mp anchoredModel_linear.mixture
    omega

end Ex
end Skill
