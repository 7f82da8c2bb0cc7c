import Verif.Props.RenamedOutput
import Verif.Props.RenamingExamples
import Verif.Props.SimulateDatasetExamples
/-
Concrete cases for C112.
-/
namespace Skill
open Spec
namespace Ex

theorem otherNames_ok : RenamingOk otherNames nonlinearModel where
  reserved := otherNames_reserved
  id := by unfold otherNames; decide +kernel
  period := by unfold otherNames; decide +kernel
  names := nonlinearModel_names
  names' := by rw [otherNamesModel_eq]; exact otherNamesModel_names
  query := fun f hf => (nonlinearModel_safe f hf).1
  query' := by
    rintro f ⟨spec, hmem⟩
    obtain ⟨h1, h2, _⟩ := otherNames_values
    simp only [nonlinearModel, List.mem_cons, Prod.mk.injEq, List.not_mem_nil, or_false] at hmem
    rcases hmem with ⟨rfl, rfl⟩ | ⟨rfl, rfl⟩
    · rw [h1]; decide
    · rw [h2]; decide

theorem nonlinearModel_measured (t : ℕ) (ht : IsPeriod nonlinearModel t) : ∃ v f, Measures nonlinearModel t v f ∧ ¬∃ g, Anchors nonlinearModel v g := by
  have ht := (nonlinearModel_period t).mp ht
  rcases (nonlinearModel_update t "w").mpr ⟨ht, by simp⟩ with ⟨f, h⟩ | ⟨_, f, h⟩
  · exact ⟨"w", f, h, fun ⟨g, hg⟩ => absurd ((nonlinearModel_anchors "w" g).mp hg).2 (by decide)⟩
  · exact absurd ((nonlinearModel_anchors "w" f).mp h).2 (by decide)

/-- C112 for filtered states: get_filtered_states succeeds for the example, and the columns of the factors have the new names. -/
theorem C112_filtered_example (nan : ℝ) : ∃ (qr : QR) (inputs inputs' : MaximizationInputs) (values : List ℝ) (out : FilteredStates), getMaximizationInputs nonlinearModel anchoredData = .ok inputs ∧
    getMaximizationInputs otherNamesModel (renameData otherNames anchoredData) = .ok inputs' ∧
      getFilteredStates qr userFunction nan nonlinearModel anchoredData (inputs.index.zip values) = .ok out ∧ out.anchored.states.columns = ["a", "b", "period", "id"] ∧
      getFilteredStates qr (renameCustom otherNames userFunction) nan otherNamesModel (renameData otherNames anchoredData) (inputs'.index.zip values) = .ok (renameFiltered otherNames out) ∧
      (renameFiltered otherNames out).anchored.states.columns = ["skills", "b", "period", "id"] := by
  obtain ⟨qr, inputs, inputs', values, o, hin, hin', _⟩ := C111_example nan
  obtain ⟨pm, hpm, _, hupd⟩ := nonlinearModel_ok
  have hixeq : inputs.index = pm.paramsIndex := by
    have h := hin
    unfold getMaximizationInputs at h
    simp only [py_bind_ok, py_pure_ok] at h
    obtain ⟨pm', hpm', _, _, _, _, _, _, rfl⟩ := h
    obtain rfl := Except.ok.inj (hpm.symm.trans hpm')
    rfl
  have hix : inputs.index.Nodup := by rw [hixeq]; exact C06_index_unique_partial hpm nonlinearModel_names
  have hzip : inputs.index.zip (inputs.index.map linearValues) = inputs.index.map (fun l => (l, linearValues l)) := by
    rw [List.zip, List.zipWith_map_right, List.zipWith_self]
  have hfst : (inputs.index.zip (inputs.index.map linearValues)).map Prod.fst = inputs.index := by rw [hzip, List.map_map]; exact List.map_id _
  have hvals : ∀ l x, (l, x) ∈ inputs.index.zip (inputs.index.map linearValues) → x = linearValues l := by
    intro l x h
    rw [hzip] at h
    obtain ⟨l', _, h⟩ := List.mem_map.mp h
    rw [Prod.mk.injEq] at h
    rw [← h.1, ← h.2]
  obtain ⟨out, hout, _, hcols, _⟩ := C86_get_filtered_states qr hpm nonlinearModel_names nonlinearModel_clean nonlinearModel_order nonlinearModel_clash (fun f hf => (nonlinearModel_safe f hf).1) (fun f hf => (nonlinearModel_safe f hf).2)
    ((nonlinearModel_period 1).mpr (by norm_num)) nonlinearModel_measured ⟨_, rfl, Or.inr ⟨rfl, rfl⟩⟩ (Or.inl rfl) anchoredData_index.1 anchoredData_index.2.1 anchoredData_ids.1 anchoredData_ids.2 nonlinearData_ok userFunction nan
    (by rw [hfst]; exact hix) (fun l hl => by rw [hfst, hixeq]; exact (mem_paramsIndex_iff hpm l).mpr hl) hvals nonlinearModel_usable
  refine ⟨qr, inputs, inputs', inputs.index.map linearValues, out, hin, hin', hout, hcols, ?_, ?_⟩
  · rw [← otherNamesModel_eq] at hin' ⊢
    rw [C112_filtered otherNames_ok hin hin' qr userFunction nan (by simp), hout]
    rfl
  · show out.anchored.states.columns.map otherNames = _
    rw [hcols]
    obtain ⟨h1, h2, _⟩ := otherNames_values
    show ["a", "b", "period", "id"].map otherNames = _
    simp [h1, h2, otherNames_ok.id, otherNames_ok.period]

/-- The linear model with other names. -/
noncomputable def otherLinearModel : ModelDict ℝ where
  factors := [("skills", { measurements := [["y2", "y1"], ["y2", "y1"]], transition := .named "linear" }), ("b", { measurements := [["w"], ["w"]], transition := .named "constant" })]
  observedFactors := some ["income"]
  controls := some ["age"]
  estimationOptions := some { clippingLowerBound := some none }

theorem otherLinearModel_eq : renameModel otherNames linearModel = otherLinearModel := by
  obtain ⟨h1, h2, h3, h4, h5, h6, h7, h8, h9, h10⟩ := otherNames_values
  simp [renameModel, otherLinearModel, linearModel, renameFactor, h1, h2, h5, h6, h7, h8, h9]

theorem otherLinearModel_names : GoodNames otherLinearModel where
  keys := ⟨by decide, by rintro a os ⟨⟩⟩
  distinct := by decide
  controls := by decide
  chars := by decide
  reserved := by decide
  registered := by
    intro f spec fn ps hmem hs
    simp only [otherLinearModel, List.mem_cons, Prod.mk.injEq, List.not_mem_nil, or_false] at hmem
    rcases hmem with ⟨rfl, rfl⟩ | ⟨rfl, rfl⟩ <;> simp at hs

theorem otherNames_linear : RenamingOk otherNames linearModel where
  reserved := ⟨otherNames_reserved.constant, by rintro f o ⟨a, h, _⟩; cases h⟩
  id := otherNames_ok.id
  period := otherNames_ok.period
  names := linearModel_names
  names' := by rw [otherLinearModel_eq]; exact otherLinearModel_names
  query := linearModel_simulation.safe
  query' := by
    rintro f ⟨spec, hmem⟩
    obtain ⟨h1, h2, _⟩ := otherNames_values
    simp only [linearModel, List.mem_cons, Prod.mk.injEq, List.not_mem_nil, or_false] at hmem
    rcases hmem with ⟨rfl, rfl⟩ | ⟨rfl, rfl⟩
    · rw [h1]; decide
    · rw [h2]; decide

/-- C112 for simulated data: simulate_dataset succeeds for the example, with data and a policy for the renamed factor. -/
theorem C112_simulated_example (root : NormalRoot) (nan : ℝ) (draws : DatasetDraws) : ∃ (pm pm' : Processed ℝ) (values : List ℝ) (out : SimulatedDataset), processModel linearModel = .ok pm ∧ processModel otherLinearModel = .ok pm' ∧
    simulateDataset root (fun _ => default) nan linearModel (pm.paramsIndex.zip values) none (some linearData) linearPolicies draws = .ok out ∧
    simulateDataset root (renameCustom otherNames (fun _ => default)) nan otherLinearModel (pm'.paramsIndex.zip values) none (some (renameData otherNames linearData))
      [{ period := 0, factor := "skills", effectSize := 1, standardDeviation := 1 / 2 }] draws = .ok (renameSimulated otherNames out) := by
  obtain ⟨pm, hpm, _⟩ := linearModel_ok
  obtain ⟨pm', hpm'⟩ := accepted_rename otherNames hpm
  have hlen : (pm.paramsIndex.map linearValues).length = pm.paramsIndex.length := by simp
  have hzip : pm.paramsIndex.zip (pm.paramsIndex.map linearValues) = pm.paramsIndex.map (fun l => (l, linearValues l)) := by
    rw [List.zip, List.zipWith_map_right, List.zipWith_self]
  have hparams : HasParams linearModel (pm.paramsIndex.zip (pm.paramsIndex.map linearValues)) linearValues := by
    rw [hzip]
    refine ⟨?_, fun l hl => List.mem_map.mpr ⟨l, (mem_paramsIndex_iff hpm l).mpr hl, rfl⟩⟩
    rw [List.map_map]
    simpa [Function.comp_def] using C06_index_unique_partial hpm linearModel_names
  obtain ⟨_, out, _, hout⟩ := C90_simulated_dataset root hpm linearModel_simulation (fun _ => default) nan (linearPolicies_values _) hparams (linearData_individuals none) (by norm_num) (draws := draws) (fun h => absurd rfl h)
  have hout := hout _ none hparams (linearData_individuals none)
  refine ⟨pm, pm', pm.paramsIndex.map linearValues, out, hpm, by rw [← otherLinearModel_eq]; exact hpm', hout, ?_⟩
  have h := C112_simulated otherNames_linear hpm hpm' root (fun _ => default) nan hlen none (some linearData) linearPolicies draws
  rw [hout, otherLinearModel_eq] at h
  have hp : linearPolicies.map (renamePolicy otherNames) = [{ period := 0, factor := "skills", effectSize := 1, standardDeviation := 1 / 2 }] := by
    simp [linearPolicies, renamePolicy, otherNames_values.1]
  rw [hp] at h
  exact h

end Ex
end Skill
