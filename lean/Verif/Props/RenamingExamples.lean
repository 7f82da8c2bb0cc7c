import Verif.Props.Renaming
import Verif.Props.SequentialLikelihoodExamples
/-
A concrete case for C111.
-/
namespace Skill
open Spec
namespace Ex

/-- Other names for a factor, an outcome, the variable of its anchoring equation, a measurement, a control and an observed factor. Two measurements exchange their names. -/
def otherNames : Equiv.Perm String :=
  Equiv.swap "a" "skills" * (Equiv.swap "q" "earnings" * (Equiv.swap "q_a" "earnings_skills" * (Equiv.swap "y1" "y2" * (Equiv.swap "x" "age" * Equiv.swap "o" "income"))))

theorem otherNames_values : otherNames "a" = "skills" ∧ otherNames "b" = "b" ∧ otherNames "q" = "earnings" ∧ otherNames "q_a" = "earnings_skills" ∧ otherNames "y1" = "y2" ∧ otherNames "y2" = "y1" ∧ otherNames "w" = "w" ∧
    otherNames "x" = "age" ∧ otherNames "o" = "income" ∧ otherNames "constant" = "constant" := by
  unfold otherNames
  decide +kernel

/-- The model with other names. -/
noncomputable def otherNamesModel : ModelDict ℝ where
  factors := [("skills", { measurements := [["y2", "y1"], ["y2", "y1"]], transition := .named "log_ces" }), ("b", { measurements := [["w"], ["w"]], transition := .custom (some "user_function") (some ["p"]) })]
  observedFactors := some ["income"]
  controls := some ["age"]
  anchoring := some { outcomes := some [("skills", "earnings")], freeConstant := some true, freeLoadings := some true }
  estimationOptions := some { clippingLowerBound := some none }

theorem otherNamesModel_eq : renameModel otherNames nonlinearModel = otherNamesModel := by
  obtain ⟨h1, h2, h3, h4, h5, h6, h7, h8, h9, h10⟩ := otherNames_values
  simp [renameModel, otherNamesModel, nonlinearModel, anchoredModel, linearModel, renameFactor, h1, h2, h3, h5, h6, h7, h8, h9]

theorem otherNames_reserved : KeepsReserved otherNames nonlinearModel := by
  obtain ⟨h1, h2, h3, h4, h5, h6, h7, h8, h9, h10⟩ := otherNames_values
  refine ⟨h10, fun f o h => ?_⟩
  obtain ⟨rfl, rfl⟩ := (nonlinearModel_anchoredIn f o).mp h
  rw [h1, h3]
  exact h4

theorem otherNamesModel_names : GoodNames otherNamesModel where
  keys := ⟨by decide, by rintro a os ⟨⟩ ⟨⟩; decide⟩
  distinct := by decide
  controls := by decide
  chars := by decide
  reserved := by decide
  registered := by
    intro f spec fn ps hmem hs
    simp only [otherNamesModel, List.mem_cons, Prod.mk.injEq, List.not_mem_nil, or_false] at hmem
    rcases hmem with ⟨rfl, rfl⟩ | ⟨rfl, rfl⟩ <;> simp at hs
    obtain ⟨rfl, rfl⟩ := hs
    decide

/-- C111 applies to a model with a CES function, a custom function, anchoring, a control and an observed factor: both likelihood functions can be evaluated and return the same. -/
theorem C111_example (nan : ℝ) : ∃ (qr : QR) (inputs inputs' : MaximizationInputs) (values : List ℝ) (out : LoglikeOutput), getMaximizationInputs nonlinearModel anchoredData = .ok inputs ∧
    getMaximizationInputs otherNamesModel (renameData otherNames anchoredData) = .ok inputs' ∧ (⟨.loadings, 0, "y1", "a"⟩ : Loc) ∈ inputs.index ∧ (⟨.loadings, 0, "y2", "skills"⟩ : Loc) ∈ inputs'.index ∧
      inputs.loglike qr userFunction nan nonlinearModel (inputs.index.zip values) = .ok out ∧
      inputs'.loglike qr (renameCustom otherNames userFunction) nan otherNamesModel (inputs'.index.zip values) = .ok out := by
  obtain ⟨qr, hqr⟩ := validQR
  obtain ⟨pm, hpm, _, hupd⟩ := nonlinearModel_ok
  have hper : IsPeriod nonlinearModel 1 := (nonlinearModel_period 1).mpr (by norm_num)
  have hmix : HasNMixtures nonlinearModel 1 := ⟨_, rfl, Or.inr ⟨rfl, rfl⟩⟩
  obtain ⟨inputs, updates0, hin, hen0, hout⟩ := C70_likelihood_evaluates qr hpm nonlinearModel_names nonlinearModel_clean nonlinearModel_order nonlinearModel_clash (fun f hf => (nonlinearModel_safe f hf).1)
    hper hmix (Or.inl rfl) anchoredData_index.1 anchoredData_index.2.1 anchoredData_ids.1 anchoredData_ids.2 nonlinearData_ok
  have hixeq : inputs.index = pm.paramsIndex := by
    have h := hin
    unfold getMaximizationInputs at h
    simp only [py_bind_ok, py_pure_ok] at h
    obtain ⟨pm', hpm', _, _, _, _, _, _, rfl⟩ := h
    obtain rfl := Except.ok.inj (hpm.symm.trans hpm')
    rfl
  have hix : inputs.index.Nodup := by rw [hixeq]; exact C06_index_unique_partial hpm nonlinearModel_names
  have hzip : inputs.index.zip (inputs.index.map linearValues) = inputs.index.map (fun l => (l, linearValues l)) := by
    rw [List.zip, List.zipWith_map_right, List.zipWith_self]
  have hfst : (inputs.index.zip (inputs.index.map linearValues)).map Prod.fst = inputs.index := by rw [hzip, List.map_map]; exact List.map_id _
  have hvals : ∀ l x, (l, x) ∈ inputs.index.zip (inputs.index.map linearValues) → x = linearValues l := by
    intro l x h
    rw [hzip] at h
    obtain ⟨l', _, h⟩ := List.mem_map.mp h
    rw [Prod.mk.injEq] at h
    rw [← h.1, ← h.2]
  obtain ⟨out, hout, _⟩ := hout userFunction nan (inputs.index.zip (inputs.index.map linearValues)) linearValues (by rw [hfst]; exact hix) (fun l => by rw [hfst]) hvals nonlinearModel_usable
  obtain ⟨inputs', hin', hlab, heq⟩ := C111_names otherNames otherNames_reserved nonlinearModel_names (by rw [otherNamesModel_eq]; exact otherNamesModel_names) (by
    rintro f ⟨spec, hmem⟩
    obtain ⟨h1, h2, _⟩ := otherNames_values
    simp only [nonlinearModel, List.mem_cons, Prod.mk.injEq, List.not_mem_nil, or_false] at hmem
    rcases hmem with ⟨rfl, rfl⟩ | ⟨rfl, rfl⟩
    · rw [h1]; decide
    · rw [h2]; decide) hin
  have hmem : (⟨.loadings, 0, "y1", "a"⟩ : Loc) ∈ inputs.index := by
    rw [hixeq, mem_paramsIndex_iff hpm]
    exact .loading ⟨_, List.mem_cons_self⟩ (Or.inl ⟨_, List.mem_cons_self, _, rfl, by simp⟩)
  refine ⟨qr, inputs, inputs', inputs.index.map linearValues, out, hin, by rw [← otherNamesModel_eq]; exact hin', hmem, ?_, hout, ?_⟩
  · obtain ⟨l', h1, h2⟩ := forall₂_mem hlab hmem
    cases h2
    obtain ⟨g1, _, _, _, g5, _⟩ := otherNames_values
    rwa [g1, g5] at h1
  · rw [← otherNamesModel_eq, heq qr userFunction nan _ (by simp), hout]

end Ex
end Skill
