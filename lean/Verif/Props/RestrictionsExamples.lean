import Verif.Props.Restrictions
import Verif.Props.ConstrainedEstimationExamples

/-! Examples for C130. -/

namespace Skill
open Matrix MeasureTheory ProbabilityTheory Spec
namespace Ex

/-- The model with two linear factors, without normalizations. -/
noncomputable abbrev looseModel : ModelDict ℝ := withoutRestrictions feasModel

theorem looseModel_ok : ∃ pm, processModel looseModel = .ok pm := by
  have h : (processModel looseModel >>= fun pm => pure pm.dimensions.nPeriods) = (.ok 2 : Py _) := by decide +kernel
  obtain ⟨pm, hpm, _⟩ := py_bind_ok.mp h
  exact ⟨pm, hpm⟩

theorem looseModel_same : SameUpToRestrictions looseModel feasModel := rfl

theorem looseModel_factor {f : String} {spec : FactorSpec ℝ} (h : (f, spec) ∈ looseModel.factors) : spec.normalizations = none ∧ spec.transition = .named "linear" := by
  simp only [looseModel, withoutRestrictions, feasModel, identModelWith, List.map_cons, List.map_nil, List.mem_cons, Prod.mk.injEq, List.not_mem_nil, or_false] at h
  rcases h with ⟨_, rfl⟩ | ⟨_, rfl⟩ <;> exact ⟨rfl, rfl⟩

theorem looseModel_estimable : Estimable looseModel where
  names := { keys := ⟨by decide, by rintro a os ⟨⟩⟩, distinct := by decide, controls := by decide, chars := by decide, reserved := by decide
             registered := by
               intro f spec fn ps hmem hs
               rw [(looseModel_factor hmem).2] at hs
               cases hs }
  anchored v f h := by obtain ⟨o, ⟨a, ⟨⟩, _⟩, _⟩ := h
  mixtures k := by
    rintro ⟨o, ho, h | ⟨_, rfl⟩⟩
    · obtain rfl := Option.some.inj ho
      cases h
    · exact le_rfl
  custom f spec fn ps hmem hs := by
    rw [(looseModel_factor hmem).2] at hs
    cases hs
  transition := Or.inl ⟨"a", _, "constant", List.mem_cons_self, Or.inl ⟨rfl, Or.inr rfl⟩⟩

theorem looseModel_distance {d : ℝ} (h : BoundsDistance looseModel d) : d = 1 / 1000 := by
  obtain ⟨o, ho, ⟨h, _⟩ | ⟨_, rfl⟩⟩ := h
  · obtain rfl := Option.some.inj ho
    cases h
  · obtain rfl := Option.some.inj ho
    rfl

theorem looseModel_restrictions : HasRestrictionsOf looseModel feasModel where
  same := looseModel_same
  loadings f spec t v x hmem hn := by
    obtain ⟨ns, ls, d, h, _⟩ := hn
    rw [(looseModel_factor hmem).1] at h
    cases h
  intercepts f spec t v x hmem hn := by
    obtain ⟨ns, ls, d, h, _⟩ := hn
    rw [(looseModel_factor hmem).1] at h
    cases h
  stages p q s hp hq := by
    have : ∀ p s, StageOf looseModel p s → StageOf feasModel p s := by
      rintro p s (⟨sm, ⟨⟩, _⟩ | ⟨_, h, rfl⟩)
      exact Or.inr ⟨rfl, sameUpTo_period looseModel_same h, rfl⟩
    exact ⟨s, this p s hp, this q s hq⟩
  freeControls h := by obtain ⟨a, ⟨⟩, _⟩ := h
  freeConstant h := by obtain ⟨a, ⟨⟩, _⟩ := h
  freeLoadings h := by obtain ⟨a, ⟨⟩, _⟩ := h
  bounds d d' hd hd' := by rw [looseModel_distance hd, identWith_distance.mp hd']

/-- C130 is not vacuous: there is a dataset for which the model with and the model without normalizations can be estimated. The models have the same likelihood function. The true values are allowed in both models, and in the
model without normalizations also values with another intercept are allowed. -/
theorem C130_example (custom : String → CustomFn) (nan : ℝ) : ∃ (qr : QR) (df : LongData ℝ) (inputs inputs' : MaximizationInputs), getMaximizationInputs looseModel df = .ok inputs ∧ getMaximizationInputs feasModel df = .ok inputs' ∧
    (∀ params, inputs'.loglike qr custom nan feasModel params = inputs.loglike qr custom nan looseModel params) ∧ Feasible inputs' (fun _ => 10) ⊆ Feasible inputs (fun _ => 10) ∧ feasValues ∈ Feasible inputs' (fun _ => 10) ∧
    (∃ val, val ∈ Feasible inputs (fun _ => 10) ∧ val ∉ Feasible inputs' (fun _ => 10)) ∧ ∃ val, Maximizes (loglikeValue qr custom nan feasModel df) feasModel (Feasible inputs' (fun _ => 10)) val := by
  obtain ⟨qr, root, params0, Ω, _, P, hP, E, Z, hZ, hp, hae⟩ := C120_example custom nan
  obtain ⟨ω, data, inp, h1, -⟩ := hae.exists
  obtain ⟨-, hin', val, hmax⟩ := h1 2 le_rfl
  obtain ⟨pm, hpm⟩ := looseModel_ok
  obtain ⟨inputs, hin⟩ := C130_same_data (sameUpTo_symm looseModel_same) hpm looseModel_estimable hin'
  have h10 : ∀ l, |feasValues l| ≤ (10 : ℝ) := by
    intro l
    simp only [feasValues]
    split_ifs <;> norm_num
  refine ⟨qr, _, inputs, inp 2, hin, hin', fun params => (C130_same_likelihood looseModel_same hin hin' ⟨fun _ _ _ _ => 0, fun _ _ _ _ => 0, fun _ _ _ _ => 0⟩ (fun _ _ _ _ => 0) qr custom nan params).2.1,
    C130_nested looseModel_restrictions looseModel_estimable identWith_estimable hin hin' _, ?_, ?_, val, hmax⟩
  · rw [C120_feasible identWith_estimable hin']
    exact ⟨feasValues_admissible, h10⟩
  · let val : Loc → ℝ := fun l => if l = ⟨.controls, 0, "y1", "constant"⟩ then 1 else feasValues l
    have hloose := admissible_of_restrictions looseModel_restrictions feasValues_admissible
    have hne : ∀ l : Loc, l.cat ≠ .controls → val l = feasValues l := by
      intro l hl
      simp only [val]
      rw [if_neg]
      rintro rfl
      exact hl rfl
    refine ⟨val, ?_, ?_⟩
    · rw [C120_feasible looseModel_estimable hin]
      refine ⟨⟨?_, ?_, ?_, ?_, ?_, ?_, ?_, ?_, ?_⟩, ?_⟩
      · intro l x hl
        cases hl with
        | loading hmem hn =>
          obtain ⟨ns, ls, d, h, _⟩ := hn
          rw [(looseModel_factor hmem).1] at h
          cases h
        | intercept hmem hn =>
          obtain ⟨ns, ls, d, h, _⟩ := hn
          rw [(looseModel_factor hmem).1] at h
          cases h
        | weight h =>
          rw [hne _ (by simp)]
          exact hloose.fixes _ _ (.weight h)
        | shock hmem hn h =>
          rw [hne _ (by simp)]
          exact hloose.fixes _ _ (.shock hmem hn h)
        | anchorConstant _ h => obtain ⟨o, ⟨a, ⟨⟩, _⟩, _⟩ := h
        | anchorControl _ h => obtain ⟨o, ⟨a, ⟨⟩, _⟩, _⟩ := h
        | anchorLoading _ h => obtain ⟨o, ⟨a, ⟨⟩, _⟩, _⟩ := h
      · intro k hk
        simp only [hne _ (show (Loc.mk Cat.mixtureWeights _ _ _).cat ≠ .controls by simp)]
        exact hloose.weights k hk
      · intro p q s hp hq f spec name hf hn
        rw [hne _ (by simp), hne _ (by simp)]
        exact hloose.stages p q s hp hq f spec name hf hn
      · intro p q s hp hq f hf
        rw [hne _ (by simp), hne _ (by simp)]
        exact hloose.stageShocks p q s hp hq f hf
      · intro k f hk hf e e' h1 h2
        rw [hne _ (by simp), hne _ (by simp)]
        exact hloose.order k f hk hf e e' h1 h2
      · intro t f spec ht hf hc
        rw [(looseModel_factor hf).2] at hc
        simp at hc
      · intro d t v hd hu
        rw [hne _ (by simp)]
        exact hloose.measSds d t v hd hu
      · intro d t f hd hu hf
        rw [hne _ (by simp)]
        exact hloose.shockSds d t f hd hu hf
      · intro d k e f hd hk he hf
        rw [hne _ (by simp)]
        exact hloose.diagonal d k e f hd hk he hf
      · intro l
        simp only [val]
        split_ifs
        · norm_num
        · exact h10 l
    · rw [C120_feasible identWith_estimable hin']
      rintro ⟨h, -⟩
      have := h.fixes ⟨.controls, 0, "y1", "constant"⟩ 0 (.intercept (f := "a") List.mem_cons_self ⟨_, _, _, rfl, rfl, rfl, List.mem_cons_self⟩)
      simp [val] at this

/-- A factor with three periods, in which each transition is a stage. -/
noncomputable def stagesModel : ModelDict ℝ where
  factors := [("a", { measurements := [["y"], ["y"], ["y"]], transition := .named "linear" })]
  estimationOptions := some {}

/-- C130 applies to models with different stages: that both transitions are in one stage is a restriction of the model in which each transition is a stage. -/
theorem C130_example_stages : (∃ pm, processModel stagesModel = .ok pm) ∧ (∃ pm, processModel { stagesModel with stagemap := some [0, 0] } = .ok pm) ∧ HasRestrictionsOf stagesModel { stagesModel with stagemap := some [0, 0] } ∧
    ¬ HasRestrictionsOf { stagesModel with stagemap := some [0, 0] } stagesModel := by
  have hper : ∀ t, IsPeriod stagesModel t → t < 3 := by
    rintro t ⟨n, ⟨⟨f, spec, hf, rfl⟩, _⟩, ht⟩
    simp only [stagesModel, List.mem_singleton, Prod.mk.injEq] at hf
    obtain ⟨_, rfl⟩ := hf
    exact ht
  refine ⟨?_, ?_, ⟨rfl, fun f spec t v x h hn => ⟨spec, h, hn⟩, fun f spec t v x h hn => ⟨spec, h, hn⟩, ?_, fun h => h, fun h => h, fun h => h, ?_⟩, ?_⟩
  · have h : (processModel stagesModel >>= fun pm => pure pm.dimensions.nPeriods) = (.ok 3 : Py _) := by decide +kernel
    obtain ⟨pm, hpm, _⟩ := py_bind_ok.mp h
    exact ⟨pm, hpm⟩
  · have h : (processModel { stagesModel with stagemap := some [0, 0] } >>= fun pm => pure pm.dimensions.nPeriods) = (.ok 3 : Py _) := by decide +kernel
    obtain ⟨pm, hpm, _⟩ := py_bind_ok.mp h
    exact ⟨pm, hpm⟩
  · have : ∀ p s, StageOf stagesModel p s → StageOf { stagesModel with stagemap := some [0, 0] } p 0 := by
      rintro p s (⟨sm, ⟨⟩, _⟩ | ⟨_, h, rfl⟩)
      have := hper _ h
      obtain rfl | rfl : p = 0 ∨ p = 1 := by omega
      · exact Or.inl ⟨_, rfl, rfl⟩
      · exact Or.inl ⟨_, rfl, rfl⟩
    exact fun p q s hp hq => ⟨0, this p s hp, this q s hq⟩
  · rintro d d' ⟨o, ho, h⟩ ⟨o', ho', h'⟩
    obtain rfl := Option.some.inj ho
    obtain rfl := Option.some.inj ho'
    rcases h with ⟨h, _⟩ | ⟨_, rfl⟩
    · cases h
    · rcases h' with ⟨h, _⟩ | ⟨_, rfl⟩
      · cases h
      · exact le_rfl
  · intro h
    obtain ⟨s', h1, h2⟩ := h.stages 0 1 0 (Or.inl ⟨_, rfl, rfl⟩) (Or.inl ⟨_, rfl, rfl⟩)
    rcases h1 with ⟨sm, ⟨⟩, _⟩ | ⟨_, _, rfl⟩
    rcases h2 with ⟨sm, ⟨⟩, _⟩ | ⟨_, _, h⟩
    simp at h

end Ex
end Skill
