import Verif.Props.ConstrainedEstimation
import Verif.Props.IdentificationExamples

/-! Examples for C120. -/

namespace Skill
open Matrix MeasureTheory ProbabilityTheory Spec
open scoped Topology
namespace Ex

theorem identWith_noAnchors {s v f : String} : ¬ Anchors (identModelWith s) v f := by
  rintro ⟨o, ⟨a, ⟨⟩, _⟩, _⟩

theorem identWith_estimable {s : String} : Estimable (identModelWith s) where
  names := identWith_names
  anchored v f h := absurd h identWith_noAnchors
  mixtures k := by
    rintro ⟨o, ho, h | ⟨_, rfl⟩⟩
    · obtain rfl := Option.some.inj ho
      cases h
    · exact le_rfl
  custom f spec fn ps hmem hs := by
    simp only [identModelWith, List.mem_cons, Prod.mk.injEq, List.not_mem_nil, or_false] at hmem
    rcases hmem with ⟨rfl, rfl⟩ | ⟨rfl, rfl⟩ <;> simp at hs
  transition := Or.inl ⟨"a", _, "constant", List.mem_cons_self, Or.inl ⟨rfl, Or.inr rfl⟩⟩

theorem identWith_distance {s : String} {d : ℝ} : BoundsDistance (identModelWith s) d ↔ d = 1 / 1000 := by
  constructor
  · rintro ⟨o, ho, ⟨h, _⟩ | ⟨_, rfl⟩⟩
    · obtain rfl := Option.some.inj ho
      cases h
    · obtain rfl := Option.some.inj ho
      rfl
  · rintro rfl
    exact ⟨_, rfl, Or.inr ⟨by simp, rfl⟩⟩

/-- Two factors with linear transition functions. -/
noncomputable abbrev feasModel : ModelDict ℝ := identModelWith "linear"

/-- The true values. -/
noncomputable def feasValues (l : Loc) : ℝ :=
  if l.cat = .mixtureWeights ∨ l.cat = .loadings ∧ l.name1 ∈ ["y1", "w1"] then 1
  else if l.cat = .controls ∧ l.name1 ∈ ["y1", "w1"] then 0
  else 1 / 2

theorem feasValues_admissible : Admissible feasModel feasValues where
  fixes l x h := by
    cases h with
    | loading hmem hn =>
      obtain ⟨_, rfl, hv⟩ := identWith_loadings.mp ⟨_, hmem, hn⟩
      rcases hv with ⟨_, rfl⟩ | ⟨_, rfl⟩ <;> simp [feasValues]
    | intercept hmem hn =>
      obtain ⟨_, rfl, hv⟩ := identWith_intercepts.mp ⟨_, hmem, hn⟩
      rcases hv with ⟨_, rfl⟩ | ⟨_, rfl⟩ <;> simp [feasValues]
    | weight => simp [feasValues]
    | shock hmem hn =>
      simp only [identModelWith, List.mem_cons, Prod.mk.injEq, List.not_mem_nil, or_false] at hmem
      rcases hmem with ⟨rfl, rfl⟩ | ⟨rfl, rfl⟩ <;> exact absurd (show "constant" = "linear" from hn) (by decide)
    | anchorConstant _ h => exact absurd h identWith_noAnchors
    | anchorControl _ h => exact absurd h identWith_noAnchors
    | anchorLoading _ h => exact absurd h identWith_noAnchors
  weights k := by
    rintro ⟨o, ho, h | ⟨_, rfl⟩⟩
    · obtain rfl := Option.some.inj ho
      cases h
    · simp [feasValues]
  stages p q s _ _ f spec name _ _ := by simp [feasValues]
  stageShocks p q s _ _ f _ := by simp [feasValues]
  order k f _ _ e e' _ _ := by simp [feasValues]
  shares t f spec _ hmem hs := by
    simp only [identModelWith, List.mem_cons, Prod.mk.injEq, List.not_mem_nil, or_false] at hmem
    rcases hmem with ⟨rfl, rfl⟩ | ⟨rfl, rfl⟩ <;> simp at hs
  measSds d t v hd _ := by
    obtain rfl := identWith_distance.mp hd
    simp [feasValues]
    norm_num
  shockSds d t f hd _ _ := by
    obtain rfl := identWith_distance.mp hd
    simp [feasValues]
    norm_num
  diagonal d k e f hd _ _ _ := by
    obtain rfl := identWith_distance.mp hd
    simp [feasValues]
    norm_num

/-- C120 is not vacuous: the true values satisfy the constraints and bounds of the model with two linear factors, and all parameters are estimated consistently if no parameter may be larger than 10. -/
theorem C120_example (custom : String → CustomFn) (nan : ℝ) : ∃ (qr : QR) (root : NormalRoot) (params0 : List (Loc × ℝ)) (Ω : Type) (_ : MeasurableSpace Ω) (P : Measure Ω) (_ : IsProbabilityMeasure P)
    (E : Nat → Ω → Fin 1) (Z : Nat → Draw → Ω → ℝ), RandomDatasetDraws P feasValues E Z ∧ ParamsWith feasModel params0 feasValues ∧
    ∀ᵐ ω ∂P, ∃ (data : ℕ → SimulatedDataset) (inputs : ℕ → MaximizationInputs),
      (∀ n ≥ 2, simulateDataset root custom nan feasModel params0 (some n) none [] (drawsWith (fun i => E i ω) (fun i j => Z i j ω)) = .ok (data n) ∧ getMaximizationInputs feasModel (asDataset (data n).measurements) = .ok (inputs n) ∧
        ∃ val, Maximizes (loglikeValue qr custom nan feasModel (asDataset (data n).measurements)) feasModel (Feasible (inputs n) (fun _ => 10)) val) ∧
      ∀ est : ℕ → Loc → ℝ, (∀ n ≥ 2, Maximizes (loglikeValue qr custom nan feasModel (asDataset (data n).measurements)) feasModel (Feasible (inputs n) (fun _ => 10)) (est n)) → ∀ l, IsParam feasModel l →
        Filter.Tendsto (fun n => est n l) Filter.atTop (𝓝 (feasValues l)) := by
  obtain ⟨qr, hqr⟩ := validQR
  obtain ⟨root, hroot⟩ := exists_validRoot
  have hlin := identWith_linear (s := "linear") (Or.inl rfl)
  obtain ⟨pm, hpm⟩ := identWith_ok (s := "linear") (Or.inl rfl)
  have hd := identWith_distance (s := "linear").mpr rfl
  have hv := admissible_proper hlin rfl hd (by norm_num) feasValues_admissible
  obtain ⟨Ω, _, P, E, Z, hP, hZ⟩ := exists_datasetDraws (val := feasValues) (k := 1) (fun e he => (hv.positive e he).le) hv.sum
  have hp := paramsWith hpm identWith_names feasValues
  exact ⟨qr, root, _, Ω, _, P, hP, E, Z, hZ, hp, C120_consistent hqr hroot hpm identWith_estimable hlin (identWith_simulation (Or.inl rfl)) rfl rfl rfl (fun t v h => by
      have := identWith_update t v h
      rintro rfl
      simp at this)
    (by rintro o x ⟨⟩ ⟨⟩) ⟨_, rfl, rfl, Or.inl rfl⟩ custom nan hd (by norm_num) _ feasValues_admissible (fun l => by
      simp only [feasValues]
      split_ifs <;> norm_num) (identWith_own (fun t v f hv => by
      simp only [List.mem_cons, List.not_mem_nil, or_false, not_or] at hv
      simp [feasValues, hv])) _ hp P (fun _ => E) (fun _ => Z) (fun _ => hZ)⟩

/-- With a constant factor and the default bounds, the constraints and bounds contradict each other (for all data that are accepted). -/
theorem C120_example_infeasible {df : LongData ℝ} {inputs : MaximizationInputs} (hin : getMaximizationInputs identModel df = .ok inputs) (B : Loc → ℝ) : Feasible inputs B = ∅ :=
  C120_constant_infeasible identWith_estimable hin B ((identWith_period 1).mpr (by norm_num)) (List.mem_cons_of_mem _ List.mem_cons_self) rfl (identWith_distance.mpr rfl) (by norm_num)

end Ex
end Skill
