import Verif.Props.UnrelatedSimulation
import Verif.Props.FactorsSimulationExamples
/- **C122**: an example with simulated data. -/
namespace Skill
open Spec MeasureTheory ProbabilityTheory
namespace Ex

/-- The model with only one of its two factors. -/
theorem sepModel_one {fs : List String} {f v : String} (hf : IsLatent sepModel f) (hfs : f ∉ fs) (hv : ∀ t < 3, Measures sepModel t v f) : ∃ m' pm', removeFactors fs sepModel = .ok m' ∧ processModel m' = .ok pm' ∧ LinearModel m' 1 := by
  obtain ⟨pm, hpm, _⟩ := sepModel_ok
  obtain ⟨spec, hspec, ms, hms, _⟩ := hv 0 (by norm_num)
  obtain ⟨m', hrem, pm', hpm'⟩ := accepted_removeFactors ⟨pm, hpm⟩ (fs := fs) (by rintro a ⟨⟩) ⟨f, spec, hspec, hfs, by intro h; rw [h] at hms; cases hms⟩
  have hw := without_removeFactors hrem
  exact ⟨m', pm', hrem, hpm', hw.linear rfl sepModel_linear (period_of_measures (processModel_nPeriods hpm') ((hw.measures 1 v f).mpr ⟨hv 1 (by norm_num), hfs⟩)) (fun t ht => ⟨v, f, hv t ((sepModel_period t).mp (hw.periods t ht)), hfs⟩)⟩

/-- **C122**: two unrelated factors, three periods and three individuals. The simulated factor a with its measurements is independent of the factor b with its measurements, and both have the same laws as in separate simulations. -/
theorem C122_simulation_example (custom : String → CustomFn) (nan : ℝ) : ∃ (root : NormalRoot) (m' m2 : ModelDict ℝ) (hrem : removeFactors ["b"] sepModel = .ok m') (hext : extractFactors ["b"] sepModel = .ok m2) (params params' params2 : List (Loc × ℝ))
    (Ω : Type) (_ : MeasurableSpace Ω) (P : Measure Ω) (E : Nat → Ω → Fin 1) (Z : Nat → Draw → Ω → ℝ) (out out' out2 : Ω → SimulatedDataset) (X : Nat → Ω → Cell sepModel → ℝ) (X' : Nat → Ω → Cell m' → ℝ) (X2 : Nat → Ω → Cell m2 → ℝ),
    IsProbabilityMeasure P ∧ RandomDatasetDraws P (sepValues 0) E Z ∧ HasParams sepModel params (sepValues 0) ∧ HasParams m' params' (sepValues 0) ∧ HasParams m2 params2 (sepValues 0) ∧ IsUpdate m' 2 "w" ∧ IsUpdate m2 2 "y2" ∧
    (∀ ω, simulateDataset root custom nan sepModel params none (some editData) [] (drawsWith (fun i => E i ω) (fun i j => Z i j ω)) = .ok (out ω) ∧ DatasetIs sepModel (sepValues 0) 3 (fun i => X i ω) (out ω)) ∧
    (∀ ω, simulateDataset root custom nan m' params' none (some editData) [] (drawsWith (fun i => E i ω) (fun i j => Z i j ω)) = .ok (out' ω) ∧ DatasetIs m' (sepValues 0) 3 (fun i => X' i ω) (out' ω)) ∧
    (∀ ω, simulateDataset root custom nan m2 params2 none (some editData) [] (drawsWith (fun i => E i ω) (fun i j => Z i j ω)) = .ok (out2 ω) ∧ DatasetIs m2 (sepValues 0) 3 (fun i => X2 i ω) (out2 ω)) ∧
    ∀ i < 3, P.map (fun ω => ((fun c => X i ω (cellWithAll (without_removeFactors hrem) rfl c) : Cell m' → ℝ), (fun c => X i ω (cellWithAll (without_removeFactors hext) rfl c) : Cell m2 → ℝ))) = (P.map (X' i)).prod (P.map (X2 i)) := by
  obtain ⟨root, hroot⟩ := exists_validRoot
  obtain ⟨pm, hpm, _⟩ := sepModel_ok
  have hma : ∀ t < 3, Measures sepModel t "w" "a" := fun t ht => (sepModel_measures t _ _).mpr ⟨ht, by simp⟩
  have hmb : ∀ t < 3, Measures sepModel t "y2" "b" := fun t ht => (sepModel_measures t _ _).mpr ⟨ht, by simp⟩
  obtain ⟨m', pm', hrem, hpm', hm'⟩ := sepModel_one (fs := ["b"]) (v := "w") ((sepModel_latent "a").mpr (Or.inl rfl)) (by decide) hma
  obtain ⟨m2, pm2, hrem2, hpm2, hm2⟩ := sepModel_one (fs := ["a"]) (v := "y2") ((sepModel_latent "b").mpr (Or.inr rfl)) (by decide) hmb
  have hext : extractFactors ["b"] sepModel = .ok m2 := hrem2
  have hw := without_removeFactors hrem
  have hw2 := without_removeFactors hrem2
  obtain ⟨params, hp⟩ := exists_params hpm sepModel_names (sepValues 0)
  obtain ⟨params', hp'⟩ := exists_params hpm' (hw.goodNames rfl sepModel_names) (sepValues 0)
  obtain ⟨params2, hp2⟩ := exists_params hpm2 (hw2.goodNames rfl sepModel_names) (sepValues 0)
  have hv := sepValues_proper 0
  obtain ⟨Ω, _, P, E, Z, hPr, hZ⟩ := exists_datasetDraws (val := sepValues 0) (k := 1) (fun e he => (hv.positive e he).le) hv.sum
  obtain ⟨out, out', out2, X, X', X2, h1, h2, h3, _, _, _, h4⟩ := C122_simulation hroot hroot hroot hpm hpm' hpm2 hrem hext sepModel_linear hm' hm2 rfl sepModel_simulation hv sepModel_unrelated custom custom custom nan nan nan hp hp' hp2
    (sepData_individuals none) (by norm_num) hZ hZ hZ
  exact ⟨root, m', m2, hrem, hext, params, params', params2, Ω, _, P, E, Z, out, out', out2, X, X', X2, hPr, hZ, hp, hp', hp2, Or.inl ⟨"a", (hw.measures 2 "w" "a").mpr ⟨hma 2 (by norm_num), by decide⟩⟩,
    Or.inl ⟨"b", (hw2.measures 2 "y2" "b").mpr ⟨hmb 2 (by norm_num), by decide⟩⟩, h1, h2, h3, h4⟩

end Ex
end Skill
