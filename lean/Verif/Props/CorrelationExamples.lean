import Verif.Props.CorrelationUnits
import Verif.Props.PipelineExamples
import Verif.Props.Heatmap
/- The hypotheses of C59, C72, C73 and C74 can be met; quasi scores are not scores. -/
namespace Skill
open Spec
namespace Ex

theorem linearModel_measures (t : ℕ) (v f : String) : Measures linearModel t v f ↔ t < 2 ∧ ((f = "a" ∧ (v = "y1" ∨ v = "y2")) ∨ (f = "b" ∧ v = "w")) := by
  constructor
  · rintro ⟨spec, hmem, ms, hms, hv⟩
    simp only [linearModel, List.mem_cons, Prod.mk.injEq, List.not_mem_nil, or_false] at hmem
    rcases hmem with ⟨rfl, rfl⟩ | ⟨rfl, rfl⟩
    · match t, hms with
      | 0, hms => simp at hms; subst hms; simpa using hv
      | 1, hms => simp at hms; subst hms; simpa using hv
      | t + 2, hms => simp at hms
    · match t, hms with
      | 0, hms => simp at hms; subst hms; simpa using hv
      | 1, hms => simp at hms; subst hms; simpa using hv
      | t + 2, hms => simp at hms
  · rintro ⟨ht, ⟨rfl, hv⟩ | ⟨rfl, hv⟩⟩
    · obtain rfl | rfl : t = 0 ∨ t = 1 := by omega
      · exact ⟨_, List.mem_cons_self, _, rfl, by simpa using hv⟩
      · exact ⟨_, List.mem_cons_self, _, rfl, by simpa using hv⟩
    · obtain rfl | rfl : t = 0 ∨ t = 1 := by omega
      · exact ⟨_, List.mem_cons_of_mem _ List.mem_cons_self, _, rfl, by simpa using hv⟩
      · exact ⟨_, List.mem_cons_of_mem _ List.mem_cons_self, _, rfl, by simpa using hv⟩

theorem linearModel_measurementOf (t : ℕ) (v f : String) : MeasurementOf linearModel t v f ↔ Measures linearModel t v f :=
  ⟨fun h => h.1, fun h => ⟨h, fun ⟨g, hg⟩ => linearModel_noAnchors v g hg⟩⟩

theorem linearModel_dedicated (t : ℕ) (v f : String) : DedicatedTo linearModel t v f ↔ Measures linearModel t v f := by
  refine ⟨fun h => h.1.1, fun h => ⟨(linearModel_measurementOf t v f).mpr h, fun g hg => ?_⟩⟩
  rw [linearModel_measures] at h hg
  rcases h.2 with ⟨rfl, rfl | rfl⟩ | ⟨rfl, rfl⟩ <;> simpa using hg.2

/-- A DataFrame with all parameters. -/
noncomputable def linearParams (pm : Processed ℝ) : List (Loc × ℝ) := pm.paramsIndex.map (fun l => (l, linearValues l))

theorem linearParams_ok {pm : Processed ℝ} (hpm : processModel linearModel = .ok pm) (periods : List ℕ) : ScoreParams linearModel (linearParams pm) linearValues periods where
  labels := by
    intro l
    have : (linearParams pm).map Prod.fst = pm.paramsIndex := by simp [linearParams, Function.comp_def]
    rw [this]
    exact mem_paramsIndex_iff hpm l
  distinct := by
    have : (linearParams pm).map Prod.fst = pm.paramsIndex := by simp [linearParams, Function.comp_def]
    rw [this]
    exact C06_index_unique_partial hpm linearModel_names
  values := by
    intro lx hlx
    obtain ⟨l, _, rfl⟩ := List.mem_map.mp hlx
    rfl
  nonzero := by
    intro t _ v f _
    simp [linearValues]

theorem linearData_corr : CorrDataOk linearModel linearData ["a", "b"] ["o"] [0, 1] where
  keys := linearData_index.2.2
  some := by simp
  distinct := by decide
  measured := by
    intro t ht
    exact ⟨"w", "b", (linearModel_measures t _ _).mpr ⟨by simp at ht; omega, Or.inr ⟨rfl, rfl⟩⟩⟩
  names := fun f hf => (queryName_iff f).mp ((by decide : ∀ f ∈ _, queryName f = true) f hf)
  measurements := by
    intro t _ f _ v hv
    rw [linearModel_measurementOf, linearModel_measures] at hv
    rcases hv.2 with ⟨rfl, rfl | rfl⟩ | ⟨rfl, rfl⟩ <;> simp [linearData]
  observed := by simp [linearData]

theorem linearModel_all : RequestedFactors linearModel .all ["a", "b"] ["o"] ∧ RequestedPeriods linearModel .all [0, 1] := by
  obtain ⟨pm, hpm, h, _⟩ := linearModel_ok
  exact ⟨⟨rfl, rfl⟩, 2, h ▸ isNPeriods_of_ok hpm, rfl⟩

/-- The hypotheses of C72, C59 and C73 hold for the example: correlations of all measurements and scores in both periods. -/
example : ∃ pm out out' out'', processModel linearModel = .ok pm ∧ getMeasurementsCorr linearData linearModel .all .all = .ok out ∧ getQuasiScoresCorr linearData linearModel .all .all = .ok out' ∧
    getScoresCorr linearData (linearParams pm) linearModel .all .all = .ok out'' ∧ out'.rows = ["a, 0", "b, 0", "o, 0", "a, 1", "b, 1", "o, 1"] ∧ out''.rows = out'.rows := by
  obtain ⟨pm, hpm, _⟩ := linearModel_ok
  obtain ⟨out, _, h1, _⟩ := C72_measurement_correlations hpm linearData_index.1 linearData_index.2.1 linearData_ids.1 linearData_ids.2 linearModel_all.1 linearModel_all.2 linearData_corr
  obtain ⟨out', h2, h2'⟩ := C73_quasi_score_correlations hpm linearData_index.1 linearData_index.2.1 linearData_ids.1 linearData_ids.2 linearModel_all.1 (by simp) linearModel_all.2 linearData_corr
  obtain ⟨out'', h3, h3'⟩ :=
    C59_score_correlations hpm linearData_index.1 linearData_index.2.1 linearData_ids.1 linearData_ids.2 linearModel_all.1 (by simp) linearModel_all.2 linearData_corr (linearParams_ok hpm [0, 1])
  refine ⟨pm, out, out', out'', hpm, h1, h2, h3, ?_, h3'.rows.trans h2'.rows.symm⟩
  rw [h2'.rows]
  decide +kernel

/-- C59 for missing parameters: the example has a result, but without the loading of w in period 1 there is none. -/
theorem C59_parameters_needed_example : ∃ pm, processModel linearModel = .ok pm ∧ (∃ out, getScoresCorr linearData (linearParams pm) linearModel .all .all = .ok out) ∧
    ∀ out, getScoresCorr linearData ((linearParams pm).filter (fun lx => decide (lx.1 ≠ ⟨.loadings, 1, "w", "b"⟩))) linearModel .all .all ≠ .ok out := by
  obtain ⟨pm, hpm, _⟩ := linearModel_ok
  have hq := linearParams_ok hpm [0, 1]
  refine ⟨pm, hpm, ?_, fun out hout => ?_⟩
  · obtain ⟨out, h, _⟩ := C59_score_correlations hpm linearData_index.1 linearData_index.2.1 linearData_ids.1 linearData_ids.2 linearModel_all.1 (by simp) linearModel_all.2 linearData_corr hq
    exact ⟨out, h⟩
  · obtain ⟨_, h⟩ := C59_parameters_needed hpm linearModel_all.1 linearModel_all.2 (hq.distinct.sublist (List.filter_sublist.map _)) hout (t := 1) (by simp) (f := "b") (by simp) (v := "w")
      ((linearModel_measurementOf 1 "w" "b").mpr ((linearModel_measures 1 "w" "b").mpr ⟨by norm_num, Or.inr ⟨rfl, rfl⟩⟩)) (fun g x hx => by
        have hl := (hq.labels _).mp (List.mem_map.mpr ⟨_, (List.mem_filter.mp hx).1, rfl⟩)
        cases hl with
        | loading _ h =>
          rcases h with h | ⟨_, h⟩
          · rcases ((linearModel_measures 1 "w" g).mp h).2 with ⟨_, h | h⟩ | ⟨h, _⟩
            · exact absurd h (by decide)
            · exact absurd h (by decide)
            · exact Or.inl h
          · obtain ⟨_, ⟨_, h, _⟩, _⟩ := h
            cases h)
    obtain ⟨lx, h1, h2⟩ := List.mem_map.mp h
    have := (List.mem_filter.mp h1).2
    rw [h2] at this
    simp at this

theorem linearData_cell {i t : ℕ} (hi : i < 3) (ht : t < 2) {c : String} (h : ¬(c = "y1" ∧ i = 2 ∧ t = 1)) : CellIs linearData [1, 2, 3] [10, 20] i t c (some ((i : ℝ) + 1 + 10 * (t + 1))) := by
  refine ⟨_, linearData_row hi ht, ?_⟩
  unfold linearRow
  rw [Option.bind_some]
  dsimp only
  rw [if_neg (by rintro ⟨h1, h2, h3⟩; exact h ⟨h1, by omega, by omega⟩)]
  push_cast
  rfl

/-- The hypotheses of the noise-free case of C59 hold for the example with factors `2 * (data - 1/2)`. -/
example : ∃ pm out, processModel linearModel = .ok pm ∧ getScoresCorr linearData (linearParams pm) linearModel .all .all = .ok out ∧
    entry2 out.cells 0 4 = some (correlation Finset.univ (fun i : Fin 3 => 2 * ((i : ℝ) + 1 + 10 * (0 + 1)) - 1) (fun i : Fin 3 => 2 * ((i : ℝ) + 1 + 10 * (1 + 1)) - 1)) := by
  obtain ⟨pm, hpm, _⟩ := linearModel_ok
  have hobs : ∀ t ∈ [0, 1], ∀ f ∈ ["a", "b"], ∀ i : Fin [1, 2, 3].length, ∃ v, DedicatedTo linearModel t v f ∧ ∃ y, CellIs linearData [1, 2, 3] [10, 20] i t v (some y) := by
    intro t ht f hf i
    have ht2 : t < 2 := by simp at ht; omega
    have hi3 : (i : ℕ) < 3 := i.2
    simp only [List.mem_cons, List.not_mem_nil, or_false] at hf
    rcases hf with rfl | rfl
    · exact ⟨"y2", (linearModel_dedicated _ _ _).mpr ((linearModel_measures _ _ _).mpr ⟨ht2, by simp⟩), _, linearData_cell hi3 ht2 (by simp)⟩
    · exact ⟨"w", (linearModel_dedicated _ _ _).mpr ((linearModel_measures _ _ _).mpr ⟨ht2, by simp⟩), _, linearData_cell hi3 ht2 (by simp)⟩
  have hθ : ∀ t ∈ [0, 1], ∀ f ∈ ["a", "b"], ∀ v, DedicatedTo linearModel t v f → ∀ (i : Fin [1, 2, 3].length) y, CellIs linearData [1, 2, 3] [10, 20] i t v (some y) →
      y = linearValues ⟨.controls, t, v, "constant"⟩ + linearValues ⟨.loadings, t, v, f⟩ * (2 * ((i : ℝ) + 1 + 10 * (t + 1)) - 1) := by
    intro t ht f hf v hv i y hy
    have ht2 : t < 2 := by simp at ht; omega
    have hi3 : (i : ℕ) < 3 := i.2
    have hy2 : y = (i : ℝ) + 1 + 10 * (t + 1) := by
      by_cases hc : v = "y1" ∧ (i : ℕ) = 2 ∧ t = 1
      · have hnone : CellIs linearData [1, 2, 3] [10, 20] i t v none := by
          refine ⟨_, linearData_row hi3 ht2, ?_⟩
          obtain ⟨h1, h2, h3⟩ := hc
          rw [h2]
          subst h1 h3
          simp [linearRow]
        cases cellIs_unique linearData_index.1 linearData_index.2.1 linearData_index.2.2 linearData_ids.1 linearData_ids.2 i.2 hy hnone
      · exact Option.some.inj (cellIs_unique linearData_index.1 linearData_index.2.1 linearData_index.2.2 linearData_ids.1 linearData_ids.2 i.2 hy (linearData_cell hi3 ht2 hc))
    have h1 : linearValues ⟨.controls, t, v, "constant"⟩ = 1 / 2 := if_neg (by simp)
    have h2 : linearValues ⟨.loadings, t, v, f⟩ = 1 / 2 := if_neg (by simp)
    rw [hy2, h1, h2]
    ring
  obtain ⟨out, h1, _, _, h⟩ := C59_noise_free hpm linearData_index.1 linearData_index.2.1 linearData_ids.1 linearData_ids.2 linearModel_all.1 (by simp) linearModel_all.2 linearData_corr (linearParams_ok hpm [0, 1])
    (fun t _ i => 2 * ((i : ℝ) + 1 + 10 * (t + 1)) - 1) hobs hθ
  refine ⟨pm, out, hpm, h1, ?_⟩
  have := h 0 4 "a" 0 "b" 1 rfl rfl
  simpa using this

/-! ### quasi scores are not scores -/

/-- Data in which the two measurements of the first factor move in opposite directions. -/
noncomputable def oppositeRow (id period : Int) : LongRow ℝ where
  id := id
  period := period
  cell c := if c = "y2" then some (-2 * ((id : ℝ) - 2)) else some ((id : ℝ) - 2)

noncomputable def oppositeData : LongData ℝ where
  columns := ["y1", "y2", "w", "x", "o"]
  idLevel := [1, 2, 3]
  periodLevel := [0]
  rows := [oppositeRow 1 0, oppositeRow 2 0, oppositeRow 3 0]

theorem oppositeData_index : IndexOk oppositeData ∧ NoUnusedPeriods oppositeData ∧ UniqueKeys oppositeData := by
  refine ⟨⟨by decide, by decide, ?_, ?_⟩, ?_, ?_⟩
  · intro r hr
    simp only [oppositeData, List.mem_cons, List.not_mem_nil, or_false] at hr ⊢
    rcases hr with rfl | rfl | rfl <;> simp [oppositeRow]
  · intro r hr
    simp only [oppositeData, List.mem_cons, List.not_mem_nil, or_false] at hr ⊢
    rcases hr with rfl | rfl | rfl <;> simp [oppositeRow]
  · intro p hp
    simp only [oppositeData, List.mem_cons, List.not_mem_nil, or_false] at hp ⊢
    subst hp
    exact ⟨oppositeRow 1 0, by simp, rfl⟩
  · unfold UniqueKeys oppositeData oppositeRow
    simp

theorem oppositeData_ids : IdsOf oppositeData [1, 2, 3] ∧ PeriodsOf oppositeData [0] := by
  refine ⟨⟨by decide, fun x => ?_⟩, ⟨by decide, fun x => ?_⟩⟩
  · simp only [oppositeData, oppositeRow, List.mem_cons, List.not_mem_nil, or_false, exists_eq_or_imp, exists_eq_left]
    constructor <;> intro h <;> omega
  · simp only [oppositeData, oppositeRow, List.mem_cons, List.not_mem_nil, or_false, exists_eq_or_imp, exists_eq_left]
    constructor <;> intro h <;> omega

theorem oppositeData_corr : CorrDataOk linearModel oppositeData ["a"] [] [0] where
  keys := oppositeData_index.2.2
  some := by simp
  distinct := by decide
  measured := by
    intro t ht
    exact ⟨"w", "b", (linearModel_measures t _ _).mpr ⟨by simp at ht; omega, Or.inr ⟨rfl, rfl⟩⟩⟩
  names := fun f hf => (queryName_iff f).mp ((by decide : ∀ f ∈ _, queryName f = true) f hf)
  measurements := by
    intro t _ f _ v hv
    rw [linearModel_measurementOf, linearModel_measures] at hv
    rcases hv.2 with ⟨rfl, rfl | rfl⟩ | ⟨rfl, rfl⟩ <;> simp [oppositeData]
  observed := by simp

theorem oppositeData_cell (i : Fin 3) (c : String) : CellIs oppositeData [1, 2, 3] [0] i 0 c (some (if c = "y2" then -2 * ((i : ℝ) - 1) else (i : ℝ) - 1)) := by
  have hrow : RowOf oppositeData [1, 2, 3] [0] i 0 (some (oppositeRow ((i : ℕ) + 1) 0)) := by
    fin_cases i <;> exact ⟨by simp [oppositeData], rfl, rfl⟩
  refine ⟨_, hrow, ?_⟩
  unfold oppositeRow
  rw [Option.bind_some]
  dsimp only
  split_ifs
  · congr 2
    push_cast
    ring
  · congr 1
    push_cast
    ring

theorem linearModel_only : RequestedFactors linearModel (.name "a") ["a"] [] ∧ RequestedPeriods linearModel (.single 0) [0] :=
  ⟨⟨by decide, Or.inl ⟨⟨_, List.mem_cons_self⟩, rfl, rfl⟩⟩, rfl⟩

theorem standardized_thirds {c : ℝ} (hc : 0 < c) {e : ℝ} (he : e = 1 ∨ e = -1) (i : Fin 3) : standardized (fun i : Fin 3 => some (c * e * ((i : ℝ) - 1))) i = some (e * ((i : ℝ) - 1)) := by
  have he2 : e * e = 1 := by rcases he with rfl | rfl <;> norm_num
  have hss : sumOfProducts Finset.univ (fun i : Fin 3 => c * e * ((i : ℝ) - 1)) (fun i : Fin 3 => c * e * ((i : ℝ) - 1)) = 2 * (c * c) := by
    simp only [sumOfProducts, sampleMean, Fin.sum_univ_three]
    have : c * e * (c * e) = c * c := by rw [mul_mul_mul_comm, he2, mul_one]
    simp
    nlinarith [this]
  have hm : sampleMean Finset.univ (fun i : Fin 3 => c * e * ((i : ℝ) - 1)) = 0 := by
    simp only [sampleMean, Fin.sum_univ_three]
    norm_num
  unfold standardized
  simp only [Option.isSome_some, Finset.filter_true, Option.getD_some, Option.map_some]
  rw [hss, hm, if_neg (by positivity)]
  have hsq : Real.sqrt (2 * (c * c) / (((Finset.univ : Finset (Fin 3)).card : ℝ) - 1)) = c := by
    have : 2 * (c * c) / (((Finset.univ : Finset (Fin 3)).card : ℝ) - 1) = c * c := by
      simp
      ring
    rw [this, Real.sqrt_mul_self hc.le]
  rw [hsq]
  congr 1
  field_simp
  ring

theorem oppositeData_quasi (i : Fin 3) : QuasiScoreIs linearModel oppositeData [1, 2, 3] [0] i 0 "a" (some 0) := by
  refine ⟨["y1", "y2"], fun v => if v = "y2" then some (-1 * ((i : ℝ) - 1)) else some (1 * ((i : ℝ) - 1)), by decide, fun v => ?_, fun v hv => ?_, ?_⟩
  · show _ ↔ MeasurementOf linearModel 0 v "a"
    rw [linearModel_measurementOf, linearModel_measures]
    simp
  · simp only [List.mem_cons, List.not_mem_nil, or_false] at hv
    rcases hv with rfl | rfl
    · refine ⟨i.2, _, fun j => oppositeData_cell j _, ?_⟩
      have := standardized_thirds (c := 1) one_pos (Or.inl rfl) i
      simpa using this.symm
    · refine ⟨i.2, _, fun j => oppositeData_cell j _, ?_⟩
      have := standardized_thirds (c := 2) two_pos (Or.inr rfl) i
      simpa using this.symm
  · simp [average]

theorem oppositeData_score (i : Fin 3) : ScoreIs linearModel linearValues oppositeData [1, 2, 3] [0] i 0 "a" (some (-(i : ℝ))) := by
  refine ⟨["y1", "y2"], fun v => if v = "y2" then some ((-2 * ((i : ℝ) - 1) - 1 / 2) / (1 / 2)) else some (((i : ℝ) - 1 - 1 / 2) / (1 / 2)), by decide, fun v => ?_, fun v hv => ?_, ?_⟩
  · show _ ↔ DedicatedTo linearModel 0 v "a"
    rw [linearModel_dedicated, linearModel_measures]
    simp
  · simp only [List.mem_cons, List.not_mem_nil, or_false] at hv
    rcases hv with rfl | rfl
    · exact ⟨_, oppositeData_cell i _, by simp [linearValues]⟩
    · exact ⟨_, oppositeData_cell i _, by simp [linearValues]⟩
  · simp [average]
    ring

end Ex

/-- Quasi scores do not coincide with scores in linear models: with two measurements that move in opposite directions all quasi scores are zero (and have no correlations), the scores are not. -/
theorem C74_counterexample : ∃ (m : ModelDict ℝ) (df : LongData ℝ) (params : List (Loc × ℝ)) (out out' : CorrTable), LinearModel m 1 ∧ (∃ pm, processModel m = .ok pm) ∧
    getQuasiScoresCorr df m (.name "a") (.single 0) = .ok out ∧ getScoresCorr df params m (.name "a") (.single 0) = .ok out' ∧ entry2 out.cells 0 0 = some none ∧ entry2 out'.cells 0 0 = some (some 1) := by
  obtain ⟨pm, hpm, _⟩ := Ex.linearModel_ok
  obtain ⟨out, h2, h2'⟩ := C73_quasi_score_correlations hpm Ex.oppositeData_index.1 Ex.oppositeData_index.2.1 Ex.oppositeData_ids.1 Ex.oppositeData_ids.2 Ex.linearModel_only.1 (by simp) Ex.linearModel_only.2 Ex.oppositeData_corr
  obtain ⟨out', h3, h3'⟩ :=
    C59_score_correlations hpm Ex.oppositeData_index.1 Ex.oppositeData_index.2.1 Ex.oppositeData_ids.1 Ex.oppositeData_ids.2 Ex.linearModel_only.1 (by simp) Ex.linearModel_only.2 Ex.oppositeData_corr (Ex.linearParams_ok hpm [0])
  refine ⟨Ex.linearModel, Ex.oppositeData, Ex.linearParams pm, out, out', Ex.linearModel_linear, ⟨pm, hpm⟩, h2, h3, ?_, ?_⟩
  · rw [h2'.entries 0 0 (.latent "a" 0) (.latent "a" 0) rfl rfl (fun _ => some 0) (fun _ => some 0) ?_ ?_]
    · simp [observedCorrelation, correlation, sumOfProducts, sampleMean]
    · exact Ex.oppositeData_quasi
    · exact Ex.oppositeData_quasi
  · have he : entry2 out'.cells 0 0 = some (observedCorrelation (fun i : Fin 3 => some (-(i : ℝ))) (fun i : Fin 3 => some (-(i : ℝ)))) := h3'.entries 0 0 (.latent "a" 0) (.latent "a" 0) rfl rfl (fun i : Fin 3 => some (-(i : ℝ))) (fun i : Fin 3 => some (-(i : ℝ))) Ex.oppositeData_score Ex.oppositeData_score
    rw [observedCorrelation_some] at he
    have hss : sumOfProducts Finset.univ (fun i : Fin 3 => -(i : ℝ)) (fun i : Fin 3 => -(i : ℝ)) = 2 := by
      simp only [sumOfProducts, sampleMean, Fin.sum_univ_three]
      norm_num
    unfold correlation at he
    rw [hss, if_neg (by norm_num)] at he
    have := h3'.diagonal 0 _ he
    rw [he, this]

/-! ### heatmaps -/

/-- The hypotheses of C58 hold for tables of correlations, here the one of the example: with missing entries the trimmed heatmap has fewer rows and columns. -/
example : ∃ out, getMeasurementsCorr Ex.linearData Ex.linearModel .all .all = .ok out ∧ TableShape out ∧ TableShape (processCorrDataForPlotting out 2 false false true) := by
  obtain ⟨pm, hpm, _⟩ := Ex.linearModel_ok
  obtain ⟨out, _, h1, _, h2⟩ :=
    C72_measurement_correlations hpm Ex.linearData_index.1 Ex.linearData_index.2.1 Ex.linearData_ids.1 Ex.linearData_ids.2 Ex.linearModel_all.1 Ex.linearModel_all.2 Ex.linearData_corr
  obtain ⟨_, _, _, _, _, _, _, _, hs, _⟩ := C58_trim h2.shape 2 false false rfl
  exact ⟨out, h1, h2.shape, hs⟩

/-- The hypotheses of C75 hold for a table with three variables. -/
example (a b c : String) : ∃ table z, plotCorrelationHeatmap ⟨[a, b, c], [a, b, c], [[some 1, some (9 / 10), some (1 / 2)], [some (9 / 10), some 1, some (9 / 10)], [some (1 / 2), some (9 / 10), some 1]]⟩ 1 false false false none =
    .ok (table, some z) := by
  obtain ⟨table, z, h, _⟩ := C75_color_scale_partial (corr := ⟨[a, b, c], [a, b, c], [[some 1, some (9 / 10), some (1 / 2)], [some (9 / 10), some 1, some (9 / 10)], [some (1 / 2), some (9 / 10), some 1]]⟩)
    ⟨rfl, by simp⟩ 1 false false ⟨by simp, by simp⟩ (by
      intro i j x hx
      unfold entry2 at hx
      obtain ⟨row, hrow, hx⟩ := Option.bind_eq_some_iff.mp hx
      have h1 := List.mem_of_getElem? hrow
      have h2 := List.mem_of_getElem? hx
      simp only [List.mem_cons, List.not_mem_nil, or_false] at h1
      rcases h1 with rfl | rfl | rfl <;> simp only [List.mem_cons, List.not_mem_nil, or_false] at h2 <;> rcases h2 with rfl | rfl | rfl <;> exact ⟨_, rfl⟩)
  exact ⟨table, z, h⟩

end Skill
