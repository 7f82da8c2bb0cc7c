import Verif.Props.Pipeline2
import Mathlib.Probability.Independence.InfinitePi
/-
The hypotheses of C70 and C71 can be met: a model with two latent factors, an observed factor, a control and two periods, and a dataset with three individuals.
-/
namespace Skill
open Matrix MeasureTheory ProbabilityTheory Spec

/-- There are random numbers as assumed in C71. -/
theorem exists_randomNoise {k : ℕ} {val : Loc → ℝ} (hnn : ∀ e < k, 0 ≤ val ⟨.mixtureWeights, 0, Spec.mixtureName e, "-"⟩) (hsum : ∑ e : Fin k, val ⟨.mixtureWeights, 0, Spec.mixtureName e, "-"⟩ = 1) :
    ∃ (Ω : Type) (_ : MeasurableSpace Ω) (P : Measure Ω) (E : Ω → Fin k) (Z : Noise → Ω → ℝ), IsProbabilityMeasure P ∧ RandomNoise P val E Z := by
  let weights : Fin k → ℝ := fun e => val ⟨.mixtureWeights, 0, Spec.mixtureName e, "-"⟩
  let μ : Measure (Fin k) := ∑ e, ENNReal.ofReal (weights e) • Measure.dirac e
  have hμe : ∀ e, μ {e} = ENNReal.ofReal (weights e) := by
    intro e
    simp only [μ, Measure.finsetSum_apply, Measure.smul_apply, smul_eq_mul, Measure.dirac_apply' _ (measurableSet_singleton e)]
    rw [Finset.sum_eq_single e]
    · simp
    · intro b _ hb
      simp [hb]
    · simp
  have hμ : IsProbabilityMeasure μ := ⟨by
    simp only [μ, Measure.finsetSum_apply, Measure.smul_apply, smul_eq_mul, measure_univ, mul_one]
    rw [← ENNReal.ofReal_sum_of_nonneg (fun (e : Fin k) _ => (hnn e e.isLt : 0 ≤ weights e)), show ∑ e, weights e = 1 from hsum, ENNReal.ofReal_one]⟩
  let ν : Measure (Noise → ℝ) := Measure.infinitePi (fun _ => gaussianReal 0 1)
  refine ⟨Fin k × (Noise → ℝ), inferInstance, μ.prod ν, Prod.fst, fun j ω => ω.2 j, inferInstance, ?_⟩
  have hsnd : MeasurePreserving Prod.snd (μ.prod ν) ν := measurePreserving_snd
  have hZ : ∀ j : Noise, Measurable (fun ω : Fin k × (Noise → ℝ) => ω.2 j) := fun j => (measurable_pi_apply j).comp measurable_snd
  have hlaw : ∀ j : Noise, (μ.prod ν).map (fun ω => ω.2 j) = gaussianReal 0 1 := by
    intro j
    have : (fun ω : Fin k × (Noise → ℝ) => ω.2 j) = (fun z => z j) ∘ Prod.snd := rfl
    rw [this, ← Measure.map_map (measurable_pi_apply j) measurable_snd, hsnd.map_eq]
    exact Measure.infinitePi_map_eval _ j
  refine ⟨measurable_fst, hZ, hlaw, ?_, ?_, ?_⟩
  · rw [iIndepFun_iff_map_fun_eq_infinitePi_map hZ]
    simp only [hlaw]
    exact hsnd.map_eq
  · exact indepFun_prod measurable_id measurable_id
  · intro e
    have : (Prod.fst ⁻¹' {e} : Set (Fin k × (Noise → ℝ))) = {e} ×ˢ Set.univ := by ext; simp
    rw [this, Measure.prod_prod, hμe, measure_univ, mul_one]

namespace Ex

/-- A linear factor with two measurements and a constant factor with one measurement in each of two periods. -/
noncomputable def linearModel : ModelDict ℝ where
  factors := [("a", { measurements := [["y1", "y2"], ["y1", "y2"]], transition := .named "linear" }), ("b", { measurements := [["w"], ["w"]], transition := .named "constant" })]
  observedFactors := some ["o"]
  controls := some ["x"]
  estimationOptions := some { clippingLowerBound := some none }

theorem linearModel_ok : ∃ pm, processModel linearModel = .ok pm ∧ pm.dimensions.nPeriods = 2 ∧ pm.updateInfo.map (fun r => (r.period, r.var)) = [(0, "y1"), (0, "y2"), (0, "w"), (1, "y1"), (1, "y2"), (1, "w")] := by
  have h : (processModel linearModel >>= fun pm => pure (pm.dimensions.nPeriods, pm.updateInfo.map (fun r => (r.period, r.var)))) =
      (.ok (2, [(0, "y1"), (0, "y2"), (0, "w"), (1, "y1"), (1, "y2"), (1, "w")]) : Py _) := by decide +kernel
  obtain ⟨pm, hpm, h⟩ := py_bind_ok.mp h
  rw [py_pure_ok, Prod.mk.injEq] at h
  exact ⟨pm, hpm, h.1, h.2⟩

theorem linearModel_names : GoodNames linearModel where
  keys := ⟨by decide, by rintro a os ⟨⟩⟩
  distinct := by decide
  controls := by decide
  chars := by decide
  reserved := by decide
  registered := by
    intro f spec fn ps hmem hs
    simp only [linearModel, List.mem_cons, Prod.mk.injEq, List.not_mem_nil, or_false] at hmem
    rcases hmem with ⟨rfl, rfl⟩ | ⟨rfl, rfl⟩ <;> simp at hs

theorem linearModel_period (t : ℕ) : IsPeriod linearModel t ↔ t < 2 := by
  obtain ⟨pm, hpm, h, _⟩ := linearModel_ok
  rw [isPeriod_iff hpm, h]

theorem linearModel_update (t : ℕ) (v : String) : IsUpdate linearModel t v ↔ t < 2 ∧ v ∈ ["y1", "y2", "w"] := by
  obtain ⟨pm, hpm, _, h⟩ := linearModel_ok
  obtain ⟨_, hu, _⟩ := C01_update_info_exact hpm
  rw [← hu]
  have : (∃ r ∈ pm.updateInfo, r.period = t ∧ r.var = v) ↔ (t, v) ∈ pm.updateInfo.map (fun r => (r.period, r.var)) := by simp [List.mem_map]
  rw [this, h]
  simp only [List.mem_cons, Prod.mk.injEq, List.not_mem_nil, or_false]
  constructor
  · rintro (⟨rfl, rfl⟩ | ⟨rfl, rfl⟩ | ⟨rfl, rfl⟩ | ⟨rfl, rfl⟩ | ⟨rfl, rfl⟩ | ⟨rfl, rfl⟩) <;> simp
  · rintro ⟨ht, hv⟩
    obtain rfl | rfl : t = 0 ∨ t = 1 := by omega
    · simpa using hv
    · simpa using hv

theorem linearModel_noAnchors (v f : String) : ¬Anchors linearModel v f := by
  rintro ⟨o, ⟨a, ⟨⟩, _⟩, _⟩

theorem linearModel_clean : CleanAnchoring linearModel :=
  ⟨by rintro f o ⟨a, ⟨⟩, _⟩, fun v f t g h => absurd h (linearModel_noAnchors v f), fun v f g h => absurd h (linearModel_noAnchors v f)⟩

theorem linearModel_linear : LinearModel linearModel 1 where
  anchoring := ⟨linearModel_clean, by rintro a os ⟨⟩, noNameClash_of_none rfl⟩
  periods := (linearModel_period 1).mpr (by norm_num)
  measured := by
    intro t ht
    obtain rfl | rfl : t = 0 ∨ t = 1 := by have := (linearModel_period t).mp ht; omega
    · exact ⟨"w", "b", _, List.mem_cons_of_mem _ List.mem_cons_self, _, rfl, List.mem_cons_self⟩
    · exact ⟨"w", "b", _, List.mem_cons_of_mem _ List.mem_cons_self, _, rfl, List.mem_cons_self⟩
  transitions := by
    intro f spec hmem
    simp only [linearModel, List.mem_cons, Prod.mk.injEq, List.not_mem_nil, or_false] at hmem
    rcases hmem with ⟨rfl, rfl⟩ | ⟨rfl, rfl⟩
    · exact Or.inl rfl
    · exact Or.inr rfl
  mixture := ⟨_, rfl, Or.inr ⟨rfl, rfl⟩⟩
  single := Or.inl rfl

/-- Values of parameters. -/
noncomputable def linearValues (l : Loc) : ℝ := if l.cat = .mixtureWeights then 1 else 1 / 2

theorem linearValues_proper : ProperValues linearModel 1 linearValues where
  positive := by
    intro e _
    simp [linearValues]
  sum := by simp [linearValues]
  sds := by
    intro t v _
    simp [linearValues]
  scales := by
    intro t f _
    exact one_ne_zero

/-- Three individuals in two periods in no particular order; measurement "y1" of individual 3 is missing in period 20. -/
noncomputable def linearRow (id period : Int) : LongRow ℝ where
  id := id
  period := period
  cell c := if c = "y1" ∧ id = 3 ∧ period = 20 then none else some (id + period)

noncomputable def linearData : LongData ℝ where
  columns := ["y1", "y2", "w", "x", "o"]
  idLevel := [1, 2, 3]
  periodLevel := [10, 20]
  rows := [linearRow 3 10, linearRow 2 20, linearRow 1 10, linearRow 3 20, linearRow 1 20, linearRow 2 10]

theorem linearData_index : IndexOk linearData ∧ NoUnusedPeriods linearData ∧ UniqueKeys linearData := by
  refine ⟨⟨by decide, by decide, ?_, ?_⟩, ?_, ?_⟩
  · intro r hr
    simp only [linearData, List.mem_cons, List.not_mem_nil, or_false] at hr ⊢
    rcases hr with rfl | rfl | rfl | rfl | rfl | rfl <;> simp [linearRow]
  · intro r hr
    simp only [linearData, List.mem_cons, List.not_mem_nil, or_false] at hr ⊢
    rcases hr with rfl | rfl | rfl | rfl | rfl | rfl <;> simp [linearRow]
  · intro p hp
    simp only [linearData, List.mem_cons, List.not_mem_nil, or_false] at hp ⊢
    rcases hp with rfl | rfl
    · exact ⟨linearRow 3 10, by simp, rfl⟩
    · exact ⟨linearRow 2 20, by simp, rfl⟩
  · unfold UniqueKeys linearData linearRow
    simp

theorem linearData_ids : IdsOf linearData [1, 2, 3] ∧ PeriodsOf linearData [10, 20] := by
  refine ⟨⟨by decide, fun x => ?_⟩, ⟨by decide, fun x => ?_⟩⟩
  · simp only [linearData, linearRow, List.mem_cons, List.not_mem_nil, or_false, exists_eq_or_imp, exists_eq_left]
    constructor <;> intro h <;> omega
  · simp only [linearData, linearRow, List.mem_cons, List.not_mem_nil, or_false, exists_eq_or_imp, exists_eq_left]
    constructor <;> intro h <;> omega

/-- The rows of the individuals. -/
theorem linearData_row {i t : ℕ} (hi : i < 3) (ht : t < 2) : RowOf linearData [1, 2, 3] [10, 20] i t (some (linearRow (i + 1) (10 * (t + 1)))) := by
  obtain rfl | rfl : t = 0 ∨ t = 1 := by omega
  all_goals
    obtain rfl | rfl | rfl : i = 0 ∨ i = 1 ∨ i = 2 := by omega
    all_goals exact ⟨by simp [linearData], rfl, rfl⟩

theorem linearData_value {i t : ℕ} (hi : i < 3) (ht : t < 2) (c : String) : HasValue linearModel linearData [1, 2, 3] [10, 20] i t c (baseValue (some (linearRow (i + 1) (10 * (t + 1)))) c) :=
  ⟨hi, _, linearData_row hi ht, (valueIs_of_none rfl _ _ _).mpr rfl⟩

theorem linearRow_value {i t : ℕ} {c : String} (hc : c ≠ "constant") (h : ¬(c = "y1" ∧ i = 2 ∧ t = 1)) : baseValue (some (linearRow (i + 1) (10 * (t + 1)))) c = some ((i : ℝ) + 1 + 10 * (t + 1)) := by
  unfold baseValue linearRow
  rw [if_neg hc, Option.bind_some]
  dsimp only
  rw [if_neg (by rintro ⟨h1, h2, h3⟩; exact h ⟨h1, by omega, by omega⟩)]
  push_cast
  rfl

theorem linearData_ok : DataOk linearModel linearData [1, 2, 3] [10, 20] where
  keys := linearData_index.2.2
  outcomes := by rintro f o ⟨a, ⟨⟩, _⟩
  controls := by
    intro t ht c hc
    have ht := (linearModel_period t).mp ht
    have hv := linearData_value (i := 0) (by norm_num) ht c
    simp only [linearModel, Option.getD_some, List.mem_cons, List.not_mem_nil, or_false] at hc
    rcases hc with rfl | rfl
    · exact ⟨Or.inr (Or.inl rfl), 0, 1, hv⟩
    · rw [linearRow_value (by decide) (by omega)] at hv
      exact ⟨Or.inl (by simp [linearData]), 0, _, hv⟩
  measurements := by
    intro t v hv
    obtain ⟨ht, hv⟩ := (linearModel_update t v).mp hv
    have hv' : v ≠ "constant" := by rintro rfl; simp at hv
    refine ⟨Or.inl (by simp only [linearData, List.mem_cons] at hv ⊢; tauto), ?_⟩
    rintro ⟨y, hy⟩
    have h0 := linearData_value (i := 0) (by norm_num) ht v
    have h1 := linearData_value (i := 1) (by norm_num) ht v
    rw [linearRow_value hv' (by omega)] at h0 h1
    have h2 := (hy _).mp ⟨_, h0⟩
    have h3 := (hy _).mp ⟨_, h1⟩
    rw [← h3] at h2
    norm_num at h2
  observed := by
    intro t ht f hf
    have ht := (linearModel_period t).mp ht
    simp only [linearModel, Option.getD_some, List.mem_singleton] at hf
    subst hf
    refine ⟨Or.inl (by simp [linearData]), ?_⟩
    rintro i ⟨hi, r, hr, hv⟩
    rw [valueIs_of_none rfl] at hv
    cases r with
    | none =>
      have := linearData_row hi ht
      exact hr.2 _ this.1 this.2
    | some r =>
      have hmem := hr.1
      simp only [linearData, List.mem_cons, List.not_mem_nil, or_false] at hmem
      rcases hmem with rfl | rfl | rfl | rfl | rfl | rfl <;> simp [baseValue, linearRow] at hv

/-- The third individual. -/
noncomputable def linearCovariates : Covariates where
  isObserved t v := !decide (v = "y1" ∧ t = 1)
  control t c := if c = "constant" then 1 else 3 + 10 * (t + 1)
  factor t _ := 3 + 10 * (t + 1)

theorem linearData_complete {i t : ℕ} : ¬IncompleteControls linearModel (some (linearRow (i + 1) (10 * (t + 1)))) t := by
  rintro ⟨⟨c, hc, hv⟩, _⟩
  rw [valueIs_of_none rfl] at hv
  simp only [linearModel, Option.getD_some, List.mem_cons, List.not_mem_nil, or_false] at hc
  rcases hc with rfl | rfl <;> simp [baseValue, linearRow] at hv

theorem linearData_describes : Describes linearModel linearData [1, 2, 3] [10, 20] 2 linearCovariates (fun t _ => 3 + 10 * (t + 1)) := by
  intro t ht
  have ht := (linearModel_period t).mp ht
  refine ⟨_, linearData_row (by norm_num) ht, ?_, ?_, ?_⟩
  · intro v hv
    obtain ⟨_, hv⟩ := (linearModel_update t v).mp hv
    have hv' : v ≠ "constant" := by rintro rfl; simp at hv
    refine ⟨_, _, (valueIs_of_none rfl _ _ _).mpr rfl, Or.inr ⟨linearData_complete, rfl⟩, ?_⟩
    by_cases h : v = "y1" ∧ t = 1
    · obtain ⟨rfl, rfl⟩ := h
      refine ⟨rfl, fun b hb => ?_⟩
      simp [baseValue, linearRow] at hb
    · rw [linearRow_value hv' (by tauto)]
      refine ⟨by simp [linearCovariates]; tauto, fun b hb => ?_⟩
      have := Option.some.inj hb
      rw [← this]
      norm_num
  · intro _ c hc a ha
    rw [valueIs_of_none rfl] at ha
    simp only [linearModel, Option.getD_some, List.mem_cons, List.not_mem_nil, or_false] at hc
    rcases hc with rfl | rfl
    · simpa [baseValue, linearCovariates, eq_comm] using ha
    · rw [linearRow_value (by decide) (by simp)] at ha
      rw [Option.some.inj ha]
      simp [linearCovariates]
      norm_num
  · intro f hf
    refine ⟨linearData_complete, (valueIs_of_none rfl _ _ _).mpr ?_⟩
    simp only [linearModel, Option.getD_some, List.mem_singleton] at hf
    subst hf
    rw [linearRow_value (by decide) (by simp)]
    simp [linearCovariates]
    norm_num

/-- C70 and C71 apply to the example. -/
theorem linearModel_likelihood (custom : String → CustomFn) (nan : ℝ) : ∃ (qr : QR) (inputs : MaximizationInputs) (params : List (Loc × ℝ)) (out : LoglikeOutput) (updates : List (Nat × String)) (density : (Fin updates.length → ℝ) → ℝ)
    (Ω : Type) (_ : MeasurableSpace Ω) (P : Measure Ω) (E : Ω → Fin 1) (Z : Noise → Ω → ℝ), ValidQR qr ∧ getMaximizationInputs linearModel linearData = .ok inputs ∧
      inputs.loglike qr custom nan linearModel params = .ok out ∧ updates.length = 6 ∧ RandomNoise P linearValues E Z ∧
      P.map (fun ω => observedData updates linearCovariates (measurementValue linearModel linearValues linearCovariates (E ω) (fun j => Z j ω))) =
        (referenceMeasure updates linearCovariates).withDensity (fun y => ENNReal.ofReal (density y)) ∧
      out.contributions.length = 3 ∧ out.contributions.getD 2 0 = Real.log (density (observedData updates linearCovariates (fun t _ => 3 + 10 * (t + 1)))) := by
  obtain ⟨qr, hqr⟩ := validQR
  obtain ⟨pm, hpm, _, hupd⟩ := linearModel_ok
  obtain ⟨Ω, hΩ, P, E, Z, hP, hZ⟩ := exists_randomNoise (k := 1) (val := linearValues) (by intro e _; simp [linearValues]) (by simp [linearValues])
  obtain ⟨inputs, updates0, hin, hen0, hout⟩ := C70_likelihood_evaluates qr hpm linearModel_names linearModel_clean (by rintro a os ⟨⟩) (noNameClash_of_none rfl)
    (by
      rintro f ⟨spec, hmem⟩
      simp only [linearModel, List.mem_cons, Prod.mk.injEq, List.not_mem_nil, or_false] at hmem
      rcases hmem with ⟨rfl, rfl⟩ | ⟨rfl, rfl⟩ <;> decide)
    linearModel_linear.periods linearModel_linear.mixture (Or.inl rfl) linearData_index.1 linearData_index.2.1 linearData_ids.1 linearData_ids.2 linearData_ok
  have hix : inputs.index.Nodup := by
    have h := hin
    unfold getMaximizationInputs at h
    simp only [py_bind_ok, py_pure_ok] at h
    obtain ⟨pm', hpm', _, _, _, _, _, _, rfl⟩ := h
    exact C06_index_unique_partial hpm' linearModel_names
  have hfst : (inputs.index.map (fun l => (l, linearValues l))).map Prod.fst = inputs.index := by rw [List.map_map]; exact List.map_id _
  have hvals : ∀ l x, (l, x) ∈ inputs.index.map (fun l => (l, linearValues l)) → x = linearValues l := by
    intro l x h
    obtain ⟨l', _, h⟩ := List.mem_map.mp h
    rw [Prod.mk.injEq] at h
    rw [← h.1, ← h.2]
  obtain ⟨out, hout, hlen, hlen2, _⟩ := hout custom nan (inputs.index.map (fun l => (l, linearValues l))) linearValues (by rw [hfst]; exact hix) (fun l => by rw [hfst]) hvals (by
    intro fs hmem
    simp only [linearModel, List.mem_cons, List.not_mem_nil, or_false] at hmem
    rcases hmem with rfl | rfl
    · exact ⟨rfl, fun h => by simp at h⟩
    · exact ⟨rfl, fun h => by simp at h⟩)
  obtain ⟨updates, hen, density, _, hlaw, hlik⟩ := C71_likelihood_of_user_model hqr hpm linearModel_linear rfl linearModel_names (by rintro o x ⟨⟩ ⟨⟩) linearValues_proper custom nan
  obtain ⟨_, _, h⟩ := hlik linearData [1, 2, 3] [10, 20] inputs _ out linearData_index.1 linearData_index.2.1 linearData_ids.1 linearData_ids.2 (by rw [hfst]; exact hix) hvals hin hout 2 linearCovariates _ (by simp) linearData_describes
  refine ⟨qr, inputs, _, out, updates, density linearCovariates, Ω, hΩ, P, E, Z, hqr, hin, hout, ?_, hZ, hlaw linearCovariates P E Z hZ, hlen, h ⟨_, rfl, rfl, Or.inl rfl⟩⟩
  have hperm : updates.Perm (pm.updateInfo.map (fun r => (r.period, r.var))) := by
    obtain ⟨hu1, hu2, _⟩ := C01_update_info_exact hpm
    refine (List.perm_ext_iff_of_nodup hen.nodup hu1).mpr ?_
    rintro ⟨t, v⟩
    rw [hen.all, ← hu2]
    simp [List.mem_map]
  rw [hperm.length_eq, hupd]
  rfl

end Ex
end Skill
