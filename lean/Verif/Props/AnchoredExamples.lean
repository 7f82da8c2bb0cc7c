import Verif.Props.FilteredStates
import Verif.Props.PipelineExamples
/-
C85, C86 and C87 apply to a model with anchoring: the example of Props/PipelineExamples.lean, where the first factor is anchored in the outcome "q".
-/
namespace Skill
namespace Ex
open MeasureTheory ProbabilityTheory Spec

noncomputable def anchoredModel : ModelDict ℝ := { linearModel with anchoring := some { outcomes := some [("a", "q")], freeConstant := some true, freeLoadings := some true } }

theorem anchoredModel_ok : ∃ pm, processModel anchoredModel = .ok pm ∧ pm.dimensions.nPeriods = 2 ∧
    pm.updateInfo.map (fun r => (r.period, r.var)) = [(0, "y1"), (0, "y2"), (0, "w"), (0, "q_a"), (1, "y1"), (1, "y2"), (1, "w"), (1, "q_a")] := by
  have h : (processModel anchoredModel >>= fun pm => pure (pm.dimensions.nPeriods, pm.updateInfo.map (fun r => (r.period, r.var)))) =
      (.ok (2, [(0, "y1"), (0, "y2"), (0, "w"), (0, "q_a"), (1, "y1"), (1, "y2"), (1, "w"), (1, "q_a")]) : Py _) := by decide +kernel
  obtain ⟨pm, hpm, h⟩ := py_bind_ok.mp h
  rw [py_pure_ok, Prod.mk.injEq] at h
  exact ⟨pm, hpm, h.1, h.2⟩

theorem anchoredModel_anchoredIn (f o : String) : AnchoredIn anchoredModel f o ↔ f = "a" ∧ o = "q" := by
  constructor
  · rintro ⟨a, ⟨⟩, os, ⟨⟩, h⟩
    simpa using h
  · rintro ⟨rfl, rfl⟩
    exact ⟨_, rfl, _, rfl, by simp⟩

theorem anchoredModel_anchors (v f : String) : Anchors anchoredModel v f ↔ f = "a" ∧ v = "q_a" := by
  constructor
  · rintro ⟨o, h, rfl⟩
    obtain ⟨rfl, rfl⟩ := (anchoredModel_anchoredIn f o).mp h
    exact ⟨rfl, rfl⟩
  · rintro ⟨rfl, rfl⟩
    exact ⟨"q", (anchoredModel_anchoredIn _ _).mpr ⟨rfl, rfl⟩, rfl⟩

theorem anchoredModel_names : GoodNames anchoredModel where
  keys := ⟨by decide, by rintro a os ⟨⟩ ⟨⟩; decide⟩
  distinct := by decide
  controls := by decide
  chars := by decide
  reserved := by decide
  registered := linearModel_names.registered

theorem anchoredModel_period (t : ℕ) : IsPeriod anchoredModel t ↔ t < 2 := by
  obtain ⟨pm, hpm, h, _⟩ := anchoredModel_ok
  rw [isPeriod_iff hpm, h]

theorem anchoredModel_update (t : ℕ) (v : String) : IsUpdate anchoredModel t v ↔ t < 2 ∧ v ∈ ["y1", "y2", "w", "q_a"] := by
  obtain ⟨pm, hpm, _, h⟩ := anchoredModel_ok
  obtain ⟨_, hu, _⟩ := C01_update_info_exact hpm
  rw [← hu]
  have : (∃ r ∈ pm.updateInfo, r.period = t ∧ r.var = v) ↔ (t, v) ∈ pm.updateInfo.map (fun r => (r.period, r.var)) := by simp [List.mem_map]
  rw [this, h]
  simp only [List.mem_cons, Prod.mk.injEq, List.not_mem_nil, or_false]
  constructor
  · rintro (⟨rfl, rfl⟩ | ⟨rfl, rfl⟩ | ⟨rfl, rfl⟩ | ⟨rfl, rfl⟩ | ⟨rfl, rfl⟩ | ⟨rfl, rfl⟩ | ⟨rfl, rfl⟩ | ⟨rfl, rfl⟩) <;> simp
  · rintro ⟨ht, hv⟩
    obtain rfl | rfl : t = 0 ∨ t = 1 := by omega
    · simpa using hv
    · simpa using hv

theorem anchoredModel_notMeasured (t : ℕ) (f : String) : ¬Measures anchoredModel t "q_a" f := by
  rintro ⟨spec, hmem, ms, hms, hv⟩
  simp only [anchoredModel, linearModel, List.mem_cons, Prod.mk.injEq, List.not_mem_nil, or_false] at hmem
  have hms := List.mem_of_getElem? hms
  rcases hmem with ⟨rfl, rfl⟩ | ⟨rfl, rfl⟩
  · simp only [List.mem_cons, List.not_mem_nil, or_false, or_self] at hms
    subst hms
    simp at hv
  · simp only [List.mem_cons, List.not_mem_nil, or_false, or_self] at hms
    subst hms
    simp at hv

theorem anchoredModel_clean : CleanAnchoring anchoredModel where
  latent := by
    intro f o h
    obtain ⟨rfl, rfl⟩ := (anchoredModel_anchoredIn f o).mp h
    exact ⟨_, List.mem_cons_self⟩
  notMeasured := by
    intro v f t g h
    obtain ⟨rfl, rfl⟩ := (anchoredModel_anchors v f).mp h
    exact anchoredModel_notMeasured t g
  distinct := by
    intro v f g h h'
    rw [((anchoredModel_anchors v f).mp h).1, ((anchoredModel_anchors v g).mp h').1]

theorem anchoredModel_order : SameOrder anchoredModel := by
  rintro a os ⟨⟩ ⟨⟩
  decide

theorem anchoredModel_clash : NoNameClash anchoredModel := by
  intro f o g p h h'
  obtain ⟨rfl, rfl⟩ := (anchoredModel_anchoredIn f o).mp h
  obtain ⟨rfl, rfl⟩ := (anchoredModel_anchoredIn g p).mp h'
  decide

theorem anchoredModel_linear : LinearModel anchoredModel 1 where
  anchoring := ⟨anchoredModel_clean, anchoredModel_order, anchoredModel_clash⟩
  periods := (anchoredModel_period 1).mpr (by norm_num)
  measured := fun t ht => linearModel_linear.measured t ((linearModel_period t).mpr ((anchoredModel_period t).mp ht))
  transitions := linearModel_linear.transitions
  mixture := linearModel_linear.mixture
  single := Or.inl rfl

theorem anchoredValues_proper : ProperValues anchoredModel 1 linearValues where
  positive := linearValues_proper.positive
  sum := linearValues_proper.sum
  sds := by
    intro t v _
    simp [linearValues]
  scales := by
    intro t f _
    unfold anchorScale
    split <;> simp [linearValues]

noncomputable def anchoredData : LongData ℝ := { linearData with columns := ["y1", "y2", "w", "x", "o", "q"] }

theorem anchoredData_index : IndexOk anchoredData ∧ NoUnusedPeriods anchoredData ∧ UniqueKeys anchoredData :=
  ⟨⟨linearData_index.1.1, linearData_index.1.2, linearData_index.1.3, linearData_index.1.4⟩, linearData_index.2.1, linearData_index.2.2⟩

theorem anchoredData_ids : IdsOf anchoredData [1, 2, 3] ∧ PeriodsOf anchoredData [10, 20] := linearData_ids

theorem anchoredData_row {i t : ℕ} (hi : i < 3) (ht : t < 2) : RowOf anchoredData [1, 2, 3] [10, 20] i t (some (linearRow (i + 1) (10 * (t + 1)))) := linearData_row hi ht

/-- The column that contains the values of a variable. -/
def columnOf (c : String) : String := if c = "q_a" then "q" else c

theorem anchoredModel_value {r : Option (LongRow ℝ)} {c : String} {v : Option ℝ} : ValueIs anchoredModel r c v ↔ v = baseValue r (columnOf c) := by
  unfold columnOf
  constructor
  · rintro (⟨f, o, h, rfl, rfl⟩ | ⟨h, rfl⟩)
    · obtain ⟨rfl, rfl⟩ := (anchoredModel_anchoredIn f o).mp h
      rfl
    · rw [if_neg (fun hc => h ⟨"a", (anchoredModel_anchors _ _).mpr ⟨rfl, hc⟩⟩)]
  · intro h
    split_ifs at h with hc
    · subst hc
      exact Or.inl ⟨"a", "q", (anchoredModel_anchoredIn _ _).mpr ⟨rfl, rfl⟩, rfl, h⟩
    · exact Or.inr ⟨fun ⟨f, hf⟩ => hc ((anchoredModel_anchors _ _).mp hf).2, h⟩

theorem anchoredData_value {i t : ℕ} (hi : i < 3) (ht : t < 2) (c : String) :
    HasValue anchoredModel anchoredData [1, 2, 3] [10, 20] i t c (baseValue (some (linearRow (i + 1) (10 * (t + 1)))) (columnOf c)) := ⟨hi, _, anchoredData_row hi ht, anchoredModel_value.mpr rfl⟩

theorem columnOf_update {t : ℕ} {v : String} (hv : IsUpdate anchoredModel t v) : columnOf v ≠ "constant" ∧ (columnOf v = "y1" ↔ v = "y1") ∧ HasVariable anchoredModel anchoredData v := by
  obtain ⟨_, hv⟩ := (anchoredModel_update t v).mp hv
  simp only [List.mem_cons, List.not_mem_nil, or_false] at hv
  rcases hv with rfl | rfl | rfl | rfl
  · exact ⟨by decide, by decide, Or.inl (by simp [anchoredData])⟩
  · exact ⟨by decide, by decide, Or.inl (by simp [anchoredData])⟩
  · exact ⟨by decide, by decide, Or.inl (by simp [anchoredData])⟩
  · exact ⟨by decide, by decide, Or.inr (Or.inr ⟨"a", (anchoredModel_anchors _ _).mpr ⟨rfl, rfl⟩⟩)⟩

theorem anchoredData_ok : DataOk anchoredModel anchoredData [1, 2, 3] [10, 20] where
  keys := anchoredData_index.2.2
  outcomes := by
    intro f o h
    obtain ⟨rfl, rfl⟩ := (anchoredModel_anchoredIn f o).mp h
    exact Or.inl (by simp [anchoredData])
  controls := by
    intro t ht c hc
    have ht := (anchoredModel_period t).mp ht
    have hv := anchoredData_value (i := 0) (by norm_num) ht c
    simp only [anchoredModel, linearModel, Option.getD_some, List.mem_cons, List.not_mem_nil, or_false] at hc
    rcases hc with rfl | rfl
    · exact ⟨Or.inr (Or.inl rfl), 0, 1, hv⟩
    · rw [linearRow_value (by decide) (by omega)] at hv
      exact ⟨Or.inl (by simp [anchoredData]), 0, _, hv⟩
  measurements := by
    intro t v hv
    obtain ⟨h1, _, h3⟩ := columnOf_update hv
    obtain ⟨ht, hv⟩ := (anchoredModel_update t v).mp hv
    refine ⟨h3, ?_⟩
    rintro ⟨y, hy⟩
    have h0 := anchoredData_value (i := 0) (by norm_num) ht v
    have h1' := anchoredData_value (i := 1) (by norm_num) ht v
    rw [linearRow_value h1 (by omega)] at h0 h1'
    have h2 := (hy _).mp ⟨_, h0⟩
    have h3 := (hy _).mp ⟨_, h1'⟩
    rw [← h3] at h2
    norm_num at h2
  observed := by
    intro t ht f hf
    have ht := (anchoredModel_period t).mp ht
    simp only [anchoredModel, linearModel, Option.getD_some, List.mem_singleton] at hf
    subst hf
    refine ⟨Or.inl (by simp [anchoredData]), ?_⟩
    rintro i ⟨hi, r, hr, hv⟩
    rw [anchoredModel_value] at hv
    cases r with
    | none =>
      have := anchoredData_row hi ht
      exact hr.2 _ this.1 this.2
    | some r =>
      have hmem := hr.1
      simp only [anchoredData, linearData, List.mem_cons, List.not_mem_nil, or_false] at hmem
      rcases hmem with rfl | rfl | rfl | rfl | rfl | rfl <;> simp [baseValue, linearRow, columnOf] at hv

theorem anchoredData_complete {i t : ℕ} : ¬IncompleteControls anchoredModel (some (linearRow (i + 1) (10 * (t + 1)))) t := by
  rintro ⟨⟨c, hc, hv⟩, _⟩
  rw [anchoredModel_value] at hv
  simp only [anchoredModel, linearModel, Option.getD_some, List.mem_cons, List.not_mem_nil, or_false] at hc
  rcases hc with rfl | rfl <;> simp [baseValue, linearRow, columnOf] at hv

theorem anchoredData_describes : Describes anchoredModel anchoredData [1, 2, 3] [10, 20] 2 linearCovariates (fun t _ => 3 + 10 * (t + 1)) := by
  intro t ht
  have ht := (anchoredModel_period t).mp ht
  refine ⟨_, anchoredData_row (by norm_num) ht, ?_, ?_, ?_⟩
  · intro v hv
    obtain ⟨h1, h2, _⟩ := columnOf_update hv
    refine ⟨_, _, anchoredModel_value.mpr rfl, Or.inr ⟨anchoredData_complete, rfl⟩, ?_⟩
    by_cases h : v = "y1" ∧ t = 1
    · obtain ⟨rfl, rfl⟩ := h
      refine ⟨rfl, fun b hb => ?_⟩
      simp [baseValue, linearRow, columnOf] at hb
    · rw [linearRow_value h1 (by rw [h2]; tauto)]
      refine ⟨by simp [linearCovariates]; tauto, fun b hb => ?_⟩
      have := Option.some.inj hb
      rw [← this]
      norm_num
  · intro _ c hc a ha
    rw [anchoredModel_value] at ha
    simp only [anchoredModel, linearModel, Option.getD_some, List.mem_cons, List.not_mem_nil, or_false] at hc
    rcases hc with rfl | rfl
    · simpa [baseValue, linearCovariates, eq_comm, columnOf] using ha
    · rw [linearRow_value (by decide) (by simp [columnOf])] at ha
      rw [Option.some.inj ha]
      simp [linearCovariates]
      norm_num
  · intro f hf
    refine ⟨anchoredData_complete, anchoredModel_value.mpr ?_⟩
    simp only [anchoredModel, linearModel, Option.getD_some, List.mem_singleton] at hf
    subst hf
    rw [linearRow_value (by decide) (by simp [columnOf])]
    simp [linearCovariates]
    norm_num

theorem anchoredModel_safe (f : String) (h : IsLatent anchoredModel f) : querySafe f ∧ f ≠ "period" ∧ f ≠ "id" := by
  obtain ⟨spec, hmem⟩ := h
  simp only [anchoredModel, linearModel, List.mem_cons, Prod.mk.injEq, List.not_mem_nil, or_false] at hmem
  rcases hmem with ⟨rfl, rfl⟩ | ⟨rfl, rfl⟩ <;> decide

theorem anchoredModel_usable (custom : String → CustomFn) (v : String × FactorSpec ℝ → String → ℝ) :
    ∀ fs ∈ anchoredModel.factors, TransFn.Usable (allFactors anchoredModel) (v fs) (transFnOf (custom fs.1) fs.2.transition) := by
  intro fs hmem
  simp only [anchoredModel, linearModel, List.mem_cons, List.not_mem_nil, or_false] at hmem
  rcases hmem with rfl | rfl
  · exact ⟨rfl, fun h => by simp at h⟩
  · exact ⟨rfl, fun h => by simp at h⟩

/-- C70 and C87 apply to the example: the contribution of the anchoring outcome in the first period for the third individual. -/
theorem anchoredModel_likelihood (custom : String → CustomFn) (nan : ℝ) : ∃ (qr : QR) (inputs : MaximizationInputs) (params : List (Loc × ℝ)) (out : LoglikeOutput) (updates : List (Nat × String))
    (density : Covariates → (Fin updates.length → ℝ) → ℝ) (j : Fin updates.length), ValidQR qr ∧ getMaximizationInputs anchoredModel anchoredData = .ok inputs ∧
      inputs.loglike qr custom nan anchoredModel params = .ok out ∧ updates.length = 8 ∧ updates.get j = (0, "q_a") ∧
      (let p := fun (s : Nat) (w : String) => s ≤ 0 ∧ IsMeasurement anchoredModel s w
       let p' := fun (s : Nat) (w : String) => (s ≤ 0 ∧ IsMeasurement anchoredModel s w) ∨ (s = 0 ∧ w = "q_a")
       let y := fun (t : Nat) (_ : String) => (3 + 10 * (t + 1) : ℝ)
       (out.allContributions.getD j []).getD 2 0 =
         Real.log (density (linearCovariates.only p') (observedData updates (linearCovariates.only p') y)) - Real.log (density (linearCovariates.only p) (observedData updates (linearCovariates.only p) y))) := by
  obtain ⟨qr, hqr⟩ := validQR
  obtain ⟨pm, hpm, _, hupd⟩ := anchoredModel_ok
  obtain ⟨inputs, updates0, hin, hen0, hout⟩ := C70_likelihood_evaluates qr hpm anchoredModel_names anchoredModel_clean anchoredModel_order anchoredModel_clash (fun f hf => (anchoredModel_safe f hf).1)
    anchoredModel_linear.periods anchoredModel_linear.mixture (Or.inl rfl) anchoredData_index.1 anchoredData_index.2.1 anchoredData_ids.1 anchoredData_ids.2 anchoredData_ok
  have hix : inputs.index.Nodup := by
    have h := hin
    unfold getMaximizationInputs at h
    simp only [py_bind_ok, py_pure_ok] at h
    obtain ⟨pm', hpm', _, _, _, _, _, _, rfl⟩ := h
    exact C06_index_unique_partial hpm' anchoredModel_names
  have hfst : (inputs.index.map (fun l => (l, linearValues l))).map Prod.fst = inputs.index := by rw [List.map_map]; exact List.map_id _
  have hvals : ∀ l x, (l, x) ∈ inputs.index.map (fun l => (l, linearValues l)) → x = linearValues l := by
    intro l x h
    obtain ⟨l', _, h⟩ := List.mem_map.mp h
    rw [Prod.mk.injEq] at h
    rw [← h.1, ← h.2]
  obtain ⟨out, hout, hlen, hlen2, _⟩ := hout custom nan (inputs.index.map (fun l => (l, linearValues l))) linearValues (by rw [hfst]; exact hix) (fun l => by rw [hfst]) hvals (anchoredModel_usable custom _)
  obtain ⟨updates, hen, density, _, hlaw, hlik⟩ := C87_anchored_likelihood hqr hpm anchoredModel_linear anchoredModel_names (by rintro o x ⟨⟩ ⟨⟩) anchoredValues_proper custom nan
  obtain ⟨_, h⟩ := hlik anchoredData [1, 2, 3] [10, 20] inputs _ out anchoredData_index.1 anchoredData_index.2.1 anchoredData_ids.1 anchoredData_ids.2 (by rw [hfst]; exact hix) hvals hin hout
  obtain ⟨_, h, _⟩ := h 2 linearCovariates _ (by simp) anchoredData_describes
  obtain ⟨j, hj⟩ := List.mem_iff_get.mp ((hen.all 0 "q_a").mpr ((anchoredModel_update _ _).mpr (by simp)))
  have hperm : updates.Perm (pm.updateInfo.map (fun r => (r.period, r.var))) := by
    obtain ⟨hu1, hu2, _⟩ := C01_update_info_exact hpm
    refine (List.perm_ext_iff_of_nodup hen.nodup hu1).mpr ?_
    rintro ⟨t, v⟩
    rw [hen.all, ← hu2]
    simp [List.mem_map]
  exact ⟨qr, inputs, _, out, updates, density, j, hqr, hin, hout, by rw [hperm.length_eq, hupd]; rfl, hj, h j 0 "q_a" hj (fun ⟨f, hf⟩ => anchoredModel_notMeasured 0 f hf)⟩

/-- C85 and C86 apply to the example: the filtered state of the third individual in the second period, in the units of the anchoring outcome. -/
theorem anchoredModel_filtered (custom : String → CustomFn) (nan : ℝ) : ∃ (qr : QR) (params : List (Loc × ℝ)) (out : FilteredStates) (updates : List (Nat × String))
    (mean : (Fin updates.length → ℝ) → ℝ) (Ω : Type) (_ : MeasurableSpace Ω) (P : Measure Ω) (E : Ω → Fin 1) (Z : Noise → Ω → ℝ) (cells : String → ℝ), ValidQR qr ∧
      getFilteredStates qr custom nan anchoredModel anchoredData params = .ok out ∧ RandomNoise P linearValues E Z ∧
      (let data := fun ω => observedData updates (linearCovariates.only (fun s v => s ≤ 1 ∧ IsMeasurement anchoredModel s v)) (measurementValue anchoredModel linearValues linearCovariates (E ω) (fun a => Z a ω))
       P[fun ω => latentStates anchoredModel linearValues linearCovariates (E ω) (fun a => Z a ω) 1 "a" | MeasurableSpace.comap data inferInstance] =ᵐ[P] fun ω => mean (data ω)) ∧
      out.anchored.states.rows[5]? = some (1, cells) ∧ cells "id" = 2 ∧
      cells "a" = 1 / 2 + 1 / 2 * mean (observedData updates (linearCovariates.only (fun s v => s ≤ 1 ∧ IsMeasurement anchoredModel s v)) (fun t _ => 3 + 10 * (t + 1))) := by
  obtain ⟨qr, hqr⟩ := validQR
  obtain ⟨pm, hpm, hper, hupd⟩ := anchoredModel_ok
  obtain ⟨Ω, hΩ, P, E, Z, hP, hZ⟩ := exists_randomNoise (k := 1) (val := linearValues) (by intro e _; simp [linearValues]) (by simp [linearValues])
  have ha : IsLatent anchoredModel "a" := ⟨_, List.mem_cons_self⟩
  let params : List (Loc × ℝ) := pm.paramsIndex.map (fun l => (l, linearValues l))
  have hfst : params.map Prod.fst = pm.paramsIndex := by
    simp only [params, List.map_map]
    exact List.map_id _
  have hnodup : (params.map Prod.fst).Nodup := by
    rw [hfst]
    exact C06_index_unique_partial hpm anchoredModel_names
  have hvals : ∀ l x, (l, x) ∈ params → x = linearValues l := by
    intro l x h
    obtain ⟨l', _, h⟩ := List.mem_map.mp h
    rw [Prod.mk.injEq] at h
    rw [← h.1, ← h.2]
  obtain ⟨out, hout, _⟩ := C86_get_filtered_states qr hpm anchoredModel_names anchoredModel_clean anchoredModel_order anchoredModel_clash (fun f hf => (anchoredModel_safe f hf).1) (fun f hf => (anchoredModel_safe f hf).2)
    anchoredModel_linear.periods (fun t ht => by
      obtain ⟨v, f, h⟩ := anchoredModel_linear.measured t ht
      exact ⟨v, f, h, fun ⟨g, hg⟩ => anchoredModel_clean.notMeasured v g t f hg h⟩)
    anchoredModel_linear.mixture (Or.inl rfl) anchoredData_index.1 anchoredData_index.2.1 anchoredData_ids.1 anchoredData_ids.2 anchoredData_ok custom nan hnodup
    (fun l hl => by rw [hfst]; exact (mem_paramsIndex_iff hpm l).mpr hl) hvals (anchoredModel_usable custom _)
  obtain ⟨updates, hen, mean, _, hlaw, hrows⟩ := C85_filtered_states hqr hpm anchoredModel_linear (Or.inr rfl) anchoredModel_names (fun f hf => (anchoredModel_safe f hf).2) (by rintro o x ⟨⟩ ⟨⟩) anchoredValues_proper custom nan
  obtain ⟨_, hrow⟩ := hrows anchoredData [1, 2, 3] [10, 20] params out anchoredData_index.1 anchoredData_index.2.1 anchoredData_ids.1 anchoredData_ids.2 hnodup hvals hout
  obtain ⟨_, cells, h1, h2, h3, h4⟩ := hrow 1 2 linearCovariates _ anchoredModel_linear.periods (by simp) anchoredData_describes
  refine ⟨qr, params, out, updates, fun y => mean linearCovariates 1 y "a", Ω, hΩ, P, E, Z, cells, hqr, hout, hZ,
    (hlaw linearCovariates 1 "a" anchoredModel_linear.periods ha P E Z hZ).2.2, h1, by rw [h3]; norm_num, ?_⟩
  rw [h4 "a" ha]
  obtain ⟨a1, _, a3⟩ := anchor_some anchoredModel_names.keys ((anchoredModel_anchoredIn "a" "q").mpr ⟨rfl, rfl⟩) linearValues 1
  rw [anchoredValue, a1, a3 (by rintro ⟨a, ⟨⟩, h⟩; cases h)]
  simp [linearValues]

end Ex
end Skill
