import Verif.Props.SequentialLikelihood
import Verif.Props.AnchoredExamples
/-
C100 applies to a model with anchoring where one factor has the transition function log_ces and the other one a function written by the user.
-/
namespace Skill
namespace Ex
open MeasureTheory ProbabilityTheory Spec

noncomputable def nonlinearModel : ModelDict ℝ := { anchoredModel with
  factors := [("a", { measurements := [["y1", "y2"], ["y1", "y2"]], transition := .named "log_ces" }), ("b", { measurements := [["w"], ["w"]], transition := .custom (some "user_function") (some ["p"]) })] }

/-- The product of two factors and a parameter. -/
noncomputable def userFunction (_ : String) : CustomFn := (["a", "b"], fun args _ params => (args.map Prod.snd).prod * (params.map Prod.snd).prod)

theorem nonlinearModel_ok : ∃ pm, processModel nonlinearModel = .ok pm ∧ pm.dimensions.nPeriods = 2 ∧
    pm.updateInfo.map (fun r => (r.period, r.var)) = [(0, "y1"), (0, "y2"), (0, "w"), (0, "q_a"), (1, "y1"), (1, "y2"), (1, "w"), (1, "q_a")] := by
  have h : (processModel nonlinearModel >>= fun pm => pure (pm.dimensions.nPeriods, pm.updateInfo.map (fun r => (r.period, r.var)))) =
      (.ok (2, [(0, "y1"), (0, "y2"), (0, "w"), (0, "q_a"), (1, "y1"), (1, "y2"), (1, "w"), (1, "q_a")]) : Py _) := by decide +kernel
  obtain ⟨pm, hpm, h⟩ := py_bind_ok.mp h
  rw [py_pure_ok, Prod.mk.injEq] at h
  exact ⟨pm, hpm, h.1, h.2⟩

theorem nonlinearModel_anchoredIn (f o : String) : AnchoredIn nonlinearModel f o ↔ f = "a" ∧ o = "q" := by
  constructor
  · rintro ⟨a, ⟨⟩, os, ⟨⟩, h⟩
    simpa using h
  · rintro ⟨rfl, rfl⟩
    exact ⟨_, rfl, _, rfl, by simp⟩

theorem nonlinearModel_anchors (v f : String) : Anchors nonlinearModel v f ↔ f = "a" ∧ v = "q_a" := by
  constructor
  · rintro ⟨o, h, rfl⟩
    obtain ⟨rfl, rfl⟩ := (nonlinearModel_anchoredIn f o).mp h
    exact ⟨rfl, rfl⟩
  · rintro ⟨rfl, rfl⟩
    exact ⟨"q", (nonlinearModel_anchoredIn _ _).mpr ⟨rfl, rfl⟩, rfl⟩

theorem nonlinearModel_names : GoodNames nonlinearModel where
  keys := ⟨by decide, by rintro a os ⟨⟩ ⟨⟩; decide⟩
  distinct := by decide
  controls := by decide
  chars := by decide
  reserved := by decide
  registered := by
    intro f spec fn ps hmem hs
    simp only [nonlinearModel, List.mem_cons, Prod.mk.injEq, List.not_mem_nil, or_false] at hmem
    rcases hmem with ⟨rfl, rfl⟩ | ⟨rfl, rfl⟩ <;> simp at hs
    obtain ⟨rfl, rfl⟩ := hs
    decide

theorem nonlinearModel_period (t : ℕ) : IsPeriod nonlinearModel t ↔ t < 2 := by
  obtain ⟨pm, hpm, h, _⟩ := nonlinearModel_ok
  rw [isPeriod_iff hpm, h]

theorem nonlinearModel_update (t : ℕ) (v : String) : IsUpdate nonlinearModel t v ↔ t < 2 ∧ v ∈ ["y1", "y2", "w", "q_a"] := by
  obtain ⟨pm, hpm, _, h⟩ := nonlinearModel_ok
  obtain ⟨_, hu, _⟩ := C01_update_info_exact hpm
  rw [← hu]
  have : (∃ r ∈ pm.updateInfo, r.period = t ∧ r.var = v) ↔ (t, v) ∈ pm.updateInfo.map (fun r => (r.period, r.var)) := by simp [List.mem_map]
  rw [this, h]
  simp only [List.mem_cons, Prod.mk.injEq, List.not_mem_nil, or_false]
  constructor
  · rintro (⟨rfl, rfl⟩ | ⟨rfl, rfl⟩ | ⟨rfl, rfl⟩ | ⟨rfl, rfl⟩ | ⟨rfl, rfl⟩ | ⟨rfl, rfl⟩ | ⟨rfl, rfl⟩ | ⟨rfl, rfl⟩) <;> simp
  · rintro ⟨ht, hv⟩
    obtain rfl | rfl : t = 0 ∨ t = 1 := by omega
    · simpa using hv
    · simpa using hv

theorem nonlinearModel_notMeasured (t : ℕ) (f : String) : ¬Measures nonlinearModel t "q_a" f := by
  rintro ⟨spec, hmem, ms, hms, hv⟩
  simp only [nonlinearModel, List.mem_cons, Prod.mk.injEq, List.not_mem_nil, or_false] at hmem
  have hms := List.mem_of_getElem? hms
  rcases hmem with ⟨rfl, rfl⟩ | ⟨rfl, rfl⟩
  · simp only [List.mem_cons, List.not_mem_nil, or_false, or_self] at hms
    subst hms
    simp at hv
  · simp only [List.mem_cons, List.not_mem_nil, or_false, or_self] at hms
    subst hms
    simp at hv

theorem nonlinearModel_clean : CleanAnchoring nonlinearModel where
  latent := by
    intro f o h
    obtain ⟨rfl, rfl⟩ := (nonlinearModel_anchoredIn f o).mp h
    exact ⟨_, List.mem_cons_self⟩
  notMeasured := by
    intro v f t g h
    obtain ⟨rfl, rfl⟩ := (nonlinearModel_anchors v f).mp h
    exact nonlinearModel_notMeasured t g
  distinct := by
    intro v f g h h'
    rw [((nonlinearModel_anchors v f).mp h).1, ((nonlinearModel_anchors v g).mp h').1]

theorem nonlinearModel_order : SameOrder nonlinearModel := by
  rintro a os ⟨⟩ ⟨⟩
  decide

theorem nonlinearModel_clash : NoNameClash nonlinearModel := by
  intro f o g p h h'
  obtain ⟨rfl, rfl⟩ := (nonlinearModel_anchoredIn f o).mp h
  obtain ⟨rfl, rfl⟩ := (nonlinearModel_anchoredIn g p).mp h'
  decide

theorem nonlinearValues_proper : ProperValues nonlinearModel 1 linearValues where
  positive := linearValues_proper.positive
  sum := linearValues_proper.sum
  sds := by
    intro t v _
    simp [linearValues]
  scales := by
    intro t f _
    unfold anchorScale
    split <;> simp [linearValues]

theorem nonlinearModel_value {r : Option (LongRow ℝ)} {c : String} {v : Option ℝ} : ValueIs nonlinearModel r c v ↔ v = baseValue r (columnOf c) := by
  unfold columnOf
  constructor
  · rintro (⟨f, o, h, rfl, rfl⟩ | ⟨h, rfl⟩)
    · obtain ⟨rfl, rfl⟩ := (nonlinearModel_anchoredIn f o).mp h
      rfl
    · rw [if_neg (fun hc => h ⟨"a", (nonlinearModel_anchors _ _).mpr ⟨rfl, hc⟩⟩)]
  · intro h
    split_ifs at h with hc
    · subst hc
      exact Or.inl ⟨"a", "q", (nonlinearModel_anchoredIn _ _).mpr ⟨rfl, rfl⟩, rfl, h⟩
    · exact Or.inr ⟨fun ⟨f, hf⟩ => hc ((nonlinearModel_anchors _ _).mp hf).2, h⟩

theorem nonlinearData_value {i t : ℕ} (hi : i < 3) (ht : t < 2) (c : String) :
    HasValue nonlinearModel anchoredData [1, 2, 3] [10, 20] i t c (baseValue (some (linearRow (i + 1) (10 * (t + 1)))) (columnOf c)) := ⟨hi, _, anchoredData_row hi ht, nonlinearModel_value.mpr rfl⟩

theorem nonlinear_columnOf {t : ℕ} {v : String} (hv : IsUpdate nonlinearModel t v) : columnOf v ≠ "constant" ∧ (columnOf v = "y1" ↔ v = "y1") ∧ HasVariable nonlinearModel anchoredData v := by
  obtain ⟨_, hv⟩ := (nonlinearModel_update t v).mp hv
  simp only [List.mem_cons, List.not_mem_nil, or_false] at hv
  rcases hv with rfl | rfl | rfl | rfl
  · exact ⟨by decide, by decide, Or.inl (by simp [anchoredData])⟩
  · exact ⟨by decide, by decide, Or.inl (by simp [anchoredData])⟩
  · exact ⟨by decide, by decide, Or.inl (by simp [anchoredData])⟩
  · exact ⟨by decide, by decide, Or.inr (Or.inr ⟨"a", (nonlinearModel_anchors _ _).mpr ⟨rfl, rfl⟩⟩)⟩

theorem nonlinearData_ok : DataOk nonlinearModel anchoredData [1, 2, 3] [10, 20] where
  keys := anchoredData_index.2.2
  outcomes := by
    intro f o h
    obtain ⟨rfl, rfl⟩ := (nonlinearModel_anchoredIn f o).mp h
    exact Or.inl (by simp [anchoredData])
  controls := by
    intro t ht c hc
    have ht := (nonlinearModel_period t).mp ht
    have hv := nonlinearData_value (i := 0) (by norm_num) ht c
    simp only [nonlinearModel, anchoredModel, linearModel, Option.getD_some, List.mem_cons, List.not_mem_nil, or_false] at hc
    rcases hc with rfl | rfl
    · exact ⟨Or.inr (Or.inl rfl), 0, 1, hv⟩
    · rw [linearRow_value (by decide) (by omega)] at hv
      exact ⟨Or.inl (by simp [anchoredData]), 0, _, hv⟩
  measurements := by
    intro t v hv
    obtain ⟨h1, _, h3⟩ := nonlinear_columnOf hv
    obtain ⟨ht, hv⟩ := (nonlinearModel_update t v).mp hv
    refine ⟨h3, ?_⟩
    rintro ⟨y, hy⟩
    have h0 := nonlinearData_value (i := 0) (by norm_num) ht v
    have h1' := nonlinearData_value (i := 1) (by norm_num) ht v
    rw [linearRow_value h1 (by omega)] at h0 h1'
    have h2 := (hy _).mp ⟨_, h0⟩
    have h3 := (hy _).mp ⟨_, h1'⟩
    rw [← h3] at h2
    norm_num at h2
  observed := by
    intro t ht f hf
    have ht := (nonlinearModel_period t).mp ht
    simp only [nonlinearModel, anchoredModel, linearModel, Option.getD_some, List.mem_singleton] at hf
    subst hf
    refine ⟨Or.inl (by simp [anchoredData]), ?_⟩
    rintro i ⟨hi, r, hr, hv⟩
    rw [nonlinearModel_value] at hv
    cases r with
    | none =>
      have := anchoredData_row hi ht
      exact hr.2 _ this.1 this.2
    | some r =>
      have hmem := hr.1
      simp only [anchoredData, linearData, List.mem_cons, List.not_mem_nil, or_false] at hmem
      rcases hmem with rfl | rfl | rfl | rfl | rfl | rfl <;> simp [baseValue, linearRow, columnOf] at hv

theorem nonlinearData_complete {i t : ℕ} : ¬IncompleteControls nonlinearModel (some (linearRow (i + 1) (10 * (t + 1)))) t := by
  rintro ⟨⟨c, hc, hv⟩, _⟩
  rw [nonlinearModel_value] at hv
  simp only [nonlinearModel, anchoredModel, linearModel, Option.getD_some, List.mem_cons, List.not_mem_nil, or_false] at hc
  rcases hc with rfl | rfl <;> simp [baseValue, linearRow, columnOf] at hv

theorem nonlinearData_describes : Describes nonlinearModel anchoredData [1, 2, 3] [10, 20] 2 linearCovariates (fun t _ => 3 + 10 * (t + 1)) := by
  intro t ht
  have ht := (nonlinearModel_period t).mp ht
  refine ⟨_, anchoredData_row (by norm_num) ht, ?_, ?_, ?_⟩
  · intro v hv
    obtain ⟨h1, h2, _⟩ := nonlinear_columnOf hv
    refine ⟨_, _, nonlinearModel_value.mpr rfl, Or.inr ⟨nonlinearData_complete, rfl⟩, ?_⟩
    by_cases h : v = "y1" ∧ t = 1
    · obtain ⟨rfl, rfl⟩ := h
      refine ⟨rfl, fun b hb => ?_⟩
      simp [baseValue, linearRow, columnOf] at hb
    · rw [linearRow_value h1 (by rw [h2]; tauto)]
      refine ⟨by simp [linearCovariates]; tauto, fun b hb => ?_⟩
      have := Option.some.inj hb
      rw [← this]
      norm_num
  · intro _ c hc a ha
    rw [nonlinearModel_value] at ha
    simp only [nonlinearModel, anchoredModel, linearModel, Option.getD_some, List.mem_cons, List.not_mem_nil, or_false] at hc
    rcases hc with rfl | rfl
    · simpa [baseValue, linearCovariates, eq_comm, columnOf] using ha
    · rw [linearRow_value (by decide) (by simp [columnOf])] at ha
      rw [Option.some.inj ha]
      simp [linearCovariates]
      norm_num
  · intro f hf
    refine ⟨nonlinearData_complete, nonlinearModel_value.mpr ?_⟩
    simp only [nonlinearModel, anchoredModel, linearModel, Option.getD_some, List.mem_singleton] at hf
    subst hf
    rw [linearRow_value (by decide) (by simp [columnOf])]
    simp [linearCovariates]
    norm_num

theorem nonlinearModel_safe (f : String) (h : IsLatent nonlinearModel f) : querySafe f ∧ f ≠ "period" ∧ f ≠ "id" := by
  obtain ⟨spec, hmem⟩ := h
  simp only [nonlinearModel, List.mem_cons, Prod.mk.injEq, List.not_mem_nil, or_false] at hmem
  rcases hmem with ⟨rfl, rfl⟩ | ⟨rfl, rfl⟩ <;> decide

theorem nonlinearModel_usable : ∀ fs ∈ nonlinearModel.factors, TransFn.Usable (allFactors nonlinearModel) (fun name => linearValues ⟨.transition, 0, fs.1, name⟩) (transFnOf (userFunction fs.1) fs.2.transition) := by
  intro fs hmem
  simp only [nonlinearModel, List.mem_cons, List.not_mem_nil, or_false] at hmem
  rcases hmem with rfl | rfl
  · exact ⟨rfl, fun _ f _ => by simp [linearValues]⟩
  · intro a ha
    simp only [userFunction, List.mem_cons, List.not_mem_nil, or_false] at ha
    rcases ha with rfl | rfl <;> decide

theorem nonlinearValues_finite : FiniteTransitions userFunction nonlinearModel linearValues := by
  intro t _ fs hmem
  simp only [nonlinearModel, List.mem_cons, List.not_mem_nil, or_false] at hmem
  rcases hmem with rfl | rfl
  · exact ⟨fun _ => by simp [linearValues], fun _ => ⟨fun f _ => by simp [linearValues], "a", by decide, by simp [linearValues]⟩⟩
  · trivial

/-- C100 applies to the example: the contributions of the third individual, for which one of the eight measurements is missing. -/
theorem nonlinearModel_likelihood (nan : ℝ) : ∃ (qr : QR) (inputs : MaximizationInputs) (params : List (Loc × ℝ)) (out : LoglikeOutput) (updates : List (Nat × String)) (density : Covariates → (Fin updates.length → ℝ) → ℝ),
    ValidQR qr ∧ getMaximizationInputs nonlinearModel anchoredData = .ok inputs ∧ inputs.loglike qr userFunction nan nonlinearModel params = .ok out ∧ updates.length = 8 ∧ SequentialDensity updates density ∧
      out.contributions.getD 2 0 = Real.log (density linearCovariates (observedData updates linearCovariates (fun t _ => 3 + 10 * (t + 1)))) := by
  obtain ⟨qr, hqr⟩ := validQR
  obtain ⟨pm, hpm, _, hupd⟩ := nonlinearModel_ok
  have hper : IsPeriod nonlinearModel 1 := (nonlinearModel_period 1).mpr (by norm_num)
  have hmix : HasNMixtures nonlinearModel 1 := ⟨_, rfl, Or.inr ⟨rfl, rfl⟩⟩
  obtain ⟨inputs, updates0, hin, hen0, hout⟩ := C70_likelihood_evaluates qr hpm nonlinearModel_names nonlinearModel_clean nonlinearModel_order nonlinearModel_clash (fun f hf => (nonlinearModel_safe f hf).1)
    hper hmix (Or.inl rfl) anchoredData_index.1 anchoredData_index.2.1 anchoredData_ids.1 anchoredData_ids.2 nonlinearData_ok
  have hix : inputs.index.Nodup := by
    have h := hin
    unfold getMaximizationInputs at h
    simp only [py_bind_ok, py_pure_ok] at h
    obtain ⟨pm', hpm', _, _, _, _, _, _, rfl⟩ := h
    exact C06_index_unique_partial hpm' nonlinearModel_names
  have hfst : (inputs.index.map (fun l => (l, linearValues l))).map Prod.fst = inputs.index := by rw [List.map_map]; exact List.map_id _
  have hvals : ∀ l x, (l, x) ∈ inputs.index.map (fun l => (l, linearValues l)) → x = linearValues l := by
    intro l x h
    obtain ⟨l', _, h⟩ := List.mem_map.mp h
    rw [Prod.mk.injEq] at h
    rw [← h.1, ← h.2]
  obtain ⟨out, hout, _⟩ := hout userFunction nan (inputs.index.map (fun l => (l, linearValues l))) linearValues (by rw [hfst]; exact hix) (fun l => by rw [hfst]) hvals nonlinearModel_usable
  obtain ⟨updates, hen, _, density, h⟩ := C100_likelihood_is_density hqr hpm hmix nonlinearModel_names nonlinearModel_clean nonlinearModel_order nonlinearModel_clash hper (by rintro o x ⟨⟩ ⟨⟩) userFunction nan
  obtain ⟨hdens, h⟩ := h linearValues nonlinearValues_proper nonlinearValues_finite
  obtain ⟨_, h⟩ := h anchoredData [1, 2, 3] [10, 20] inputs _ out anchoredData_index.1 anchoredData_index.2.1 anchoredData_ids.1 anchoredData_ids.2 (by rw [hfst]; exact hix) hvals hin hout
    2 linearCovariates _ (by simp) nonlinearData_describes
  have hperm : updates.Perm (pm.updateInfo.map (fun r => (r.period, r.var))) := by
    obtain ⟨hu1, hu2, _⟩ := C01_update_info_exact hpm
    refine (List.perm_ext_iff_of_nodup hen.nodup hu1).mpr ?_
    rintro ⟨t, v⟩
    rw [hen.all, ← hu2]
    simp [List.mem_map]
  exact ⟨qr, inputs, _, out, updates, density linearValues, hqr, hin, hout, by rw [hperm.length_eq, hupd]; rfl, hdens, h ⟨_, rfl, rfl, Or.inl rfl⟩⟩

end Ex
end Skill
