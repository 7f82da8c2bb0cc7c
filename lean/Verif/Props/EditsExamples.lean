import Verif.Props.Edits3
import Verif.Props.PipelineExamples

/-! Examples for C115 - C118. -/

namespace Skill
open Spec
namespace Ex

/-- Three periods, a translog function and a control. -/
noncomputable def editModel : ModelDict ℝ where
  factors := [("a", { measurements := [["y1", "y2"], ["y1", "y2"], ["y1", "y2"]], transition := .named "translog" }), ("b", { measurements := [["w"], ["w"], ["w"]], transition := .named "constant" })]
  controls := some ["x"]
  estimationOptions := some { clippingLowerBound := some none }

theorem editModel_ok : ∃ pm, processModel editModel = .ok pm ∧ pm.dimensions.nPeriods = 3 ∧
    pm.updateInfo.map (fun r => (r.period, r.var)) = [(0, "y1"), (0, "y2"), (0, "w"), (1, "y1"), (1, "y2"), (1, "w"), (2, "y1"), (2, "y2"), (2, "w")] := by
  have h : (processModel editModel >>= fun pm => pure (pm.dimensions.nPeriods, pm.updateInfo.map (fun r => (r.period, r.var)))) =
      (.ok (3, [(0, "y1"), (0, "y2"), (0, "w"), (1, "y1"), (1, "y2"), (1, "w"), (2, "y1"), (2, "y2"), (2, "w")]) : Py _) := by decide +kernel
  obtain ⟨pm, hpm, h⟩ := py_bind_ok.mp h
  rw [py_pure_ok, Prod.mk.injEq] at h
  exact ⟨pm, hpm, h.1, h.2⟩

theorem editModel_names : GoodNames editModel where
  keys := ⟨by decide, by rintro a os ⟨⟩⟩
  distinct := by decide
  controls := by decide
  chars := by decide
  reserved := by decide
  registered := by
    intro f spec fn ps hmem hs
    simp only [editModel, List.mem_cons, Prod.mk.injEq, List.not_mem_nil, or_false] at hmem
    rcases hmem with ⟨rfl, rfl⟩ | ⟨rfl, rfl⟩ <;> simp at hs

theorem editModel_period (t : ℕ) : IsPeriod editModel t ↔ t < 3 := by
  obtain ⟨pm, hpm, h, _⟩ := editModel_ok
  rw [isPeriod_iff hpm, h]

theorem editModel_update (t : ℕ) (v : String) : IsUpdate editModel t v ↔ t < 3 ∧ v ∈ ["y1", "y2", "w"] := by
  obtain ⟨pm, hpm, _, h⟩ := editModel_ok
  obtain ⟨_, hu, _⟩ := C01_update_info_exact hpm
  rw [← hu]
  have : (∃ r ∈ pm.updateInfo, r.period = t ∧ r.var = v) ↔ (t, v) ∈ pm.updateInfo.map (fun r => (r.period, r.var)) := by simp [List.mem_map]
  rw [this, h]
  simp only [List.mem_cons, Prod.mk.injEq, List.not_mem_nil, or_false]
  constructor
  · rintro (⟨rfl, rfl⟩ | ⟨rfl, rfl⟩ | ⟨rfl, rfl⟩ | ⟨rfl, rfl⟩ | ⟨rfl, rfl⟩ | ⟨rfl, rfl⟩ | ⟨rfl, rfl⟩ | ⟨rfl, rfl⟩ | ⟨rfl, rfl⟩) <;> simp
  · rintro ⟨ht, hv⟩
    obtain rfl | rfl | rfl : t = 0 ∨ t = 1 ∨ t = 2 := by omega
    · simpa using hv
    · simpa using hv
    · simpa using hv

theorem editModel_clean : CleanAnchoring editModel :=
  ⟨by rintro f o ⟨a, ⟨⟩, _⟩, by rintro v f t g ⟨o, ⟨a, ⟨⟩, _⟩, _⟩, by rintro v f g ⟨o, ⟨a, ⟨⟩, _⟩, _⟩⟩

/-- Three individuals in three periods; measurement "y2" of individual 3 is always missing. -/
noncomputable def editRow (id period : Int) : LongRow ℝ where
  id := id
  period := period
  cell c := if c = "y2" ∧ id = 3 then none else some (id + period)

noncomputable def editData : LongData ℝ where
  columns := ["y1", "y2", "w", "x"]
  idLevel := [1, 2, 3]
  periodLevel := [10, 20, 30]
  rows := [editRow 3 10, editRow 2 20, editRow 1 10, editRow 3 20, editRow 1 20, editRow 2 10, editRow 1 30, editRow 2 30, editRow 3 30]

theorem editData_index : IndexOk editData ∧ NoUnusedPeriods editData ∧ UniqueKeys editData := by
  refine ⟨⟨by decide, by decide, ?_, ?_⟩, ?_, ?_⟩
  · intro r hr
    simp only [editData, List.mem_cons, List.not_mem_nil, or_false] at hr ⊢
    rcases hr with rfl | rfl | rfl | rfl | rfl | rfl | rfl | rfl | rfl <;> simp [editRow]
  · intro r hr
    simp only [editData, List.mem_cons, List.not_mem_nil, or_false] at hr ⊢
    rcases hr with rfl | rfl | rfl | rfl | rfl | rfl | rfl | rfl | rfl <;> simp [editRow]
  · intro p hp
    simp only [editData, List.mem_cons, List.not_mem_nil, or_false] at hp ⊢
    rcases hp with rfl | rfl | rfl
    · exact ⟨editRow 3 10, by simp, rfl⟩
    · exact ⟨editRow 2 20, by simp, rfl⟩
    · exact ⟨editRow 2 30, by simp, rfl⟩
  · unfold UniqueKeys editData editRow
    simp

theorem editData_ids : IdsOf editData [1, 2, 3] ∧ PeriodsOf editData [10, 20, 30] := by
  refine ⟨⟨by decide, fun x => ?_⟩, ⟨by decide, fun x => ?_⟩⟩
  · simp only [editData, editRow, List.mem_cons, List.not_mem_nil, or_false, exists_eq_or_imp, exists_eq_left]
    constructor <;> intro h <;> omega
  · simp only [editData, editRow, List.mem_cons, List.not_mem_nil, or_false, exists_eq_or_imp, exists_eq_left]
    constructor <;> intro h <;> omega

theorem editData_row {i t : ℕ} (hi : i < 3) (ht : t < 3) : RowOf editData [1, 2, 3] [10, 20, 30] i t (some (editRow (i + 1) (10 * (t + 1)))) := by
  obtain rfl | rfl | rfl : t = 0 ∨ t = 1 ∨ t = 2 := by omega
  all_goals
    obtain rfl | rfl | rfl : i = 0 ∨ i = 1 ∨ i = 2 := by omega
    all_goals exact ⟨by simp [editData], rfl, rfl⟩

theorem editData_value {i t : ℕ} (hi : i < 3) (ht : t < 3) (c : String) : HasValue editModel editData [1, 2, 3] [10, 20, 30] i t c (baseValue (some (editRow (i + 1) (10 * (t + 1)))) c) :=
  ⟨hi, _, editData_row hi ht, (valueIs_of_none rfl _ _ _).mpr rfl⟩

theorem editRow_value {i t : ℕ} {c : String} (hc : c ≠ "constant") (h : ¬(c = "y2" ∧ i = 2)) : baseValue (some (editRow (i + 1) (10 * (t + 1)))) c = some ((i : ℝ) + 1 + 10 * (t + 1)) := by
  unfold baseValue editRow
  rw [if_neg hc, Option.bind_some]
  dsimp only
  rw [if_neg (by rintro ⟨h1, h2⟩; exact h ⟨h1, by omega⟩)]
  push_cast
  rfl

theorem editData_ok : DataOk editModel editData [1, 2, 3] [10, 20, 30] where
  keys := editData_index.2.2
  outcomes := by rintro f o ⟨a, ⟨⟩, _⟩
  controls := by
    intro t ht c hc
    have ht := (editModel_period t).mp ht
    have hv := editData_value (i := 0) (by norm_num) ht c
    simp only [editModel, Option.getD_some, List.mem_cons, List.not_mem_nil, or_false] at hc
    rcases hc with rfl | rfl
    · exact ⟨Or.inr (Or.inl rfl), 0, 1, hv⟩
    · rw [editRow_value (by decide) (by omega)] at hv
      exact ⟨Or.inl (by simp [editData]), 0, _, hv⟩
  measurements := by
    intro t v hv
    obtain ⟨ht, hv⟩ := (editModel_update t v).mp hv
    have hv' : v ≠ "constant" := by rintro rfl; simp at hv
    refine ⟨Or.inl (by simp only [editData, List.mem_cons] at hv ⊢; tauto), ?_⟩
    rintro ⟨y, hy⟩
    have h0 := editData_value (i := 0) (by norm_num) ht v
    have h1 := editData_value (i := 1) (by norm_num) ht v
    rw [editRow_value hv' (by omega)] at h0 h1
    have h2 := (hy _).mp ⟨_, h0⟩
    have h3 := (hy _).mp ⟨_, h1⟩
    rw [← h3] at h2
    norm_num at h2
  observed := by
    intro t ht f hf
    cases hf

/-- Values of parameters: the control, the squares and the interactions do not matter. -/
noncomputable def editValues (l : Loc) : ℝ :=
  if l.cat = .mixtureWeights then 1 else if l.cat = .controls ∧ l.name2 = "x" ∨ l.cat = .transition ∧ l.name2 ∉ ["a", "b", "constant"] then 0 else 1 / 2

/-- The likelihood of each edited model can be evaluated. -/
theorem edit_evaluates (qr : QR) {m' : ModelDict ℝ} (he : EditOf editModel m') {pm' : Processed ℝ} (hpm' : processModel m' = .ok pm') (hP : IsPeriod m' 1) (hper : ∀ t, IsPeriod m' t → IsPeriod editModel t)
    (htr : ∀ f spec, (f, spec) ∈ m'.factors → spec.transition ∈ [TransSpec.named "translog", .named "linear", .named "constant"]) (custom : String → CustomFn) (nan : ℝ) :
    ∃ (inputs : MaximizationInputs) (params : List (Loc × ℝ)) (out : LoglikeOutput), getMaximizationInputs m' editData = .ok inputs ∧ (params.map Prod.fst).Nodup ∧ (∀ l x, (l, x) ∈ params → x = editValues l) ∧
      inputs.loglike qr custom nan m' params = .ok out := by
  have hq : ∀ f, IsLatent m' f → querySafe f := fun f hf => by
    obtain ⟨spec, hmem⟩ := (he.isLatent f).mp hf
    simp only [editModel, List.mem_cons, Prod.mk.injEq, List.not_mem_nil, or_false] at hmem
    rcases hmem with ⟨rfl, rfl⟩ | ⟨rfl, rfl⟩ <;> decide
  have hg := he.goodNames editModel_names
  obtain ⟨inputs, updates, hin, _, hout⟩ := C70_likelihood_evaluates qr hpm' hg (he.cleanAnchoring editModel_clean) (he.sameOrder (by rintro a os ⟨⟩)) (he.noNameClash (noNameClash_of_none rfl)) hq hP
    (k := 1) ⟨_, he.options, Or.inr ⟨rfl, rfl⟩⟩ (Or.inl rfl) editData_index.1 editData_index.2.1 editData_ids.1 editData_ids.2 (he.dataOk hper editData_ok)
  have hix : inputs.index = pm'.paramsIndex := by
    have h := hin
    unfold getMaximizationInputs at h
    simp only [py_bind_ok, py_pure_ok] at h
    obtain ⟨pm, hpm, _, _, _, _, _, _, rfl⟩ := h
    rw [hpm'] at hpm
    cases hpm
    rfl
  have hfst : (inputs.index.map (fun l => (l, editValues l))).map Prod.fst = inputs.index := by rw [List.map_map]; exact List.map_id _
  have hnd : inputs.index.Nodup := by rw [hix]; exact C06_index_unique_partial hpm' hg
  have hvals : ∀ l x, (l, x) ∈ inputs.index.map (fun l => (l, editValues l)) → x = editValues l := by
    intro l x h
    obtain ⟨l', _, h⟩ := List.mem_map.mp h
    rw [Prod.mk.injEq] at h
    rw [← h.1, ← h.2]
  obtain ⟨out, hout, _⟩ := hout custom nan _ editValues (by rw [hfst]; exact hnd) (fun l => by rw [hfst]) hvals (by
    rintro ⟨f, spec⟩ hmem
    have := htr f spec hmem
    simp only [List.mem_cons, List.not_mem_nil, or_false] at this
    rcases this with h | h | h <;> rw [h] <;> exact ⟨rfl, fun h => by simp at h⟩)
  exact ⟨inputs, _, out, hin, by rw [hfst]; exact hnd, hvals, hout⟩

theorem editModel_evaluates (qr : QR) (custom : String → CustomFn) (nan : ℝ) :
    ∃ (inputs : MaximizationInputs) (params : List (Loc × ℝ)) (out : LoglikeOutput), getMaximizationInputs editModel editData = .ok inputs ∧ (params.map Prod.fst).Nodup ∧ (∀ l x, (l, x) ∈ params → x = editValues l) ∧
      inputs.loglike qr custom nan editModel params = .ok out := by
  obtain ⟨pm, hpm, _⟩ := editModel_ok
  refine edit_evaluates qr (m' := editModel) ⟨rfl, rfl, rfl, rfl, List.Sublist.refl _, fun _ _ _ h => h, fun f spec fn ps hs he => ⟨spec, hs, he⟩⟩ hpm ((editModel_period 1).mpr (by norm_num)) (fun _ h => h) ?_ custom nan
  intro f spec hmem
  simp only [editModel, List.mem_cons, Prod.mk.injEq, List.not_mem_nil, or_false] at hmem
  rcases hmem with ⟨rfl, rfl⟩ | ⟨rfl, rfl⟩ <;> simp

theorem editModel_transitions {f : String} {spec : FactorSpec ℝ} (h : (f, spec) ∈ editModel.factors) : spec.transition ∈ [TransSpec.named "translog", .named "linear", .named "constant"] := by
  simp only [editModel, List.mem_cons, Prod.mk.injEq, List.not_mem_nil, or_false] at h
  rcases h with ⟨rfl, rfl⟩ | ⟨rfl, rfl⟩ <;> simp

/-- C115 is not vacuous: with two instead of three periods six of nine rows of contributions are left. -/
theorem C115_example (qr : QR) (custom : String → CustomFn) (nan : ℝ) : ∃ (inputs inputs' : MaximizationInputs) (params params' : List (Loc × ℝ)) (out out' : LoglikeOutput),
    getMaximizationInputs editModel editData = .ok inputs ∧ getMaximizationInputs (reduceNPeriods editModel 2) editData = .ok inputs' ∧ inputs.loglike qr custom nan editModel params = .ok out ∧
      inputs'.loglike qr custom nan (reduceNPeriods editModel 2) params' = .ok out' ∧ out.allContributions.length = 9 ∧ out'.allContributions = out.allContributions.take 6 := by
  obtain ⟨pm, hpm, hT, hupd⟩ := editModel_ok
  have hN : IsNPeriods editModel 3 := by rw [← hT]; exact processModel_nPeriods hpm
  obtain ⟨pm', hpm'⟩ := accepted_reduceNPeriods (n := 2) ⟨pm, hpm⟩ (by norm_num)
  obtain ⟨hper', hupd'⟩ := updateInfo_reduce hpm (by omega) hpm'
  obtain ⟨inputs, params, out, hin, hn, hval, hout⟩ := editModel_evaluates qr custom nan
  obtain ⟨inputs', params', out', hin', hn', hval', hout'⟩ := edit_evaluates qr (edit_reduceNPeriods editModel 2) hpm' ((isPeriod_iff hpm' 1).mpr (by omega)) (smaller_reduceNPeriods editModel 2).periods (fun f spec hs => by
    obtain ⟨s, hs', rfl⟩ := mem_reduceNPeriods.mp hs
    have := editModel_transitions hs'
    exact this) custom nan
  refine ⟨inputs, inputs', params, params', out, out', hin, hin', hout, hout', ?_⟩
  obtain ⟨updates, hen, _, h1, h2, _⟩ := C115_fewer_periods editModel_names editModel_clean (by rintro a os ⟨⟩) (noNameClash_of_none rfl) hN le_rfl (by norm_num) editData_index.1 editData_index.2.1 editData_ids.1 editData_ids.2 hin hin'
    hn hval hn' hval' hout hout'
  have hperm : updates.Perm [(0, "y1"), (0, "y2"), (0, "w"), (1, "y1"), (1, "y2"), (1, "w"), (2, "y1"), (2, "y2"), (2, "w")] := by
    have hen2 := enumerates_updateInfo hpm
    rw [hupd] at hen2
    exact (List.perm_ext_iff_of_nodup hen.nodup hen2.nodup).mpr (fun u => by rw [hen.all u.1 u.2, hen2.all u.1 u.2])
  rw [h1, hperm.length_eq, h2, (hperm.filter _).length_eq]
  exact ⟨rfl, rfl⟩

/-- C116 is not vacuous: the measurement "y2" of the third individual is always missing, removing it from the model does not change the contribution of that individual. -/
theorem C116_example (qr : QR) (custom : String → CustomFn) (nan : ℝ) : ∃ (inputs inputs' : MaximizationInputs) (params params' : List (Loc × ℝ)) (out out' : LoglikeOutput),
    getMaximizationInputs editModel editData = .ok inputs ∧ getMaximizationInputs (removeMeasurements ["y2"] editModel) editData = .ok inputs' ∧ inputs.loglike qr custom nan editModel params = .ok out ∧
      inputs'.loglike qr custom nan (removeMeasurements ["y2"] editModel) params' = .ok out' ∧ out.allContributions.length = 9 ∧ out'.allContributions.length = 6 ∧ out'.contributions.getD 2 0 = out.contributions.getD 2 0 := by
  obtain ⟨pm, hpm, hT, hupd⟩ := editModel_ok
  obtain ⟨pm', hpm'⟩ := accepted_removeMeasurements ⟨pm, hpm⟩ ["y2"]
  obtain ⟨hper', hupd'⟩ := updateInfo_removeMeasurements editModel_clean hpm hpm'
  have hup' : ∀ t v, IsUpdate (removeMeasurements ["y2"] editModel) t v ↔ t < 3 ∧ v ∈ ["y1", "w"] := fun t v => by
    classical
    rw [← (C01_update_info_exact hpm').2.1, hupd']
    constructor
    · rintro ⟨r, hr, rfl, rfl⟩
      obtain ⟨h1, h2⟩ := List.mem_filter.mp hr
      obtain ⟨h3, h4⟩ := (editModel_update r.period r.var).mp (((C01_update_info_exact hpm).2.1 _ _).mp ⟨r, h1, rfl, rfl⟩)
      rw [decide_eq_true_eq] at h2
      refine ⟨h3, ?_⟩
      simp only [List.mem_cons, List.not_mem_nil, or_false] at h4 h2 ⊢
      rcases h4 with h4 | h4 | h4
      · exact Or.inl h4
      · obtain ⟨f, o, ⟨a, ⟨⟩, _⟩, _⟩ := h2 h4
      · exact Or.inr h4
    · rintro ⟨ht, hv⟩
      obtain ⟨r, hr, h1, h2⟩ := ((C01_update_info_exact hpm).2.1 t v).mpr ((editModel_update t v).mpr ⟨ht, by simp only [List.mem_cons, List.not_mem_nil, or_false] at hv ⊢; tauto⟩)
      refine ⟨r, List.mem_filter.mpr ⟨hr, ?_⟩, h1, h2⟩
      rw [decide_eq_true_eq, h2]
      intro h
      rw [List.mem_singleton] at h
      subst h
      simp at hv
  obtain ⟨inputs, params, out, hin, hn, hval, hout⟩ := editModel_evaluates qr custom nan
  obtain ⟨inputs', params', out', hin', hn', hval', hout'⟩ := edit_evaluates qr (edit_removeMeasurements ["y2"] editModel) hpm' ((isPeriod_iff hpm' 1).mpr (by omega)) (smaller_removeMeasurements ["y2"] editModel).periods (fun f spec hs => by
    obtain ⟨s, hs', rfl⟩ := mem_removeMeasurements.mp hs
    have := editModel_transitions hs'
    exact this) custom nan
  refine ⟨inputs, inputs', params, params', out, out', hin, hin', hout, hout', ?_⟩
  obtain ⟨updates, updates', hen, hen', h1, h2, h3⟩ := C116_fewer_measurements editModel_names editModel_clean (by rintro a os ⟨⟩) (noNameClash_of_none rfl) ((editModel_period 1).mpr (by norm_num))
    (fun t ht => ⟨"w", (hup' t "w").mpr ⟨(editModel_period t).mp ht, by simp⟩⟩) editData_index.1 editData_index.2.1 editData_ids.1 editData_ids.2 hin hin' hn hval hn' hval' hout hout'
  have hperm : updates.Perm [(0, "y1"), (0, "y2"), (0, "w"), (1, "y1"), (1, "y2"), (1, "w"), (2, "y1"), (2, "y2"), (2, "w")] := by
    have hen2 := enumerates_updateInfo hpm
    rw [hupd] at hen2
    exact (List.perm_ext_iff_of_nodup hen.nodup hen2.nodup).mpr (fun u => by rw [hen.all u.1 u.2, hen2.all u.1 u.2])
  have hperm' : updates'.Perm [(0, "y1"), (0, "w"), (1, "y1"), (1, "w"), (2, "y1"), (2, "w")] := by
    refine (List.perm_ext_iff_of_nodup hen'.nodup (by decide)).mpr (fun u => ?_)
    rw [hen'.all u.1 u.2, hup']
    obtain ⟨t, v⟩ := u
    simp only [List.mem_cons, Prod.mk.injEq, List.not_mem_nil, or_false]
    constructor
    · rintro ⟨ht, hv⟩
      obtain rfl | rfl | rfl : t = 0 ∨ t = 1 ∨ t = 2 := by omega
      all_goals simpa using hv
    · rintro (⟨rfl, rfl⟩ | ⟨rfl, rfl⟩ | ⟨rfl, rfl⟩ | ⟨rfl, rfl⟩ | ⟨rfl, rfl⟩ | ⟨rfl, rfl⟩) <;> simp
  refine ⟨by rw [h1, hperm.length_eq]; rfl, by rw [h2, hperm'.length_eq]; rfl, ?_⟩
  have h4 := (h3 2 (by simp) (fun t v hv hno => ?_)).2 _ rfl
  · rw [h4]
    simp [clippedContribution]
  · obtain ⟨ht, hv⟩ := (editModel_update t v).mp hv
    have hv2 : v = "y2" := by
      by_contra hne
      refine hno ((hup' t v).mpr ⟨ht, ?_⟩)
      simp only [List.mem_cons, List.not_mem_nil, or_false] at hv ⊢
      tauto
    subst hv2
    have := editData_value (i := 2) (by norm_num) ht "y2"
    simpa [baseValue, editRow] using this

/-- C117 is not vacuous: the parameters of the only control are zero. -/
theorem C117_example (qr : QR) (custom : String → CustomFn) (nan : ℝ) : ∃ (m' : ModelDict ℝ) (inputs inputs' : MaximizationInputs) (params params' : List (Loc × ℝ)) (out out' : LoglikeOutput),
    removeControls ["x"] editModel = .ok m' ∧ m'.controls = none ∧ getMaximizationInputs editModel editData = .ok inputs ∧ getMaximizationInputs m' editData = .ok inputs' ∧ inputs.loglike qr custom nan editModel params = .ok out ∧
      inputs'.loglike qr custom nan m' params' = .ok out' ∧ ∀ i < 3, out'.contributions[i]? = out.contributions[i]? := by
  obtain ⟨pm, hpm, hT, hupd⟩ := editModel_ok
  obtain ⟨m', hm', pm', hpm'⟩ := (C20_edits_keep_models_valid ⟨pm, hpm⟩).2.2.2.1 ["x"] rfl
  obtain ⟨hper', hupd'⟩ := updateInfo_removeControls hm' hpm hpm'
  have hnone : m'.controls = none := by
    obtain ⟨c, hc, rfl⟩ := removeControls_ok hm'
    cases hc
    rfl
  obtain ⟨inputs, params, out, hin, hn, hval, hout⟩ := editModel_evaluates qr custom nan
  obtain ⟨inputs', params', out', hin', hn', hval', hout'⟩ := edit_evaluates qr (edit_removeControls hm') hpm' ((isPeriod_iff hpm' 1).mpr (by omega)) (smaller_removeControls hm').periods (fun f spec hs => by
    obtain ⟨c, hc, rfl⟩ := removeControls_ok hm'
    exact editModel_transitions hs) custom nan
  refine ⟨m', inputs, inputs', params, params', out, out', hm', hnone, hin, hin', hout, hout', fun i hi => ?_⟩
  refine (C117_fewer_controls editModel_names editModel_clean (by rintro a os ⟨⟩) (noNameClash_of_none rfl) ((editModel_period 1).mpr (by norm_num)) hm' editData_index.1 editData_index.2.1 editData_ids.1 editData_ids.2 hin hin' hn hval hn' hval'
    (fun t v _ c hc => ?_) hout hout' (i := i) (by simpa using hi) (fun t ht c hc _ h => ?_)).2
  · rw [List.mem_singleton] at hc
    subst hc
    simp [editValues]
  · rw [List.mem_singleton] at hc
    subst hc
    obtain ⟨_, r, hr, hv⟩ := h
    obtain rfl := rowOf_unique editData_index.2.2 hr (editData_row hi ((editModel_period t).mp ht))
    rw [valueIs_of_none rfl] at hv
    simp [baseValue, editRow] at hv

theorem editModel_noHigherOrder (t : ℕ) : NoHigherOrderTerms editModel editValues "a" t := by
  intro name _ h2
  unfold editValues
  rw [if_neg (by simp), if_pos]
  refine Or.inr ⟨rfl, fun h => h2 ?_⟩
  simp only [List.mem_cons, List.not_mem_nil, or_false] at h
  refine Or.inl ⟨rfl, ?_⟩
  rcases h with rfl | rfl | rfl
  · exact Or.inl (by decide)
  · exact Or.inl (by decide)
  · exact Or.inr rfl

/-- C118 is not vacuous: the parameters of squares and interactions are zero, so a linear function can be used. -/
theorem C118_example (qr : QR) (custom : String → CustomFn) (nan : ℝ) : ∃ (inputs inputs' : MaximizationInputs) (params params' : List (Loc × ℝ)) (out out' : LoglikeOutput),
    getMaximizationInputs editModel editData = .ok inputs ∧ getMaximizationInputs (switchTranslogToLinear editModel) editData = .ok inputs' ∧ inputs.loglike qr custom nan editModel params = .ok out ∧
      inputs'.loglike qr custom nan (switchTranslogToLinear editModel) params' = .ok out' ∧ ∀ i < 3, out'.contributions[i]? = out.contributions[i]? := by
  obtain ⟨pm, hpm, hT, hupd⟩ := editModel_ok
  obtain ⟨pm', hpm'⟩ := accepted_switch (old := "translog") (new := "linear") ⟨pm, hpm⟩ (by simp [ValidTransition])
  obtain ⟨hper', _⟩ := updateInfo_switch hpm hpm'
  obtain ⟨inputs, params, out, hin, hn, hval, hout⟩ := editModel_evaluates qr custom nan
  obtain ⟨inputs', params', out', hin', hn', hval', hout'⟩ := edit_evaluates qr (edit_switch "translog" "linear" editModel) hpm' ((isPeriod_iff hpm' 1).mpr (by omega)) (smaller_switchTranslogToLinear editModel).periods (fun f spec hs => by
    obtain ⟨s, hs', rfl⟩ := mem_switchTransition.mp hs
    have := editModel_transitions hs'
    dsimp only
    split_ifs
    · simp
    · exact this) custom nan
  refine ⟨inputs, inputs', params, params', out, out', hin, hin', hout, hout', fun i hi => ?_⟩
  refine (C118_translog_to_linear editModel_names editModel_clean (by rintro a os ⟨⟩) (noNameClash_of_none rfl) ((editModel_period 1).mpr (by norm_num)) editData_index.1 editData_index.2.1 editData_ids.1 editData_ids.2 hin hin' hn hval hn' hval'
    (fun f spec hs htr t _ => ?_) hout hout' i (by simpa using hi)).2
  simp only [editModel, List.mem_cons, Prod.mk.injEq, List.not_mem_nil, or_false] at hs
  rcases hs with ⟨rfl, rfl⟩ | ⟨rfl, rfl⟩
  · exact editModel_noHigherOrder t
  · simp at htr

/-- The linear model of `C118_example` can be switched back. -/
theorem C118_example_back (qr : QR) (custom : String → CustomFn) (nan : ℝ) : ∃ (inputs inputs' : MaximizationInputs) (params params' : List (Loc × ℝ)) (out out' : LoglikeOutput),
    getMaximizationInputs (switchTranslogToLinear editModel) editData = .ok inputs ∧ getMaximizationInputs (switchLinearToTranslog (switchTranslogToLinear editModel)) editData = .ok inputs' ∧
      inputs.loglike qr custom nan (switchTranslogToLinear editModel) params = .ok out ∧ inputs'.loglike qr custom nan (switchLinearToTranslog (switchTranslogToLinear editModel)) params' = .ok out' ∧
      ∀ i < 3, out'.contributions[i]? = out.contributions[i]? := by
  have hback : switchLinearToTranslog (switchTranslogToLinear editModel) = editModel := by
    simp [switchLinearToTranslog, switchTranslogToLinear, switchTransition, editModel]
  have he : EditOf editModel (switchTranslogToLinear editModel) := edit_switch "translog" "linear" editModel
  obtain ⟨pm, hpm, hT, hupd⟩ := editModel_ok
  obtain ⟨pm', hpm'⟩ := accepted_switch (old := "translog") (new := "linear") ⟨pm, hpm⟩ (by simp [ValidTransition])
  obtain ⟨hper', _⟩ := updateInfo_switch hpm hpm'
  have hP : IsPeriod (switchTranslogToLinear editModel) 1 := (isPeriod_iff hpm' 1).mpr (by omega)
  obtain ⟨inputs', params', out', hin', hn', hval', hout'⟩ := editModel_evaluates qr custom nan
  obtain ⟨inputs, params, out, hin, hn, hval, hout⟩ := edit_evaluates qr he hpm' hP (smaller_switchTranslogToLinear editModel).periods (fun f spec hs => by
    obtain ⟨s, hs', rfl⟩ := mem_switchTransition.mp hs
    have := editModel_transitions hs'
    dsimp only
    split_ifs
    · simp
    · exact this) custom nan
  refine ⟨inputs, inputs', params, params', out, out', hin, by rw [hback]; exact hin', hout, by rw [hback]; exact hout', fun i hi => ?_⟩
  refine (C118_linear_to_translog (he.goodNames editModel_names) (he.cleanAnchoring editModel_clean) (he.sameOrder (by rintro a os ⟨⟩)) (he.noNameClash (noNameClash_of_none rfl)) hP editData_index.1 editData_index.2.1 editData_ids.1 editData_ids.2
    hin (by rw [hback]; exact hin') hn hval hn' hval' (fun f spec hs htr t _ => ?_) hout (by rw [hback]; exact hout') i (by simpa using hi)).2
  obtain ⟨s, hs', rfl⟩ := mem_switchTransition.mp hs
  simp only [editModel, List.mem_cons, Prod.mk.injEq, List.not_mem_nil, or_false] at hs'
  rcases hs' with ⟨rfl, rfl⟩ | ⟨rfl, rfl⟩
  · exact editModel_noHigherOrder t
  · simp at htr

end Ex
end Skill
