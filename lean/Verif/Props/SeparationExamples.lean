import Verif.Props.Separation
import Verif.Props.EditsExamples

/-! Examples for C121 and C122. -/

namespace Skill
open Spec

theorem Without.linear {m m' : ModelDict ℝ} {fs : List String} (hw : Without m fs m') (hna : m.anchoring = none) {k : ℕ} (hm : LinearModel m k) (hper : IsPeriod m' 1) (hmeas : ∀ t, IsPeriod m' t → ∃ v f, Measures m t v f ∧ f ∉ fs) :
    LinearModel m' k where
  anchoring := by
    have hna' := hw.anchoring hna
    refine ⟨⟨?_, ?_, ?_⟩, ?_, noNameClash_of_none hna'⟩
    · rintro f o ⟨a, ha, _⟩; rw [hna'] at ha; cases ha
    · rintro v f t g ⟨o, ⟨a, ha, _⟩, _⟩; rw [hna'] at ha; cases ha
    · rintro v f g ⟨o, ⟨a, ha, _⟩, _⟩; rw [hna'] at ha; cases ha
    · intro a os ha; rw [hna'] at ha; cases ha
  periods := hper
  measured := fun t ht => by
    obtain ⟨v, f, hf⟩ := hmeas t ht
    exact ⟨v, f, (hw.measures t v f).mpr hf⟩
  transitions := fun f spec hs => by
    obtain ⟨s, hs', ht⟩ := hw.specs f spec hs
    rw [ht]
    exact hm.transitions f s hs'
  mixture := by unfold HasNMixtures; rw [hw.options]; exact hm.mixture
  single := by rw [hw.observed]; exact hm.single

/-- Data for a model are data for the model without some factors. -/
theorem C121_data {m m' : ModelDict ℝ} {fs : List String} (hrem : removeFactors fs m = .ok m') (hna : m.anchoring = none) {df : LongData ℝ} {ids pers : List Int} (h : DataOk m df ids pers) : DataOk m' df ids pers := by
  have hw := without_removeFactors hrem
  have hna' := hw.anchoring hna
  have hvar : ∀ c, HasVariable m df c → HasVariable m' df c := by
    rintro c (hc | hc | ⟨f, hf⟩)
    · exact Or.inl hc
    · exact Or.inr (Or.inl hc)
    · exact absurd hf (no_anchors hna c f)
  have hvalue : ∀ i t c v, HasValue m' df ids pers i t c v ↔ HasValue m df ids pers i t c v := by
    intro i t c v
    unfold HasValue
    simp only [valueIs_none hna, valueIs_none hna']
  refine ⟨h.keys, ?_, fun t ht c hc => ?_, fun t v hv => ?_, fun t ht f hf => ?_⟩
  · rintro f o ⟨a, ha, _⟩
    rw [hna'] at ha
    cases ha
  · obtain ⟨h1, i, y, h2⟩ := h.controls t (hw.periods t ht) c (hw.controls ▸ hc)
    exact ⟨hvar c h1, i, y, (hvalue i t c _).mpr h2⟩
  · obtain ⟨f, hf, _⟩ := (hw.isUpdate hna t v).mp hv
    obtain ⟨h1, h2⟩ := h.measurements t v (Or.inl ⟨f, hf⟩)
    refine ⟨hvar v h1, ?_⟩
    simpa only [hvalue] using h2
  · obtain ⟨h1, h2⟩ := h.observed t (hw.periods t ht) f (hw.observed ▸ hf)
    exact ⟨hvar f h1, fun i hv => h2 i ((hvalue i t f none).mp hv)⟩

namespace Ex

/-- Two factors and three periods. -/
noncomputable def sepModel : ModelDict ℝ where
  factors := [("a", { measurements := [["y1", "w"], ["y1", "w"], ["y1", "w"]], transition := .named "linear" }), ("b", { measurements := [["y2"], ["y2"], ["y2"]], transition := .named "linear" })]
  controls := some ["x"]
  estimationOptions := some { clippingLowerBound := some none }

theorem sepModel_ok : ∃ pm, processModel sepModel = .ok pm ∧ pm.dimensions.nPeriods = 3 := by
  have h : (processModel sepModel >>= fun pm => pure pm.dimensions.nPeriods) = (.ok 3 : Py _) := by decide +kernel
  obtain ⟨pm, hpm, h⟩ := py_bind_ok.mp h
  exact ⟨pm, hpm, py_pure_ok.mp h⟩

theorem sepModel_measures (t : ℕ) (v f : String) : Measures sepModel t v f ↔ t < 3 ∧ (f = "a" ∧ (v = "y1" ∨ v = "w") ∨ f = "b" ∧ v = "y2") := by
  constructor
  · rintro ⟨spec, hmem, ms, hms, hv⟩
    simp only [sepModel, List.mem_cons, Prod.mk.injEq, List.not_mem_nil, or_false] at hmem
    rcases hmem with ⟨rfl, rfl⟩ | ⟨rfl, rfl⟩
    · have ht := (List.getElem?_eq_some_iff.mp hms).1
      simp only [List.length_cons, List.length_nil] at ht
      refine ⟨by omega, Or.inl ⟨rfl, ?_⟩⟩
      obtain rfl | rfl | rfl : t = 0 ∨ t = 1 ∨ t = 2 := by omega
      all_goals
        cases hms
        simpa using hv
    · have ht := (List.getElem?_eq_some_iff.mp hms).1
      simp only [List.length_cons, List.length_nil] at ht
      refine ⟨by omega, Or.inr ⟨rfl, ?_⟩⟩
      obtain rfl | rfl | rfl : t = 0 ∨ t = 1 ∨ t = 2 := by omega
      all_goals
        cases hms
        simpa using hv
  · rintro ⟨ht, ⟨rfl, hv⟩ | ⟨rfl, rfl⟩⟩
    · refine ⟨{ measurements := [["y1", "w"], ["y1", "w"], ["y1", "w"]], transition := .named "linear" }, by simp [sepModel], ["y1", "w"], ?_, by simpa using hv⟩
      obtain rfl | rfl | rfl : t = 0 ∨ t = 1 ∨ t = 2 := by omega
      all_goals rfl
    · refine ⟨{ measurements := [["y2"], ["y2"], ["y2"]], transition := .named "linear" }, by simp [sepModel], ["y2"], ?_, by simp⟩
      obtain rfl | rfl | rfl : t = 0 ∨ t = 1 ∨ t = 2 := by omega
      all_goals rfl

theorem sepModel_latent (f : String) : IsLatent sepModel f ↔ f = "a" ∨ f = "b" := by
  rw [← mem_latents_iff]
  simp [latents, sepModel]

theorem sepModel_period (t : ℕ) : IsPeriod sepModel t ↔ t < 3 := by
  obtain ⟨pm, hpm, h⟩ := sepModel_ok
  rw [isPeriod_iff hpm, h]

theorem sepModel_update (t : ℕ) (v : String) : IsUpdate sepModel t v ↔ t < 3 ∧ v ∈ ["y1", "y2", "w"] := by
  constructor
  · rintro (⟨f, hf⟩ | ⟨_, f, hf⟩)
    · obtain ⟨ht, h⟩ := (sepModel_measures t v f).mp hf
      refine ⟨ht, ?_⟩
      simp only [List.mem_cons, List.not_mem_nil, or_false]
      tauto
    · exact absurd hf (no_anchors rfl v f)
  · rintro ⟨ht, hv⟩
    simp only [List.mem_cons, List.not_mem_nil, or_false] at hv
    rcases hv with rfl | rfl | rfl
    · exact Or.inl ⟨"a", (sepModel_measures t _ _).mpr ⟨ht, by simp⟩⟩
    · exact Or.inl ⟨"b", (sepModel_measures t _ _).mpr ⟨ht, by simp⟩⟩
    · exact Or.inl ⟨"a", (sepModel_measures t _ _).mpr ⟨ht, by simp⟩⟩

theorem sepModel_names : GoodNames sepModel where
  keys := ⟨by decide, by rintro a os ⟨⟩⟩
  distinct := by decide
  controls := by decide
  chars := by decide
  reserved := by decide
  registered := by
    intro f spec fn ps hmem hs
    simp only [sepModel, List.mem_cons, Prod.mk.injEq, List.not_mem_nil, or_false] at hmem
    rcases hmem with ⟨rfl, rfl⟩ | ⟨rfl, rfl⟩ <;> simp at hs

theorem sepModel_linear : LinearModel sepModel 1 where
  anchoring := ⟨⟨by rintro f o ⟨a, ⟨⟩, _⟩, by rintro v f t g ⟨o, ⟨a, ⟨⟩, _⟩, _⟩, by rintro v f g ⟨o, ⟨a, ⟨⟩, _⟩, _⟩⟩, by rintro a os ⟨⟩, noNameClash_of_none rfl⟩
  periods := (sepModel_period 1).mpr (by norm_num)
  measured := fun t ht => ⟨"w", "a", (sepModel_measures t _ _).mpr ⟨(sepModel_period t).mp ht, by simp⟩⟩
  transitions := by
    intro f spec hmem
    simp only [sepModel, List.mem_cons, Prod.mk.injEq, List.not_mem_nil, or_false] at hmem
    rcases hmem with ⟨rfl, rfl⟩ | ⟨rfl, rfl⟩ <;> simp
  mixture := ⟨_, rfl, Or.inr ⟨rfl, rfl⟩⟩
  single := Or.inl rfl

theorem sepData_ok : DataOk sepModel editData [1, 2, 3] [10, 20, 30] where
  keys := editData_index.2.2
  outcomes := by rintro f o ⟨a, ⟨⟩, _⟩
  controls := fun t ht c hc => editData_ok.controls t ((editModel_period t).mpr ((sepModel_period t).mp ht)) c hc
  measurements := fun t v hv => editData_ok.measurements t v ((editModel_update t v).mpr ((sepModel_update t v).mp hv))
  observed := by
    intro t ht f hf
    cases hf

/-- Values of parameters: factor "a" does not depend on factor "b", which depends on "a" unless `s` is zero. -/
noncomputable def sepValues (s : ℝ) (l : Loc) : ℝ :=
  if l.cat = .mixtureWeights then 1 else if l.cat = .transition ∧ l.name1 = "a" ∧ l.name2 = "b" then 0
  else if l.cat = .transition ∧ l.name1 = "b" ∧ l.name2 = "a" ∨ l.cat = .initialCholcovs ∧ l.name2 = "b-a" then s else 1 / 2

theorem sepValues_proper (s : ℝ) : ProperValues sepModel 1 (sepValues s) where
  positive := fun e _ => by simp [sepValues]
  sum := by simp [sepValues]
  sds := fun t v _ => by simp [sepValues]
  scales := fun t f _ => by simp [anchorScale, outcome, sepModel]

theorem sepModel_noInfluence (s : ℝ) : NoInfluence sepModel 1 ["b"] (sepValues s) where
  initial := by
    intro e he f g hf hfs hg hgs
    rw [sepModel_latent] at hf
    rw [List.mem_singleton] at hgs hfs
    subst hgs
    obtain rfl := hf.resolve_right hfs
    unfold cholEntry
    rw [if_neg (by decide)]
  transition := by
    rintro t f g ht ⟨spec, hs, _⟩ hfs hg hgs
    have hf := (sepModel_latent f).mp ⟨spec, hs⟩
    rw [List.mem_singleton] at hgs hfs
    subst hgs
    obtain rfl := hf.resolve_right hfs
    simp [sepValues]
  loadings := by
    intro t v f g hf hfs hg hgs
    rw [List.mem_singleton] at hgs hfs
    subst hgs
    rw [sepModel_measures] at hf hg
    obtain ⟨_, ⟨h, _⟩ | ⟨_, rfl⟩⟩ := hg
    · exact absurd h (by decide)
    · obtain ⟨_, ⟨_, h⟩ | ⟨h, _⟩⟩ := hf
      · exact absurd h (by decide)
      · exact absurd h hfs

theorem sepModel_unrelated : Unrelated sepModel ["b"] (sepValues 0) where
  initial := by
    intro f g hf hg hne
    rw [sepModel_latent] at hf hg
    rcases hf with rfl | rfl <;> rcases hg with rfl | rfl
    · simp at hne
    · unfold cholEntry
      rw [if_neg (by decide)]
    · unfold cholEntry
      rw [if_pos (by decide)]
      simp only [sepValues]
      rw [if_neg (by decide), if_neg (by decide), if_pos (by decide)]
    · simp at hne
  transition := by
    rintro t f g ht ⟨spec, hs, _⟩ hg hne
    have hf := (sepModel_latent f).mp ⟨spec, hs⟩
    rw [sepModel_latent] at hg
    rcases hf with rfl | rfl <;> rcases hg with rfl | rfl
    · simp at hne
    · simp [sepValues]
    · simp [sepValues]
    · simp at hne
  measurements := by
    intro t v f g hf hg
    rw [sepModel_measures] at hf hg
    obtain ⟨_, ⟨rfl, hv⟩ | ⟨rfl, hv⟩⟩ := hf <;> obtain ⟨_, ⟨rfl, hw⟩ | ⟨rfl, hw⟩⟩ := hg
    · simp
    · subst hw; exact absurd hv (by decide)
    · subst hv; exact absurd hw (by decide)
    · simp

/-- A model without some factors can be evaluated. -/
theorem sep_evaluates {fs : List String} (hfs : ∃ f, IsLatent sepModel f ∧ f ∉ fs) (s : ℝ) (qr : QR) (custom : String → CustomFn) (nan : ℝ) :
    ∃ (m' : ModelDict ℝ) (inputs : MaximizationInputs) (params : List (Loc × ℝ)) (out : LoglikeOutput), removeFactors fs sepModel = .ok m' ∧ LinearModel m' 1 ∧ getMaximizationInputs m' editData = .ok inputs ∧ (params.map Prod.fst).Nodup ∧
      (∀ l x, (l, x) ∈ params → x = sepValues s l) ∧ inputs.loglike qr custom nan m' params = .ok out := by
  obtain ⟨pm, hpm, _⟩ := sepModel_ok
  obtain ⟨f, hf, hfn⟩ := hfs
  obtain ⟨spec, hspec⟩ := hf
  have hlen : spec.measurements.length = 3 := by
    simp only [sepModel, List.mem_cons, Prod.mk.injEq, List.not_mem_nil, or_false] at hspec
    rcases hspec with ⟨rfl, rfl⟩ | ⟨rfl, rfl⟩ <;> rfl
  obtain ⟨m', hrem, pm', hpm'⟩ := accepted_removeFactors ⟨pm, hpm⟩ (fs := fs) (by rintro a ⟨⟩) ⟨f, spec, hspec, hfn, by intro h; rw [h] at hlen; cases hlen⟩
  have hw := without_removeFactors hrem
  have hmeas : ∀ t, t < 3 → ∃ v, Measures sepModel t v f := by
    intro t ht
    rcases (sepModel_latent f).mp ⟨spec, hspec⟩ with rfl | rfl
    · exact ⟨"w", (sepModel_measures t _ _).mpr ⟨ht, by simp⟩⟩
    · exact ⟨"y2", (sepModel_measures t _ _).mpr ⟨ht, by simp⟩⟩
  have hP : IsPeriod m' 1 := by
    obtain ⟨v, hv⟩ := hmeas 1 (by norm_num)
    exact period_of_measures (processModel_nPeriods hpm') ((hw.measures 1 v f).mpr ⟨hv, hfn⟩)
  have hm' : LinearModel m' 1 := hw.linear rfl sepModel_linear hP (fun t ht => by
    obtain ⟨v, hv⟩ := hmeas t ((sepModel_period t).mp (hw.periods t ht))
    exact ⟨v, f, hv, hfn⟩)
  have hg := hw.goodNames rfl sepModel_names
  have hq : ∀ f, IsLatent m' f → querySafe f := fun f hf => by
    rcases (sepModel_latent f).mp ((hw.isLatent f).mp hf).1 with rfl | rfl <;> decide
  obtain ⟨inputs, updates, hin, _, hout⟩ := C70_likelihood_evaluates qr hpm' hg hm'.anchoring.1 hm'.anchoring.2.1 hm'.anchoring.2.2 hq hP hm'.mixture (Or.inl rfl) editData_index.1 editData_index.2.1 editData_ids.1 editData_ids.2
    (C121_data hrem rfl sepData_ok)
  have hix : inputs.index = pm'.paramsIndex := by
    have h := hin
    unfold getMaximizationInputs at h
    simp only [py_bind_ok, py_pure_ok] at h
    obtain ⟨pm, hpm, _, _, _, _, _, _, rfl⟩ := h
    rw [hpm'] at hpm
    cases hpm
    rfl
  have hfst : (inputs.index.map (fun l => (l, sepValues s l))).map Prod.fst = inputs.index := by rw [List.map_map]; exact List.map_id _
  have hnd : inputs.index.Nodup := by rw [hix]; exact C06_index_unique_partial hpm' hg
  have hvals : ∀ l x, (l, x) ∈ inputs.index.map (fun l => (l, sepValues s l)) → x = sepValues s l := by
    intro l x h
    obtain ⟨l', _, h⟩ := List.mem_map.mp h
    rw [Prod.mk.injEq] at h
    rw [← h.1, ← h.2]
  obtain ⟨out, hout, _⟩ := hout custom nan _ (sepValues s) (by rw [hfst]; exact hnd) (fun l => by rw [hfst]) hvals (by
    rintro ⟨f, spec⟩ hmem
    rcases hm'.transitions f spec hmem with h | h <;> rw [h] <;> exact ⟨rfl, fun h => by simp at h⟩)
  exact ⟨m', inputs, _, out, hrem, hm', hin, by rw [hfst]; exact hnd, hvals, hout⟩

theorem sepModel_same : removeFactors [] sepModel = .ok sepModel := by
  obtain ⟨pm, hpm, h⟩ := sepModel_ok
  exact C21_remove_nothing ⟨pm, hpm⟩ (by rintro a ⟨⟩)

/-- What is known about the individuals. -/
noncomputable def sepCov (i : ℕ) : Covariates where
  isObserved := fun _ v => decide (¬(v = "y2" ∧ i = 2))
  control := fun t c => if c = "constant" then 1 else (i : ℝ) + 1 + 10 * (t + 1)
  factor := fun _ _ => 0

theorem sepData_describes {i : ℕ} (hi : i < 3) : Describes sepModel editData [1, 2, 3] [10, 20, 30] i (sepCov i) (fun t _ => (i : ℝ) + 1 + 10 * (t + 1)) := by
  intro t ht
  have ht := (sepModel_period t).mp ht
  have hcontrols : ∀ c, c ≠ "y2" → baseValue (some (editRow (i + 1) (10 * (t + 1)))) c = some ((sepCov i).control t c) := by
    intro c hc
    unfold sepCov
    dsimp only
    split_ifs with h
    · subst h; rfl
    · exact editRow_value h (fun h' => hc h'.1)
  have hcomplete : ¬IncompleteControls sepModel (some (editRow (i + 1) (10 * (t + 1)))) t := by
    rintro ⟨⟨c, hc, hv⟩, _⟩
    rw [valueIs_none rfl, hcontrols c (by rintro rfl; simp [sepModel] at hc)] at hv
    cases hv
  refine ⟨_, editData_row hi ht, fun v hv => ?_, fun _ c hc a ha => ?_, fun f hf => by cases hf⟩
  · obtain ⟨_, hv⟩ := (sepModel_update t v).mp hv
    have hvc : v ≠ "constant" := by rintro rfl; simp at hv
    refine ⟨baseValue (some (editRow (i + 1) (10 * (t + 1)))) v, _, (valueIs_none rfl _ _ _).mpr rfl, Or.inr ⟨hcomplete, rfl⟩, ?_, ?_⟩
    · by_cases h : v = "y2" ∧ i = 2
      · obtain ⟨rfl, rfl⟩ := h
        simp [sepCov, baseValue, editRow]
      · rw [editRow_value hvc h]
        simp only [sepCov, Option.isSome_some, decide_eq_true_eq]
        exact h
    · intro b hb
      by_cases h : v = "y2" ∧ i = 2
      · obtain ⟨rfl, rfl⟩ := h
        simp [baseValue, editRow] at hb
      · rw [editRow_value hvc h] at hb
        exact Option.some.inj hb
  · rw [valueIs_none rfl, hcontrols c (by rintro rfl; simp [sepModel] at hc)] at ha
    exact (Option.some.inj ha).symm

/-- C121 is not vacuous: factor "b" depends on factor "a" but not the other way round; without factor "b", the contribution of the third individual (whose measurements of "b" are missing) is the same. -/
theorem C121_example (custom : String → CustomFn) (nan : ℝ) : ∃ (qr : QR) (m' : ModelDict ℝ) (inputs inputs' : MaximizationInputs) (params params' : List (Loc × ℝ)) (out out' : LoglikeOutput), removeFactors ["b"] sepModel = .ok m' ∧
    getMaximizationInputs sepModel editData = .ok inputs ∧ getMaximizationInputs m' editData = .ok inputs' ∧ inputs.loglike qr custom nan sepModel params = .ok out ∧ inputs'.loglike qr custom nan m' params' = .ok out' ∧
      out'.contributions.getD 2 0 = out.contributions.getD 2 0 := by
  obtain ⟨qr, hqr⟩ := validQR
  obtain ⟨m0, inputs, params, out, hm0, _, hin, hn, hval, hout⟩ := sep_evaluates (fs := []) ⟨"a", (sepModel_latent _).mpr (Or.inl rfl), by simp⟩ (1 / 2) qr custom nan
  obtain rfl := Except.ok.inj (sepModel_same.symm.trans hm0)
  obtain ⟨m', inputs', params', out', hm', hlin, hin', hn', hval', hout'⟩ := sep_evaluates (fs := ["b"]) ⟨"a", (sepModel_latent _).mpr (Or.inl rfl), by simp⟩ (1 / 2) qr custom nan
  refine ⟨qr, m', inputs, inputs', params, params', out, out', hm', hin, hin', hout, hout', ?_⟩
  have hw := without_removeFactors hm'
  refine ((C121_remove_factors hqr hqr hm' sepModel_linear hlin rfl sepModel_names (by rintro o x ⟨⟩ ⟨⟩) (sepValues_proper _) (sepModel_noInfluence _) custom custom nan nan editData_index.1 editData_index.2.1 editData_ids.1 editData_ids.2
    hn hn' hval hval' hin hin' hout hout').1 2 (sepCov 2) _ (by simp) (sepData_describes (by norm_num)) (fun t v hv hno => ?_)).2 ⟨_, rfl, rfl, Or.inl rfl⟩
  obtain ⟨ht, hv⟩ := (sepModel_update t v).mp hv
  have hv2 : v = "y2" := by
    by_contra hne
    refine hno ((hw.isUpdate rfl t v).mpr ⟨"a", (sepModel_measures t v "a").mpr ⟨ht, Or.inl ⟨rfl, ?_⟩⟩, by simp⟩)
    simp only [List.mem_cons, List.not_mem_nil, or_false] at hv
    tauto
  simp [sepCov, hv2]

/-- C122 is not vacuous: if "a" and "b" have nothing to do with each other then the value of the log likelihood is the sum of the values for both factors. -/
theorem C122_example (custom : String → CustomFn) (nan : ℝ) : ∃ (qr : QR) (m' m2 : ModelDict ℝ) (inputs inputs' inputs2 : MaximizationInputs) (params params' params2 : List (Loc × ℝ)) (out out' out2 : LoglikeOutput),
    removeFactors ["b"] sepModel = .ok m' ∧ extractFactors ["b"] sepModel = .ok m2 ∧ getMaximizationInputs sepModel editData = .ok inputs ∧ getMaximizationInputs m' editData = .ok inputs' ∧ getMaximizationInputs m2 editData = .ok inputs2 ∧
      inputs.loglike qr custom nan sepModel params = .ok out ∧ inputs'.loglike qr custom nan m' params' = .ok out' ∧ inputs2.loglike qr custom nan m2 params2 = .ok out2 ∧ out.value = out'.value + out2.value := by
  obtain ⟨qr, hqr⟩ := validQR
  obtain ⟨m0, inputs, params, out, hm0, _, hin, hn, hval, hout⟩ := sep_evaluates (fs := []) ⟨"a", (sepModel_latent _).mpr (Or.inl rfl), by simp⟩ 0 qr custom nan
  obtain rfl := Except.ok.inj (sepModel_same.symm.trans hm0)
  obtain ⟨m', inputs', params', out', hm', hlin, hin', hn', hval', hout'⟩ := sep_evaluates (fs := ["b"]) ⟨"a", (sepModel_latent _).mpr (Or.inl rfl), by simp⟩ 0 qr custom nan
  obtain ⟨m2, inputs2, params2, out2, hm2, hlin2, hin2, hn2, hval2, hout2⟩ := sep_evaluates (fs := ["a"]) ⟨"b", (sepModel_latent _).mpr (Or.inr rfl), by simp⟩ 0 qr custom nan
  have hext : extractFactors ["b"] sepModel = .ok m2 := hm2
  refine ⟨qr, m', m2, inputs, inputs', inputs2, params, params', params2, out, out', out2, hm', hext, hin, hin', hin2, hout, hout', hout2, ?_⟩
  exact (C122_unrelated_factors hqr hqr hqr hm' hext sepModel_linear hlin hlin2 rfl sepModel_names (by rintro o x ⟨⟩ ⟨⟩) (sepValues_proper _) sepModel_unrelated custom custom custom nan nan nan editData_index.1 editData_index.2.1
    editData_ids.1 editData_ids.2 hn hn' hn2 hval hval' hval2 hin hin' hin2 hout hout' hout2).2 ⟨_, rfl, rfl, Or.inl rfl⟩ (fun i hi => ⟨_, _, sepData_describes hi⟩)

end Ex
end Skill
