import Verif.Props.Rescaling
import Verif.Props.ConstantIsLinear
import Verif.Props.SameModelExamples
import Verif.Props.AnchoredExamples

/-! Examples for C103, C104, C105 and (with them) C102. -/

namespace Skill
open Matrix MeasureTheory ProbabilityTheory Spec
namespace Ex

/-- A likelihood that can be evaluated at all values of parameters. -/
theorem evaluates (qr : QR) {m : ModelDict ℝ} {pm : Processed ℝ} (hpm : processModel m = .ok pm) (hg : GoodNames m) (hm : LinearModel m 1) (hq : ∀ f, IsLatent m f → querySafe f)
    {df : LongData ℝ} (hi : IndexOk df) (hu : NoUnusedPeriods df) {ids pers : List Int} (hids : IdsOf df ids) (hpers : PeriodsOf df pers) (hdata : DataOk m df ids pers) (custom : String → CustomFn) (nan : ℝ) :
    ∃ inputs, getMaximizationInputs m df = .ok inputs ∧ ∀ val : Loc → ℝ, ∃ (params : List (Loc × ℝ)) (out : LoglikeOutput), inputs.loglike qr custom nan m params = .ok out ∧ out.contributions.length = ids.length ∧
      (params.map Prod.fst).Nodup ∧ (∀ l x, (l, x) ∈ params → x = val l) ∧ (∀ l, l ∈ params.map Prod.fst ↔ l ∈ pm.paramsIndex) := by
  obtain ⟨inputs, updates, hin, _, hout⟩ := C70_likelihood_evaluates qr hpm hg hm.anchoring.1 hm.anchoring.2.1 hm.anchoring.2.2 hq hm.periods hm.mixture (Or.inl rfl) hi hu hids hpers hdata
  have hix : inputs.index = pm.paramsIndex := by
    have h := hin
    unfold getMaximizationInputs at h
    simp only [py_bind_ok, py_pure_ok] at h
    obtain ⟨pm', hpm', _, _, _, _, _, _, rfl⟩ := h
    rw [hpm] at hpm'
    cases hpm'
    rfl
  refine ⟨inputs, hin, fun val => ?_⟩
  have hfst : (inputs.index.map (fun l => (l, val l))).map Prod.fst = inputs.index := by rw [List.map_map]; exact List.map_id _
  have hnd : inputs.index.Nodup := by rw [hix]; exact C06_index_unique_partial hpm hg
  have hvals : ∀ l x, (l, x) ∈ inputs.index.map (fun l => (l, val l)) → x = val l := by
    intro l x h
    obtain ⟨l', _, h⟩ := List.mem_map.mp h
    rw [Prod.mk.injEq] at h
    rw [← h.1, ← h.2]
  obtain ⟨out, hout, hlen, _⟩ := hout custom nan _ val (by rw [hfst]; exact hnd) (fun l => by rw [hfst]) hvals (by
    rintro ⟨f, spec⟩ hmem
    rcases hm.transitions f spec hmem with h | h <;> rw [h] <;> exact ⟨rfl, fun h => by simp at h⟩)
  exact ⟨_, out, hout, hlen, by rw [hfst]; exact hnd, hvals, fun l => by rw [hfst, hix]⟩

/-- Other units: the scale of factor "a" changes over time. -/
noncomputable def otherScale (t : ℕ) (f : String) : ℝ := if f = "a" then t + 2 else 4

noncomputable def otherLocation (t : ℕ) (f : String) : ℝ := if f = "a" then t + 1 else 1

theorem otherScale_ne (t : ℕ) (f : String) : otherScale t f ≠ 0 := by
  unfold otherScale
  split_ifs
  · positivity
  · norm_num

theorem anchoredModel_constant {f : String} (h : HasTransition anchoredModel f "constant") : f = "b" := by
  obtain ⟨spec, hmem, h⟩ := h
  simp only [anchoredModel, linearModel, List.mem_cons, Prod.mk.injEq, List.not_mem_nil, or_false] at hmem
  rcases hmem with ⟨rfl, rfl⟩ | ⟨rfl, rfl⟩
  · simp at h
  · rfl

theorem anchoredModel_canRescale : CanRescale anchoredModel otherScale otherLocation where
  nonzero t f _ := otherScale_ne t f
  constant t f h _ := by
    rw [anchoredModel_constant h]
    simp [otherScale, otherLocation]
  anchored := by
    rintro ⟨a, h, hflag⟩
    simp only [anchoredModel, Option.some.injEq] at h
    subst h
    simp at hflag

/-- C103 applies to a model in which one of two factors is anchored: the results for the third individual do not change. The loadings change, but not the effect of the anchored factor on itself. -/
theorem anchoredModel_rescaled (custom : String → CustomFn) (nan : ℝ) : ∃ (qr : QR) (inputs : MaximizationInputs) (val' : Loc → ℝ) (params params' : List (Loc × ℝ)) (out out' : LoglikeOutput),
    getMaximizationInputs anchoredModel anchoredData = .ok inputs ∧ inputs.loglike qr custom nan anchoredModel params = .ok out ∧ inputs.loglike qr custom nan anchoredModel params' = .ok out' ∧
    (∀ l x, (l, x) ∈ params → x = linearValues l) ∧ (∀ l x, (l, x) ∈ params' → x = val' l) ∧ val' ⟨.loadings, 1, "y1", "a"⟩ = 1 / 6 ∧ val' ⟨.transition, 0, "a", "a"⟩ = 1 / 2 ∧
    out'.contributions.getD 2 0 = out.contributions.getD 2 0 := by
  obtain ⟨qr, hqr⟩ := validQR
  obtain ⟨pm, hpm, _⟩ := anchoredModel_ok
  obtain ⟨inputs, hin, hev⟩ := evaluates qr hpm anchoredModel_names anchoredModel_linear (fun f hf => (anchoredModel_safe f hf).1) anchoredData_index.1 anchoredData_index.2.1 anchoredData_ids.1 anchoredData_ids.2 anchoredData_ok custom nan
  have hr : Rescales anchoredModel otherScale otherLocation linearValues (rescaledValues anchoredModel otherScale otherLocation linearValues) := rescaledValues_rescales anchoredModel_names
  obtain ⟨params, out, hout, _, hn, hval, _⟩ := hev linearValues
  obtain ⟨params', out', hout', _, hn', hval', _⟩ := hev (rescaledValues anchoredModel otherScale otherLocation linearValues)
  have h := C103_rescaling hqr hqr hpm anchoredModel_linear (Or.inr rfl) anchoredModel_names (by rintro o x ⟨⟩ ⟨⟩) anchoredModel_canRescale hr anchoredValues_proper custom custom nan nan anchoredData_index.1 anchoredData_index.2.1
    anchoredData_ids.1 anchoredData_ids.2 hn hn' hval hval' hin hout hout'
  have ha : IsLatent anchoredModel "a" := ⟨_, List.mem_cons_self⟩
  have hu : ∀ t, unitScale anchoredModel otherScale t "a" = 1 := fun t => if_neg (fun h => h.2 ⟨"q", (anchoredModel_anchoredIn _ _).mpr ⟨rfl, rfl⟩⟩)
  refine ⟨qr, inputs, _, params, params', out, out', hin, hout, hout', hval, hval', ?_, ?_, (h.1 2 _ _ (by simp) anchoredData_describes).2⟩
  · rw [hr.loadings 1 "y1" "a" ha (Or.inl ⟨_, List.mem_cons_self, _, rfl, List.mem_cons_self⟩)]
    norm_num [otherScale, linearValues, show Cat.loadings ≠ Cat.mixtureWeights by decide]
  · rw [hr.coefficients 0 "a" "a" ha (by decide), hu, hu]
    norm_num [linearValues, show Cat.transition ≠ Cat.mixtureWeights by decide]

/-- Two linear factors whose scale and location is fixed by one measurement in each period. -/
noncomputable def normModel : ModelDict ℝ where
  factors := [("a", { measurements := [["y1", "y2"], ["y1", "y2"]], transition := .named "linear", normalizations := some { loadings := some [[("y1", 1)], [("y1", 1)]], intercepts := some [[("y2", 0)], [("y2", 0)]] } }),
              ("b", { measurements := [["w"], ["w"]], transition := .named "linear", normalizations := some { loadings := some [[("w", 3)], [("w", 2)]] } })]
  observedFactors := some ["o"]
  controls := some ["x"]
  estimationOptions := some { clippingLowerBound := some none }

theorem normModel_loadings {t : ℕ} {f v : String} {x : ℝ} (h : IsLoadingNorm normModel t f v x) : t < 2 ∧ (f = "a" ∧ v = "y1" ∧ x = 1 ∨ f = "b" ∧ v = "w" ∧ x = 3 - t) := by
  obtain ⟨spec, hmem, ns, ls, d, h1, h2, h3, h4⟩ := h
  simp only [normModel, List.mem_cons, Prod.mk.injEq, List.not_mem_nil, or_false] at hmem
  rcases hmem with ⟨rfl, rfl⟩ | ⟨rfl, rfl⟩ <;> obtain rfl := Option.some.inj h1 <;> obtain rfl := Option.some.inj h2 <;> rcases t with _ | _ | t <;> simp at h3 <;> subst h3 <;> simp at h4 <;> obtain ⟨rfl, rfl⟩ := h4 <;> norm_num

theorem normModel_intercepts {t : ℕ} {f v : String} {x : ℝ} (h : IsInterceptNorm normModel t f v x) : t < 2 ∧ f = "a" ∧ v = "y2" ∧ x = 0 := by
  obtain ⟨spec, hmem, ns, ls, d, h1, h2, h3, h4⟩ := h
  simp only [normModel, List.mem_cons, Prod.mk.injEq, List.not_mem_nil, or_false] at hmem
  rcases hmem with ⟨rfl, rfl⟩ | ⟨rfl, rfl⟩ <;> obtain rfl := Option.some.inj h1
  · obtain rfl := Option.some.inj h2
    rcases t with _ | _ | t <;> simp at h3 <;> subst h3 <;> simp at h4 <;> obtain ⟨rfl, rfl⟩ := h4 <;> norm_num
  · simp at h2

theorem normModel_ok : ∃ pm, processModel normModel = .ok pm := by
  rw [C02_accepts_iff]
  have hn : ∀ {f spec}, (f, spec) ∈ normModel.factors → spec.measurements.length = 2 := by
    intro f spec hmem
    simp only [normModel, List.mem_cons, Prod.mk.injEq, List.not_mem_nil, or_false] at hmem
    rcases hmem with ⟨rfl, rfl⟩ | ⟨rfl, rfl⟩ <;> rfl
  have hmeas : ∀ {t f v} {spec : FactorSpec ℝ}, t < 2 → (f, spec) ∈ normModel.factors → (f = "a" ∧ (v = "y1" ∨ v = "y2")) ∨ f = "b" ∧ v = "w" → ∃ ms, spec.measurements[t]? = some ms ∧ v ∈ ms := by
    intro t f v spec ht hmem h
    simp only [normModel, List.mem_cons, Prod.mk.injEq, List.not_mem_nil, or_false] at hmem
    obtain rfl | rfl : t = 0 ∨ t = 1 := by omega
    all_goals
      rcases h with ⟨rfl, rfl | rfl⟩ | ⟨rfl, rfl⟩ <;> rcases hmem with ⟨h, rfl⟩ | ⟨h, rfl⟩ <;> first | (exact absurd h (by decide)) | exact ⟨_, rfl, by simp⟩
  refine ⟨by simp [normModel], rfl, ⟨?_, ?_, ?_, ?_⟩, ?_, ?_⟩
  · rintro n ⟨⟨f, spec, hmem, rfl⟩, _⟩
    rw [hn hmem]
    norm_num
  · rintro n sm _ ⟨⟩
  · intro f spec t v x hmem h
    obtain ⟨ht, h'⟩ := normModel_loadings ⟨spec, hmem, h⟩
    have hpos : (0 : ℝ) < 3 - t := by
      have : (t : ℝ) < 2 := by exact_mod_cast ht
      linarith
    refine ⟨?_, hmeas ht hmem (by tauto)⟩
    rcases h' with ⟨_, _, rfl⟩ | ⟨_, _, rfl⟩
    · norm_num
    · exact hpos.ne'
  · intro f spec t v x hmem h
    obtain ⟨ht, h'⟩ := normModel_intercepts ⟨spec, hmem, h⟩
    exact hmeas ht hmem (by tauto)
  · intro f spec hmem
    rw [show spec.transition = .named "linear" by
      simp only [normModel, List.mem_cons, Prod.mk.injEq, List.not_mem_nil, or_false] at hmem
      rcases hmem with ⟨rfl, rfl⟩ | ⟨rfl, rfl⟩ <;> rfl]
    unfold ValidTransition
    decide
  · intro f spec ns n hmem hs hper
    have h2 : 2 ≤ n := by rw [← hn hmem]; exact hper.2 f spec hmem
    simp only [normModel, List.mem_cons, Prod.mk.injEq, List.not_mem_nil, or_false] at hmem
    rcases hmem with ⟨rfl, rfl⟩ | ⟨rfl, rfl⟩ <;> obtain rfl := Option.some.inj hs
    · refine ⟨fun ls h => ?_, fun ls h => ?_⟩ <;> obtain rfl := Option.some.inj h <;> exact h2
    · refine ⟨fun ls h => ?_, fun ls h => by simp at h⟩
      obtain rfl := Option.some.inj h
      exact h2

theorem normModel_names : GoodNames normModel where
  keys := ⟨by decide, by rintro a os ⟨⟩⟩
  distinct := by decide
  controls := by decide
  chars := by decide
  reserved := by decide
  registered := by
    intro f spec fn ps hmem hs
    simp only [normModel, List.mem_cons, Prod.mk.injEq, List.not_mem_nil, or_false] at hmem
    rcases hmem with ⟨rfl, rfl⟩ | ⟨rfl, rfl⟩ <;> simp at hs

theorem normModel_period (t : ℕ) : IsPeriod normModel t ↔ t < 2 := by
  have hn : IsNPeriods normModel 2 := by
    refine ⟨⟨_, _, List.mem_cons_self, rfl⟩, ?_⟩
    intro f spec hmem
    simp only [normModel, List.mem_cons, Prod.mk.injEq, List.not_mem_nil, or_false] at hmem
    rcases hmem with ⟨rfl, rfl⟩ | ⟨rfl, rfl⟩ <;> exact le_refl 2
  constructor
  · rintro ⟨n, ⟨⟨f, spec, hmem, rfl⟩, _⟩, ht⟩
    exact ht.trans_le (hn.2 f spec hmem)
  · exact fun h => ⟨2, hn, h⟩

theorem normModel_measures (t : ℕ) (v f : String) : Measures normModel t v f ↔ Measures linearModel t v f := by
  simp only [Measures, linearModel, normModel, List.mem_cons, Prod.mk.injEq, List.not_mem_nil, or_false]
  constructor
  · rintro ⟨spec, ⟨rfl, rfl⟩ | ⟨rfl, rfl⟩, h⟩
    · exact ⟨_, Or.inl ⟨rfl, rfl⟩, h⟩
    · exact ⟨_, Or.inr ⟨rfl, rfl⟩, h⟩
  · rintro ⟨spec, ⟨rfl, rfl⟩ | ⟨rfl, rfl⟩, h⟩
    · exact ⟨_, Or.inl ⟨rfl, rfl⟩, h⟩
    · exact ⟨_, Or.inr ⟨rfl, rfl⟩, h⟩

theorem normModel_variables : SameVariables linearModel normModel where
  periods t := by rw [linearModel_period, normModel_period]
  measurements t v := exists_congr (fun f => (normModel_measures t v f).symm)
  anchored f o := ⟨by rintro ⟨a, ⟨⟩, _⟩, by rintro ⟨a, ⟨⟩, _⟩⟩
  controls _ := Iff.rfl
  observed _ := Iff.rfl

theorem normModel_noAnchors (v f : String) : ¬Anchors normModel v f := by
  rintro ⟨o, ⟨a, ⟨⟩, _⟩, _⟩

theorem normModel_clean : CleanAnchoring normModel :=
  ⟨by rintro f o ⟨a, ⟨⟩, _⟩, fun v f t g h => absurd h (normModel_noAnchors v f), fun v f g h => absurd h (normModel_noAnchors v f)⟩

theorem normModel_transition {f : String} {spec : FactorSpec ℝ} (hmem : (f, spec) ∈ normModel.factors) : spec.transition = .named "linear" := by
  simp only [normModel, List.mem_cons, Prod.mk.injEq, List.not_mem_nil, or_false] at hmem
  rcases hmem with ⟨rfl, rfl⟩ | ⟨rfl, rfl⟩ <;> rfl

theorem normModel_linear : LinearModel normModel 1 where
  anchoring := ⟨normModel_clean, by rintro a os ⟨⟩, noNameClash_of_none rfl⟩
  periods := (normModel_period 1).mpr (by norm_num)
  measured := by
    intro t ht
    obtain rfl | rfl : t = 0 ∨ t = 1 := by have := (normModel_period t).mp ht; omega
    · exact ⟨"w", "b", _, List.mem_cons_of_mem _ List.mem_cons_self, _, rfl, List.mem_cons_self⟩
    · exact ⟨"w", "b", _, List.mem_cons_of_mem _ List.mem_cons_self, _, rfl, List.mem_cons_self⟩
  transitions := fun f spec hmem => Or.inl (normModel_transition hmem)
  mixture := ⟨_, rfl, Or.inr ⟨rfl, rfl⟩⟩
  single := Or.inl rfl

theorem normModel_value (df : LongData ℝ) (ids pers : List Int) (i t : ℕ) (c : String) (a : Option ℝ) : HasValue normModel df ids pers i t c a ↔ HasValue linearModel df ids pers i t c a := by
  unfold HasValue
  simp only [normModel_variables.valueIs]

theorem normModel_variable (df : LongData ℝ) (c : String) : HasVariable normModel df c ↔ HasVariable linearModel df c := by
  unfold HasVariable
  simp only [normModel_variables.anchors]

theorem normModel_data : DataOk normModel linearData [1, 2, 3] [10, 20] where
  keys := linearData_ok.keys
  outcomes := by rintro f o ⟨a, ⟨⟩, _⟩
  controls := by
    intro t ht c hc
    rw [normModel_variable]
    simp only [normModel_value]
    exact linearData_ok.controls t ((normModel_variables.periods t).mpr ht) c hc
  measurements := by
    intro t v hv
    rw [normModel_variable]
    simp only [normModel_value]
    exact linearData_ok.measurements t v ((normModel_variables.isUpdate t v).mpr hv)
  observed := by
    intro t ht f hf
    rw [normModel_variable]
    simp only [normModel_value]
    exact linearData_ok.observed t ((normModel_variables.periods t).mpr ht) f hf

theorem normValues_proper : ProperValues normModel 1 linearValues where
  positive := by
    intro e _
    simp [linearValues]
  sum := by simp [linearValues]
  sds := by
    intro t v _
    simp [linearValues]
  scales := by
    intro t f _
    exact one_ne_zero

theorem normModel_measures_only {t : ℕ} (ht : t < 2) (g : String) : (Measures normModel t "y1" g ↔ g = "a") ∧ (Measures normModel t "y2" g ↔ g = "a") ∧ (Measures normModel t "w" g ↔ g = "b") := by
  simp only [Measures, normModel, List.mem_cons, Prod.mk.injEq, List.not_mem_nil, or_false]
  obtain rfl | rfl : t = 0 ∨ t = 1 := by omega
  all_goals
    refine ⟨⟨?_, ?_⟩, ⟨?_, ?_⟩, ⟨?_, ?_⟩⟩
    · rintro ⟨spec, ⟨rfl, rfl⟩ | ⟨rfl, rfl⟩, ms, h1, h2⟩
      · rfl
      · simp at h1; subst h1; simp at h2
    · rintro rfl; exact ⟨_, Or.inl ⟨rfl, rfl⟩, _, rfl, by simp⟩
    · rintro ⟨spec, ⟨rfl, rfl⟩ | ⟨rfl, rfl⟩, ms, h1, h2⟩
      · rfl
      · simp at h1; subst h1; simp at h2
    · rintro rfl; exact ⟨_, Or.inl ⟨rfl, rfl⟩, _, rfl, by simp⟩
    · rintro ⟨spec, ⟨rfl, rfl⟩ | ⟨rfl, rfl⟩, ms, h1, h2⟩
      · simp at h1; subst h1; simp at h2
      · rfl
    · rintro rfl; exact ⟨_, Or.inr ⟨rfl, rfl⟩, _, rfl, by simp⟩

/-- C104 applies: parameters that do not satisfy the normalizations (all loadings are 1 / 2) have the same log likelihood value as parameters that satisfy them. -/
theorem normModel_likelihood (custom : String → CustomFn) (nan : ℝ) : ∃ (qr : QR) (inputs : MaximizationInputs) (val' : Loc → ℝ) (params params' : List (Loc × ℝ)) (out out' : LoglikeOutput),
    getMaximizationInputs normModel linearData = .ok inputs ∧ inputs.loglike qr custom nan normModel params = .ok out ∧ inputs.loglike qr custom nan normModel params' = .ok out' ∧
    (∀ l x, (l, x) ∈ params → x = linearValues l) ∧ (∀ l x, (l, x) ∈ params' → x = val' l) ∧ val' ⟨.loadings, 1, "y1", "a"⟩ = 1 ∧ val' ⟨.controls, 1, "y2", "constant"⟩ = 0 ∧ val' ⟨.loadings, 0, "w", "b"⟩ = 3 ∧
    out.contributions.length = 3 ∧ out' = out := by
  obtain ⟨qr, hqr⟩ := validQR
  obtain ⟨pm, hpm⟩ := normModel_ok
  obtain ⟨inputs, hin, hev⟩ := evaluates qr hpm normModel_names normModel_linear (by
      rintro f ⟨spec, hmem⟩
      simp only [normModel, List.mem_cons, Prod.mk.injEq, List.not_mem_nil, or_false] at hmem
      rcases hmem with ⟨rfl, rfl⟩ | ⟨rfl, rfl⟩ <;> decide)
    linearData_index.1 linearData_index.2.1 linearData_ids.1 linearData_ids.2 normModel_data custom nan
  obtain ⟨val', _, hfix, _, _, hsame⟩ := C104_normalizations hpm normModel_linear rfl normModel_names (by rintro o x ⟨⟩ ⟨⟩)
    (by
      rintro f ⟨spec, hmem, h⟩
      rw [normModel_transition hmem] at h
      simp at h)
    normValues_proper
    (by
      intro t f v x h
      obtain ⟨ht, h⟩ := normModel_loadings h
      have hpos : (0 : ℝ) < 3 - t := by
        have : (t : ℝ) < 2 := by exact_mod_cast ht
        linarith
      rcases h with ⟨rfl, rfl, rfl⟩ | ⟨rfl, rfl, rfl⟩
      · refine ⟨fun g => (normModel_measures_only ht g).1, by norm_num [linearValues, show Cat.loadings ≠ Cat.mixtureWeights by decide], fun v' x' h' => ?_⟩
        obtain ⟨_, h'⟩ := normModel_loadings h'
        simpa using h'
      · refine ⟨fun g => (normModel_measures_only ht g).2.2, ?_, fun v' x' h' => ?_⟩
        · simp [linearValues, hpos]
        · obtain ⟨_, h'⟩ := normModel_loadings h'
          simpa using h')
    (by
      intro t f v x h
      obtain ⟨ht, rfl, rfl, rfl⟩ := normModel_intercepts h
      refine ⟨fun g => (normModel_measures_only ht g).2.1, by norm_num [linearValues, show Cat.loadings ≠ Cat.mixtureWeights by decide], fun v' x' h' => ?_⟩
      obtain ⟨_, _, h'⟩ := normModel_intercepts h'
      exact h')
  obtain ⟨params, out, hout, hlen, hn, hval, _⟩ := hev linearValues
  obtain ⟨params', out', hout', _, hn', hval', _⟩ := hev val'
  have h := hsame qr qr custom custom nan nan linearData [1, 2, 3] [10, 20] inputs params params' out out' hqr hqr linearData_index.1 linearData_index.2.1 linearData_ids.1 linearData_ids.2 hn hn' hval hval' hin hout hout'
  refine ⟨qr, inputs, val', params, params', out, out', hin, hout, hout', hval, hval', ?_, ?_, ?_, hlen, h.2 (fun i hi => ?_)⟩
  · exact hfix _ _ (.loading List.mem_cons_self ⟨_, _, _, rfl, rfl, rfl, List.mem_cons_self⟩)
  · exact hfix _ _ (.intercept List.mem_cons_self ⟨_, _, _, rfl, rfl, rfl, List.mem_cons_self⟩)
  · exact hfix _ _ (.loading (List.mem_cons_of_mem _ List.mem_cons_self) ⟨_, _, _, rfl, rfl, rfl, List.mem_cons_self⟩)
  · obtain ⟨cov, y, hd⟩ := linearData_describes_all hi
    exact ⟨cov, y, normModel_variables.describes hd⟩

/-- The model `linearModel` with the transition function "linear" for both factors. -/
noncomputable def allLinear : ModelDict ℝ := makeLinear (fun f => f == "b") linearModel

theorem allLinear_ok : ∃ pm, processModel allLinear = .ok pm := by
  have h : (processModel allLinear >>= fun pm => pure pm.dimensions.nPeriods) = (.ok 2 : Py _) := by decide +kernel
  obtain ⟨pm, hpm, _⟩ := py_bind_ok.mp h
  exact ⟨pm, hpm⟩

theorem allLinear_data : DataOk allLinear linearData [1, 2, 3] [10, 20] where
  keys := linearData_ok.keys
  outcomes := by rintro f o ⟨a, ⟨⟩, _⟩
  controls t ht c hc := linearData_ok.controls t ((makeLinear_variables.periods t).mpr ht) c hc
  measurements t v hv := linearData_ok.measurements t v ((makeLinear_variables.isUpdate t v).mpr hv)
  observed t ht f hf := linearData_ok.observed t ((makeLinear_variables.periods t).mpr ht) f hf

/-- The values of `linearValues` and a transition function of "b" that keeps its value. -/
noncomputable def keepValues (l : Loc) : ℝ := if l.cat = .transition ∧ l.name1 = "b" then (if l.name2 = "b" then 1 else 0) else linearValues l

theorem keepValues_keeps : KeepsFactors (fun f => f == "b") linearModel linearValues keepValues where
  others l h := if_neg (fun h' => h ⟨h'.1, by simp [h'.2]⟩)
  own t f hp _ := by
    obtain rfl : f = "b" := by simpa using hp
    simp [keepValues]
  cross t f g hp _ _ hne := by
    obtain rfl : f = "b" := by simpa using hp
    simp [keepValues, hne]

/-- C105 applies: `loglike` has the same value in both models. -/
theorem allLinear_likelihood (custom : String → CustomFn) (nan : ℝ) : ∃ (qr : QR) (inputs inputs' : MaximizationInputs) (params params' : List (Loc × ℝ)) (out out' : LoglikeOutput),
    getMaximizationInputs linearModel linearData = .ok inputs ∧ inputs.loglike qr custom nan linearModel params = .ok out ∧ getMaximizationInputs allLinear linearData = .ok inputs' ∧
    inputs'.loglike qr custom nan allLinear params' = .ok out' ∧ (∀ l x, (l, x) ∈ params → x = linearValues l) ∧ (∀ l x, (l, x) ∈ params' → x = keepValues l) ∧ (⟨.transition, 0, "b", "b"⟩ : Loc) ∉ params.map Prod.fst ∧
    (⟨.transition, 0, "b", "b"⟩ : Loc) ∈ params'.map Prod.fst ∧ out.contributions.length = 3 ∧ out'.contributions = out.contributions ∧ out'.value = out.value := by
  obtain ⟨qr, hqr⟩ := validQR
  obtain ⟨pm, hpm, _⟩ := linearModel_ok
  obtain ⟨pm', hpm'⟩ := allLinear_ok
  have hq : ∀ f, IsLatent linearModel f → querySafe f := by
    rintro f ⟨spec, hmem⟩
    simp only [linearModel, List.mem_cons, Prod.mk.injEq, List.not_mem_nil, or_false] at hmem
    rcases hmem with ⟨rfl, rfl⟩ | ⟨rfl, rfl⟩ <;> decide
  obtain ⟨inputs, hin, hev⟩ := evaluates qr hpm linearModel_names linearModel_linear hq linearData_index.1 linearData_index.2.1 linearData_ids.1 linearData_ids.2 linearData_ok custom nan
  obtain ⟨inputs', hin', hev'⟩ := evaluates qr hpm' (makeLinear_names linearModel_names) (makeLinear_linear linearModel_linear) (fun f hf => hq f (by rw [← mem_latents_iff] at hf ⊢; exact hf))
    linearData_index.1 linearData_index.2.1 linearData_ids.1 linearData_ids.2 allLinear_data custom nan
  obtain ⟨params, out, hout, hlen, hn, hval, hix⟩ := hev linearValues
  obtain ⟨params', out', hout', _, hn', hval', hix'⟩ := hev' keepValues
  have h := C105_constant_is_linear hqr hqr hpm hpm' linearModel_linear (Or.inr rfl) linearModel_names (by rintro o x ⟨⟩ ⟨⟩)
    (fun f hp _ => by
      obtain rfl : f = "b" := by simpa using hp
      exact ⟨_, List.mem_cons_of_mem _ List.mem_cons_self, rfl⟩)
    keepValues_keeps linearValues_proper custom custom nan nan linearData_index.1 linearData_index.2.1 linearData_ids.1 linearData_ids.2 hn hn' hval hval' hin hin' hout hout'
  refine ⟨qr, inputs, inputs', params, params', out, out', hin, hout, hin', hout', hval, hval', ?_, ?_, hlen, h.2 ⟨_, rfl, rfl, Or.inl rfl⟩ (fun i hi => linearData_describes_all hi)⟩
  · rw [hix]
    have : (processModel linearModel >>= fun pm => pure (decide ((⟨.transition, 0, "b", "b"⟩ : Loc) ∈ pm.paramsIndex))) = (.ok false : Py _) := by decide +kernel
    rw [hpm] at this
    simpa using Except.ok.inj this
  · rw [hix']
    have : (processModel allLinear >>= fun pm => pure (decide ((⟨.transition, 0, "b", "b"⟩ : Loc) ∈ pm.paramsIndex))) = (.ok true : Py _) := by decide +kernel
    rw [hpm'] at this
    simpa using Except.ok.inj this

end Ex
end Skill
