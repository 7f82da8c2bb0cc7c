import Verif.Props.SameModel

/-! An example for C101. -/

namespace Skill
open Matrix MeasureTheory ProbabilityTheory Spec
namespace Ex

/-- The model `linearModel` with factors and measurements in a different order. -/
noncomputable def reversedModel : ModelDict ℝ where
  factors := [("b", { measurements := [["w"], ["w"]], transition := .named "constant" }), ("a", { measurements := [["y2", "y1"], ["y2", "y1"]], transition := .named "linear" })]
  observedFactors := some ["o"]
  controls := some ["x"]
  estimationOptions := some { clippingLowerBound := some none }

theorem reversedModel_ok : ∃ pm, processModel reversedModel = .ok pm ∧ pm.dimensions.nPeriods = 2 ∧ pm.updateInfo.map (fun r => (r.period, r.var)) = [(0, "w"), (0, "y2"), (0, "y1"), (1, "w"), (1, "y2"), (1, "y1")] := by
  have h : (processModel reversedModel >>= fun pm => pure (pm.dimensions.nPeriods, pm.updateInfo.map (fun r => (r.period, r.var)))) =
      (.ok (2, [(0, "w"), (0, "y2"), (0, "y1"), (1, "w"), (1, "y2"), (1, "y1")]) : Py _) := by decide +kernel
  obtain ⟨pm, hpm, h⟩ := py_bind_ok.mp h
  rw [py_pure_ok, Prod.mk.injEq] at h
  exact ⟨pm, hpm, h.1, h.2⟩

theorem reversedModel_names : GoodNames reversedModel where
  keys := ⟨by decide, by rintro a os ⟨⟩⟩
  distinct := by decide
  controls := by decide
  chars := by decide
  reserved := by decide
  registered := by
    intro f spec fn ps hmem hs
    simp only [reversedModel, List.mem_cons, Prod.mk.injEq, List.not_mem_nil, or_false] at hmem
    rcases hmem with ⟨rfl, rfl⟩ | ⟨rfl, rfl⟩ <;> simp at hs

theorem reversedModel_period (t : ℕ) : IsPeriod reversedModel t ↔ t < 2 := by
  obtain ⟨pm, hpm, h, _⟩ := reversedModel_ok
  rw [isPeriod_iff hpm, h]

theorem reversedModel_noAnchors (v f : String) : ¬Anchors reversedModel v f := by
  rintro ⟨o, ⟨a, ⟨⟩, _⟩, _⟩

theorem reversedModel_clean : CleanAnchoring reversedModel :=
  ⟨by rintro f o ⟨a, ⟨⟩, _⟩, fun v f t g h => absurd h (reversedModel_noAnchors v f), fun v f g h => absurd h (reversedModel_noAnchors v f)⟩

theorem reversedModel_linear : LinearModel reversedModel 1 where
  anchoring := ⟨reversedModel_clean, by rintro a os ⟨⟩, noNameClash_of_none rfl⟩
  periods := (reversedModel_period 1).mpr (by norm_num)
  measured := by
    intro t ht
    obtain rfl | rfl : t = 0 ∨ t = 1 := by have := (reversedModel_period t).mp ht; omega
    · exact ⟨"w", "b", _, List.mem_cons_self, _, rfl, List.mem_cons_self⟩
    · exact ⟨"w", "b", _, List.mem_cons_self, _, rfl, List.mem_cons_self⟩
  transitions := by
    intro f spec hmem
    simp only [reversedModel, List.mem_cons, Prod.mk.injEq, List.not_mem_nil, or_false] at hmem
    rcases hmem with ⟨rfl, rfl⟩ | ⟨rfl, rfl⟩
    · exact Or.inr rfl
    · exact Or.inl rfl
  mixture := ⟨_, rfl, Or.inr ⟨rfl, rfl⟩⟩
  single := Or.inl rfl

theorem reversedModel_same : SameModel linearModel reversedModel where
  latent := by
    intro f
    simp only [IsLatent, linearModel, reversedModel, List.mem_cons, Prod.mk.injEq, List.not_mem_nil, or_false, exists_or, exists_and_left, exists_eq, and_true]
    exact or_comm
  transitions := by
    intro f name
    simp only [HasTransition, linearModel, reversedModel, List.mem_cons, Prod.mk.injEq, List.not_mem_nil, or_false]
    constructor
    · rintro ⟨spec, ⟨rfl, rfl⟩ | ⟨rfl, rfl⟩, h⟩
      · exact ⟨_, Or.inr ⟨rfl, rfl⟩, h⟩
      · exact ⟨_, Or.inl ⟨rfl, rfl⟩, h⟩
    · rintro ⟨spec, ⟨rfl, rfl⟩ | ⟨rfl, rfl⟩, h⟩
      · exact ⟨_, Or.inr ⟨rfl, rfl⟩, h⟩
      · exact ⟨_, Or.inl ⟨rfl, rfl⟩, h⟩
  measures := by
    intro t v f
    simp only [Measures, linearModel, reversedModel, List.mem_cons, Prod.mk.injEq, List.not_mem_nil, or_false]
    have hswap : ∀ ms, ([["y1", "y2"], ["y1", "y2"]][t]? = some ms → v ∈ ms → ∃ ms', [["y2", "y1"], ["y2", "y1"]][t]? = some ms' ∧ v ∈ ms') ∧
        ([["y2", "y1"], ["y2", "y1"]][t]? = some ms → v ∈ ms → ∃ ms', [["y1", "y2"], ["y1", "y2"]][t]? = some ms' ∧ v ∈ ms') := by
      intro ms
      rcases t with _ | _ | t <;> constructor <;> intro h1 h2 <;> simp at h1 <;> subst h1 <;> simp at h2 ⊢ <;> tauto
    constructor
    · rintro ⟨spec, ⟨rfl, rfl⟩ | ⟨rfl, rfl⟩, ms, h1, h2⟩
      · exact ⟨_, Or.inr ⟨rfl, rfl⟩, (hswap ms).1 h1 h2⟩
      · exact ⟨_, Or.inl ⟨rfl, rfl⟩, ms, h1, h2⟩
    · rintro ⟨spec, ⟨rfl, rfl⟩ | ⟨rfl, rfl⟩, ms, h1, h2⟩
      · exact ⟨_, Or.inr ⟨rfl, rfl⟩, ms, h1, h2⟩
      · exact ⟨_, Or.inl ⟨rfl, rfl⟩, (hswap ms).2 h1 h2⟩
  controls _ := Iff.rfl
  observed _ := Iff.rfl
  anchored f o := ⟨by rintro ⟨a, ⟨⟩, _⟩, by rintro ⟨a, ⟨⟩, _⟩⟩
  ignore := ⟨by rintro ⟨a, ⟨⟩, _⟩, by rintro ⟨a, ⟨⟩, _⟩⟩

/-- The values of `linearValues`, with a Cholesky factor for the other order of the factors. -/
noncomputable def reversedValues (l : Loc) : ℝ :=
  if l.cat = .initialCholcovs then (if l.name2 = "b-b" then √(1 / 2) else √(1 / 2) / 2) else linearValues l

theorem reversedValues_same : SameParameters linearModel reversedModel (1 : Equiv.Perm (Fin 1)) linearValues reversedValues where
  weights e := by simp [reversedValues]
  means e f _ := by simp [reversedValues]
  covs := by
    intro e f g hf hg
    have h2 : (√2 : ℝ)⁻¹ * (√2)⁻¹ = 1 / 2 := by rw [← mul_inv, Real.mul_self_sqrt (by norm_num)]; norm_num
    have hl : ∀ f, IsLatent linearModel f → f = "a" ∨ f = "b" := by
      rintro f ⟨spec, h⟩
      simp only [linearModel, List.mem_cons, Prod.mk.injEq, List.not_mem_nil, or_false] at h
      tauto
    rcases hl f hf with rfl | rfl <;> rcases hl g hg with rfl | rfl
    all_goals
      simp [initialCov, cholEntry, reversedValues, linearValues, latents, linearModel, reversedModel, List.idxOf_cons]
      norm_num
      try linarith
  others l h1 h2 h3 := by simp [reversedValues, h3]

theorem reversedModel_period_iff (t : ℕ) : IsPeriod linearModel t ↔ IsPeriod reversedModel t := by rw [linearModel_period, reversedModel_period]

theorem reversedModel_variables : SameVariables linearModel reversedModel := reversedModel_same.variables reversedModel_period_iff

theorem reversedModel_value (df : LongData ℝ) (ids pers : List Int) (i t : ℕ) (c : String) (a : Option ℝ) : HasValue reversedModel df ids pers i t c a ↔ HasValue linearModel df ids pers i t c a := by
  unfold HasValue
  simp only [reversedModel_variables.valueIs]

theorem reversedModel_variable (df : LongData ℝ) (c : String) : HasVariable reversedModel df c ↔ HasVariable linearModel df c := by
  unfold HasVariable
  simp only [reversedModel_same.anchors]

theorem reversedModel_data : DataOk reversedModel linearData [1, 2, 3] [10, 20] where
  keys := linearData_ok.keys
  outcomes := by rintro f o ⟨a, ⟨⟩, _⟩
  controls := by
    intro t ht c hc
    rw [reversedModel_variable]
    simp only [reversedModel_value]
    exact linearData_ok.controls t ((reversedModel_period_iff t).mpr ht) c hc
  measurements := by
    intro t v hv
    rw [reversedModel_variable]
    simp only [reversedModel_value]
    exact linearData_ok.measurements t v ((reversedModel_variables.isUpdate t v).mpr hv)
  observed := by
    intro t ht f hf
    rw [reversedModel_variable]
    simp only [reversedModel_value]
    exact linearData_ok.observed t ((reversedModel_period_iff t).mpr ht) f hf

theorem linearData_describes_all {i : ℕ} (hi : i < 3) : ∃ cov y, Describes linearModel linearData [1, 2, 3] [10, 20] i cov y := by
  refine ⟨⟨fun t v => !decide (v = "y1" ∧ i = 2 ∧ t = 1), fun t c => if c = "constant" then 1 else (i : ℝ) + 1 + 10 * (t + 1), fun t _ => (i : ℝ) + 1 + 10 * (t + 1)⟩, fun t _ => (i : ℝ) + 1 + 10 * (t + 1), ?_⟩
  intro t ht
  have ht := (linearModel_period t).mp ht
  refine ⟨_, linearData_row hi ht, ?_, ?_, ?_⟩
  · intro v hv
    obtain ⟨_, hv⟩ := (linearModel_update t v).mp hv
    have hv' : v ≠ "constant" := by rintro rfl; simp at hv
    refine ⟨_, _, (valueIs_of_none rfl _ _ _).mpr rfl, Or.inr ⟨linearData_complete, rfl⟩, ?_⟩
    by_cases h : v = "y1" ∧ i = 2 ∧ t = 1
    · obtain ⟨rfl, rfl, rfl⟩ := h
      refine ⟨rfl, fun b hb => ?_⟩
      simp [baseValue, linearRow] at hb
    · rw [linearRow_value hv' h]
      refine ⟨by simp only [h, decide_false, Bool.not_false, Option.isSome_some], fun b hb => ?_⟩
      rw [← Option.some.inj hb]
  · intro _ c hc a ha
    rw [valueIs_of_none rfl] at ha
    simp only [linearModel, Option.getD_some, List.mem_cons, List.not_mem_nil, or_false] at hc
    rcases hc with rfl | rfl
    · simpa [baseValue, eq_comm] using ha
    · rw [linearRow_value (by decide) (by simp)] at ha
      rw [Option.some.inj ha]
      simp
  · intro f hf
    refine ⟨linearData_complete, (valueIs_of_none rfl _ _ _).mpr ?_⟩
    simp only [linearModel, Option.getD_some, List.mem_singleton] at hf
    subst hf
    rw [linearRow_value (by decide) (by simp)]

/-- C101 applies: `loglike` has the same value for both orders of factors and measurements. -/
theorem reversedModel_likelihood (custom : String → CustomFn) (nan : ℝ) : ∃ (qr : QR) (inputs inputs' : MaximizationInputs) (params params' : List (Loc × ℝ)) (out out' : LoglikeOutput),
    getMaximizationInputs linearModel linearData = .ok inputs ∧ inputs.loglike qr custom nan linearModel params = .ok out ∧
    getMaximizationInputs reversedModel linearData = .ok inputs' ∧ inputs'.loglike qr custom nan reversedModel params' = .ok out' ∧ out.contributions.length = 3 ∧ out'.contributions = out.contributions ∧ out'.value = out.value := by
  obtain ⟨qr, hqr⟩ := validQR
  obtain ⟨pm, hpm, _⟩ := linearModel_ok
  obtain ⟨pm', hpm', _⟩ := reversedModel_ok
  obtain ⟨inputs, updates0, hin, hen0, hout⟩ := C70_likelihood_evaluates qr hpm linearModel_names linearModel_clean (by rintro a os ⟨⟩) (noNameClash_of_none rfl)
    (by
      rintro f ⟨spec, hmem⟩
      simp only [linearModel, List.mem_cons, Prod.mk.injEq, List.not_mem_nil, or_false] at hmem
      rcases hmem with ⟨rfl, rfl⟩ | ⟨rfl, rfl⟩ <;> decide)
    linearModel_linear.periods linearModel_linear.mixture (Or.inl rfl) linearData_index.1 linearData_index.2.1 linearData_ids.1 linearData_ids.2 linearData_ok
  obtain ⟨inputs', updates0', hin', hen0', hout'⟩ := C70_likelihood_evaluates qr hpm' reversedModel_names reversedModel_clean (by rintro a os ⟨⟩) (noNameClash_of_none rfl)
    (by
      rintro f ⟨spec, hmem⟩
      simp only [reversedModel, List.mem_cons, Prod.mk.injEq, List.not_mem_nil, or_false] at hmem
      rcases hmem with ⟨rfl, rfl⟩ | ⟨rfl, rfl⟩ <;> decide)
    reversedModel_linear.periods reversedModel_linear.mixture (Or.inl rfl) linearData_index.1 linearData_index.2.1 linearData_ids.1 linearData_ids.2 reversedModel_data
  have hix : ∀ {m : ModelDict ℝ} {inputs : MaximizationInputs}, getMaximizationInputs m linearData = .ok inputs → GoodNames m → inputs.index.Nodup := by
    intro m inputs h hg
    unfold getMaximizationInputs at h
    simp only [py_bind_ok, py_pure_ok] at h
    obtain ⟨pm', hpm', _, _, _, _, _, _, rfl⟩ := h
    exact C06_index_unique_partial hpm' hg
  have hfst : ∀ (ix : List Loc) (val : Loc → ℝ), (ix.map (fun l => (l, val l))).map Prod.fst = ix := fun ix val => by rw [List.map_map]; exact List.map_id _
  have hvals : ∀ (ix : List Loc) (val : Loc → ℝ) l x, (l, x) ∈ ix.map (fun l => (l, val l)) → x = val l := by
    intro ix val l x h
    obtain ⟨l', _, h⟩ := List.mem_map.mp h
    rw [Prod.mk.injEq] at h
    rw [← h.1, ← h.2]
  obtain ⟨out, hout, hlen, hlen2, _⟩ := hout custom nan (inputs.index.map (fun l => (l, linearValues l))) linearValues (by rw [hfst]; exact hix hin linearModel_names) (fun l => by rw [hfst]) (hvals _ _) (by
    intro fs hmem
    simp only [linearModel, List.mem_cons, List.not_mem_nil, or_false] at hmem
    rcases hmem with rfl | rfl
    · exact ⟨rfl, fun h => by simp at h⟩
    · exact ⟨rfl, fun h => by simp at h⟩)
  obtain ⟨out', hout', hlen', hlen2', _⟩ := hout' custom nan (inputs'.index.map (fun l => (l, reversedValues l))) reversedValues (by rw [hfst]; exact hix hin' reversedModel_names) (fun l => by rw [hfst]) (hvals _ _) (by
    intro fs hmem
    simp only [reversedModel, List.mem_cons, List.not_mem_nil, or_false] at hmem
    rcases hmem with rfl | rfl
    · exact ⟨rfl, fun h => by simp at h⟩
    · exact ⟨rfl, fun h => by simp at h⟩)
  have h := C101_order_does_not_matter hqr hqr hpm hpm' linearModel_linear reversedModel_linear (Or.inr rfl) linearModel_names reversedModel_names (by rintro o x ⟨⟩ ⟨⟩) (by rintro o x ⟨⟩ ⟨⟩) reversedModel_same reversedValues_same
    linearValues_proper custom custom nan nan linearData_index.1 linearData_index.2.1 linearData_ids.1 linearData_ids.2 (by rw [hfst]; exact hix hin linearModel_names) (by rw [hfst]; exact hix hin' reversedModel_names) (hvals _ _) (hvals _ _)
    hin hin' hout hout'
  exact ⟨qr, inputs, inputs', _, _, out, out', hin, hout, hin', hout', hlen, h.2 ⟨_, rfl, rfl, Or.inl rfl⟩ ⟨_, rfl, rfl, Or.inl rfl⟩ (fun i hi => linearData_describes_all hi)⟩

end Ex
end Skill
