import Verif.Props.AnchoringInfluence
import Verif.Props.PipelineExamples
/-
C88: an example with one mixture element, where anchoring outcomes do not matter, and a counterexample with two mixture elements.
-/
namespace Skill
namespace Ex
open Matrix Spec

/-- One factor with a linear transition equation, one measurement in each of two periods, anchored in the outcome "q". -/
noncomputable def mixModel (k : ℕ) : ModelDict ℝ where
  factors := [("a", { measurements := [["y"], ["y"]], transition := .named "linear" })]
  anchoring := some { outcomes := some [("a", "q")], freeConstant := some true, freeLoadings := some true }
  estimationOptions := some { nMixtures := some k, clippingLowerBound := some none }

theorem mixModel_ok {k : ℕ} (hk : k = 1 ∨ k = 2) : ∃ pm, processModel (mixModel k) = .ok pm ∧ pm.dimensions.nPeriods = 2 ∧ pm.dimensions.nMixtures = k ∧
    pm.updateInfo.map (fun r => (r.period, r.var)) = [(0, "y"), (0, "q_a"), (1, "y"), (1, "q_a")] := by
  have h : (processModel (mixModel k) >>= fun pm => pure (pm.dimensions.nPeriods, pm.dimensions.nMixtures, pm.updateInfo.map (fun r => (r.period, r.var)))) =
      (.ok (2, k, [(0, "y"), (0, "q_a"), (1, "y"), (1, "q_a")]) : Py _) := by
    rcases hk with rfl | rfl <;> decide +kernel
  obtain ⟨pm, hpm, h⟩ := py_bind_ok.mp h
  rw [py_pure_ok, Prod.mk.injEq, Prod.mk.injEq] at h
  exact ⟨pm, hpm, h.1, h.2.1, h.2.2⟩

theorem mixModel_anchoredIn (k : ℕ) (f o : String) : AnchoredIn (mixModel k) f o ↔ f = "a" ∧ o = "q" := by
  constructor
  · rintro ⟨a, ⟨⟩, os, ⟨⟩, h⟩
    simpa using h
  · rintro ⟨rfl, rfl⟩
    exact ⟨_, rfl, _, rfl, by simp⟩

theorem mixModel_anchors (k : ℕ) (v f : String) : Anchors (mixModel k) v f ↔ f = "a" ∧ v = "q_a" := by
  constructor
  · rintro ⟨o, h, rfl⟩
    obtain ⟨rfl, rfl⟩ := (mixModel_anchoredIn k f o).mp h
    exact ⟨rfl, rfl⟩
  · rintro ⟨rfl, rfl⟩
    exact ⟨"q", (mixModel_anchoredIn k _ _).mpr ⟨rfl, rfl⟩, rfl⟩

theorem mixModel_names (k : ℕ) : GoodNames (mixModel k) where
  keys := ⟨by show ["a"].Nodup; decide, by rintro a os ⟨⟩ ⟨⟩; decide⟩
  distinct := by show ["a"].Nodup; decide
  controls := by show ["constant"].Nodup; decide
  chars := by show ∀ f ∈ ["a"], '-' ∉ f.toList ∧ ' ' ∉ f.toList; decide
  reserved := by show ∀ f ∈ ["a"], f ≠ "constant" ∧ f ≠ "phi" ∧ f ≠ "tfp" ∧ ∀ g ∈ ["a"], f ≠ "sigma_" ++ g; decide
  registered := by
    intro f spec fn ps hmem hs
    simp only [mixModel, List.mem_singleton, Prod.mk.injEq] at hmem
    obtain ⟨rfl, rfl⟩ := hmem
    simp at hs

theorem mixModel_period {k : ℕ} (hk : k = 1 ∨ k = 2) (t : ℕ) : IsPeriod (mixModel k) t ↔ t < 2 := by
  obtain ⟨pm, hpm, h, _⟩ := mixModel_ok hk
  rw [isPeriod_iff hpm, h]

theorem mixModel_measures (k : ℕ) (t : ℕ) (v f : String) : Measures (mixModel k) t v f ↔ f = "a" ∧ v = "y" ∧ t < 2 := by
  constructor
  · rintro ⟨spec, hmem, ms, hms, hv⟩
    simp only [mixModel, List.mem_singleton, Prod.mk.injEq] at hmem
    obtain ⟨rfl, rfl⟩ := hmem
    have ht := (List.getElem?_eq_some_iff.mp hms).1
    have hms := List.mem_of_getElem? hms
    simp only [List.mem_cons, List.not_mem_nil, or_false, or_self] at hms
    subst hms
    exact ⟨rfl, by simpa using hv, ht⟩
  · rintro ⟨rfl, rfl, ht⟩
    refine ⟨_, List.mem_cons_self, ["y"], ?_, by simp⟩
    obtain rfl | rfl : t = 0 ∨ t = 1 := by omega
    · rfl
    · rfl

theorem mixModel_clean (k : ℕ) : CleanAnchoring (mixModel k) where
  latent := by
    intro f o h
    obtain ⟨rfl, rfl⟩ := (mixModel_anchoredIn k f o).mp h
    exact ⟨_, List.mem_cons_self⟩
  notMeasured := by
    intro v f t g h h'
    rw [((mixModel_anchors k v f).mp h).2] at h'
    have := ((mixModel_measures k t _ g).mp h').2.1
    simp at this
  distinct := by
    intro v f g h h'
    rw [((mixModel_anchors k v f).mp h).1, ((mixModel_anchors k v g).mp h').1]

theorem mixModel_order (k : ℕ) : SameOrder (mixModel k) := by
  rintro a os ⟨⟩ ⟨⟩
  rfl

theorem mixModel_clash (k : ℕ) : NoNameClash (mixModel k) := by
  intro f o g p h h'
  obtain ⟨rfl, rfl⟩ := (mixModel_anchoredIn k f o).mp h
  obtain ⟨rfl, rfl⟩ := (mixModel_anchoredIn k g p).mp h'
  decide

theorem mixModel_linear {k : ℕ} (hk : k = 1 ∨ k = 2) : LinearModel (mixModel k) k where
  anchoring := ⟨mixModel_clean k, mixModel_order k, mixModel_clash k⟩
  periods := (mixModel_period hk 1).mpr (by norm_num)
  measured := fun t ht => ⟨"y", "a", (mixModel_measures k t _ _).mpr ⟨rfl, rfl, (mixModel_period hk t).mp ht⟩⟩
  transitions := by
    intro f spec hmem
    simp only [mixModel, List.mem_singleton, Prod.mk.injEq] at hmem
    exact Or.inl (by rw [hmem.2])
  mixture := ⟨_, rfl, Or.inl rfl⟩
  single := Or.inr rfl

/-- The start values of the two mixture elements are 0 and 2. -/
noncomputable def mixValues (k : ℕ) (l : Loc) : ℝ :=
  if l.cat = .mixtureWeights then 1 / k
  else if l.cat = .initialStates then (if l.name1 = "mixture_1" then 2 else 0)
  else if l.cat = .controls then 0
  else if l.cat = .transition ∧ l.name2 = "constant" then 0
  else 1

/-- Two individuals. The measurements are all missing or all observed; `x` is the outcome of the first individual in the first period. -/
noncomputable def mixRow (b : Bool) (x : ℝ) (id period : Int) : LongRow ℝ where
  id := id
  period := period
  cell c := if c = "y" then (if b then some (id + period) else none) else if id = 1 ∧ period = 10 then some x else some (id + period)

noncomputable def mixData (b : Bool) (x : ℝ) : LongData ℝ where
  columns := ["y", "q"]
  idLevel := [1, 2]
  periodLevel := [10, 20]
  rows := [mixRow b x 1 10, mixRow b x 1 20, mixRow b x 2 10, mixRow b x 2 20]

theorem mixData_index (b : Bool) (x : ℝ) : IndexOk (mixData b x) ∧ NoUnusedPeriods (mixData b x) ∧ UniqueKeys (mixData b x) := by
  refine ⟨⟨by simp [mixData], by simp [mixData], ?_, ?_⟩, ?_, ?_⟩
  · intro r hr
    simp only [mixData, List.mem_cons, List.not_mem_nil, or_false] at hr ⊢
    rcases hr with rfl | rfl | rfl | rfl <;> simp [mixRow]
  · intro r hr
    simp only [mixData, List.mem_cons, List.not_mem_nil, or_false] at hr ⊢
    rcases hr with rfl | rfl | rfl | rfl <;> simp [mixRow]
  · intro p hp
    simp only [mixData, List.mem_cons, List.not_mem_nil, or_false] at hp ⊢
    rcases hp with rfl | rfl
    · exact ⟨mixRow b x 1 10, by simp, rfl⟩
    · exact ⟨mixRow b x 1 20, by simp, rfl⟩
  · unfold UniqueKeys mixData mixRow
    simp

theorem mixData_ids (b : Bool) (x : ℝ) : IdsOf (mixData b x) [1, 2] ∧ PeriodsOf (mixData b x) [10, 20] := by
  refine ⟨⟨by decide, fun z => ?_⟩, ⟨by decide, fun z => ?_⟩⟩
  · simp only [mixData, mixRow, List.mem_cons, List.not_mem_nil, or_false, exists_eq_or_imp, exists_eq_left]
    constructor <;> intro h <;> omega
  · simp only [mixData, mixRow, List.mem_cons, List.not_mem_nil, or_false, exists_eq_or_imp, exists_eq_left]
    constructor <;> intro h <;> omega

theorem mixData_row (b : Bool) (x : ℝ) {i t : ℕ} (hi : i < 2) (ht : t < 2) : RowOf (mixData b x) [1, 2] [10, 20] i t (some (mixRow b x (i + 1) (10 * (t + 1)))) := by
  obtain rfl | rfl : t = 0 ∨ t = 1 := by omega
  all_goals
    obtain rfl | rfl : i = 0 ∨ i = 1 := by omega
    all_goals exact ⟨by simp [mixData], rfl, rfl⟩

theorem mixData_unique (b : Bool) (x : ℝ) {i t : ℕ} (hi : i < 2) (ht : t < 2) {r : Option (LongRow ℝ)} (hr : RowOf (mixData b x) [1, 2] [10, 20] i t r) : r = some (mixRow b x (i + 1) (10 * (t + 1))) := by
  have h0 := mixData_row b x hi ht
  cases r with
  | none => exact absurd h0.2 (hr.2 _ h0.1)
  | some r =>
    obtain ⟨h1, h2, h3⟩ := hr
    have e2 := h2.symm.trans h0.2.1
    have e3 := h3.symm.trans h0.2.2
    simp only [Option.some.injEq] at e2 e3 ⊢
    simp only [mixData, List.mem_cons, List.not_mem_nil, or_false] at h1
    rcases h1 with rfl | rfl | rfl | rfl <;> simp only [mixRow] at e2 e3 <;> rw [← e2, ← e3]

/-- The column that contains the values of a variable. -/
def mixColumn (c : String) : String := if c = "q_a" then "q" else c

theorem mixModel_value {k : ℕ} {r : Option (LongRow ℝ)} {c : String} {v : Option ℝ} : ValueIs (mixModel k) r c v ↔ v = baseValue r (mixColumn c) := by
  unfold mixColumn
  constructor
  · rintro (⟨f, o, h, rfl, rfl⟩ | ⟨h, rfl⟩)
    · obtain ⟨rfl, rfl⟩ := (mixModel_anchoredIn k f o).mp h
      rfl
    · rw [if_neg (fun hc => h ⟨"a", (mixModel_anchors k _ _).mpr ⟨rfl, hc⟩⟩)]
  · intro h
    split_ifs at h with hc
    · subst hc
      exact Or.inl ⟨"a", "q", (mixModel_anchoredIn k _ _).mpr ⟨rfl, rfl⟩, rfl, h⟩
    · exact Or.inr ⟨fun ⟨f, hf⟩ => hc ((mixModel_anchors k _ _).mp hf).2, h⟩

theorem mixModel_update {k : ℕ} {t : ℕ} {v : String} (hv : IsUpdate (mixModel k) t v) : v = "y" ∨ v = "q_a" := by
  rcases hv with ⟨f, h⟩ | ⟨_, f, h⟩
  · exact Or.inl ((mixModel_measures k t v f).mp h).2.1
  · exact Or.inr ((mixModel_anchors k v f).mp h).2

theorem mixData_ok {k : ℕ} (hk : k = 1 ∨ k = 2) (b : Bool) {x : ℝ} (hx : x ≠ 12) : DataOk (mixModel k) (mixData b x) [1, 2] [10, 20] where
  keys := (mixData_index b x).2.2
  outcomes := by
    intro f o h
    obtain ⟨rfl, rfl⟩ := (mixModel_anchoredIn k f o).mp h
    exact Or.inl (by simp [mixData])
  controls := by
    intro t ht c hc
    have ht := (mixModel_period hk t).mp ht
    simp only [mixModel, Option.getD_none, List.mem_singleton] at hc
    subst hc
    exact ⟨Or.inr (Or.inl rfl), 0, 1, by norm_num, _, mixData_row b x (by norm_num) ht, mixModel_value.mpr rfl⟩
  measurements := by
    intro t v hv
    have ht := (mixModel_period hk t).mp (isUpdate_period hv)
    have h0 := mixData_row b x (i := 0) (by norm_num) ht
    have h1 := mixData_row b x (i := 1) (by norm_num) ht
    obtain rfl | rfl := mixModel_update hv
    · refine ⟨Or.inl (by simp [mixData]), ?_⟩
      rintro ⟨y, hy⟩
      cases b with
      | false =>
        obtain ⟨i, hi, r, hr, hv⟩ := (hy y).mpr rfl
        rw [mixModel_value, mixData_unique _ _ hi ht hr] at hv
        simp [baseValue, mixRow, mixColumn] at hv
      | true =>
        have e0 := (hy (1 + 10 * (t + 1))).mp ⟨0, by norm_num, _, h0, mixModel_value.mpr (by simp [baseValue, mixRow, mixColumn])⟩
        have e1 := (hy (2 + 10 * (t + 1))).mp ⟨1, by norm_num, _, h1, mixModel_value.mpr (by simp [baseValue, mixRow, mixColumn])⟩
        rw [← e1] at e0
        norm_num at e0
    · refine ⟨Or.inr (Or.inr ⟨"a", (mixModel_anchors k _ _).mpr ⟨rfl, rfl⟩⟩), ?_⟩
      rintro ⟨y, hy⟩
      have e1 := (hy (2 + 10 * (t + 1))).mp ⟨1, by norm_num, _, h1, mixModel_value.mpr (by simp [baseValue, mixRow, mixColumn])⟩
      obtain rfl | rfl : t = 0 ∨ t = 1 := by omega
      · have e0 := (hy x).mp ⟨0, by norm_num, _, h0, mixModel_value.mpr (by simp [baseValue, mixRow, mixColumn])⟩
        rw [← e1] at e0
        norm_num at e0
        exact hx e0
      · have e0 := (hy 21).mp ⟨0, by norm_num, _, h0, mixModel_value.mpr (by simp [baseValue, mixRow, mixColumn]; norm_num)⟩
        rw [← e1] at e0
        norm_num at e0
  observed := by
    intro t ht f hf
    simp [mixModel] at hf

/-- Both datasets are the same except for the outcome of the first individual. -/
theorem mixData_same {k : ℕ} (hk : k = 1 ∨ k = 2) (b : Bool) (x x' : ℝ) : SameUpToOutcomes (mixModel k) (mixData b x) (mixData b x') [1, 2] [10, 20] := by
  intro i t r r' hi ht hr hr'
  have ht := (mixModel_period hk t).mp ht
  rw [mixData_unique b x hi ht hr, mixData_unique b x' hi ht hr']
  refine ⟨fun c hc v => ?_, ?_⟩
  · rw [mixModel_value, mixModel_value]
    rcases hc with ⟨s, f, hc⟩ | hc | hc
    · obtain ⟨_, rfl, _⟩ := (mixModel_measures k s c f).mp hc
      simp [baseValue, mixRow, mixColumn]
    · simp only [mixModel, Option.getD_none, List.mem_singleton] at hc
      subst hc
      simp [baseValue, mixColumn]
    · simp [mixModel] at hc
  · rintro ⟨c, hc, hv⟩
    simp only [mixModel, Option.getD_none, List.mem_singleton] at hc
    subst hc
    rw [mixModel_value] at hv
    simp [baseValue, mixColumn] at hv

theorem mixModel_usable (k : ℕ) (custom : String → CustomFn) (v : String × FactorSpec ℝ → String → ℝ) :
    ∀ fs ∈ (mixModel k).factors, TransFn.Usable (allFactors (mixModel k)) (v fs) (transFnOf (custom fs.1) fs.2.transition) := by
  intro fs hmem
  simp only [mixModel, List.mem_singleton] at hmem
  subst hmem
  exact ⟨rfl, fun h => by simp at h⟩

theorem mixModel_safe (k : ℕ) (f : String) (h : IsLatent (mixModel k) f) : querySafe f ∧ f ≠ "period" ∧ f ≠ "id" := by
  obtain ⟨spec, hmem⟩ := h
  simp only [mixModel, List.mem_singleton, Prod.mk.injEq] at hmem
  obtain ⟨rfl, rfl⟩ := hmem
  decide

/-- get_filtered_states returns a result. -/
theorem mixModel_filtered {k : ℕ} (hk : k = 1 ∨ k = 2) (b : Bool) {x : ℝ} (hx : x ≠ 12) (qr : QR) (custom : String → CustomFn) (nan : ℝ) {pm : Processed ℝ} (hpm : processModel (mixModel k) = .ok pm) :
    ∃ out, getFilteredStates qr custom nan (mixModel k) (mixData b x) (pm.paramsIndex.map (fun l => (l, mixValues k l))) = .ok out := by
  have hfst : (pm.paramsIndex.map (fun l => (l, mixValues k l))).map Prod.fst = pm.paramsIndex := by
    rw [List.map_map]
    exact List.map_id _
  have hk0 : k ≠ 0 := by omega
  obtain ⟨out, hout, _⟩ := C86_get_filtered_states qr hpm (mixModel_names k) (mixModel_clean k) (mixModel_order k) (mixModel_clash k) (fun f hf => (mixModel_safe k f hf).1) (fun f hf => (mixModel_safe k f hf).2)
    (mixModel_linear hk).periods (fun t ht => by
      obtain ⟨v, f, h⟩ := (mixModel_linear hk).measured t ht
      exact ⟨v, f, h, fun ⟨g, hg⟩ => (mixModel_clean k).notMeasured v g t f hg h⟩)
    (mixModel_linear hk).mixture (Or.inr ⟨hk0, rfl⟩) (mixData_index b x).1 (mixData_index b x).2.1 (mixData_ids b x).1 (mixData_ids b x).2 (mixData_ok hk b hx) custom nan
    (params := pm.paramsIndex.map (fun l => (l, mixValues k l))) (val := mixValues k) (by rw [hfst]; exact C06_index_unique_partial hpm (mixModel_names k)) (fun l hl => by rw [hfst]; exact (mem_paramsIndex_iff hpm l).mpr hl)
    (fun l x h => by
      obtain ⟨l', _, h⟩ := List.mem_map.mp h
      rw [Prod.mk.injEq] at h
      rw [← h.1, ← h.2]) (mixModel_usable k custom _)
  exact ⟨out, hout⟩

/-- C88 applies to the example: with one mixture element the outcome of the first individual does not matter. -/
theorem mixModel_same (custom : String → CustomFn) (nan : ℝ) : ∃ (qr : QR) (params : List (Loc × ℝ)) (out : FilteredStates), ValidQR qr ∧ getFilteredStates qr custom nan (mixModel 1) (mixData true 0) params = .ok out ∧
    getFilteredStates qr custom nan (mixModel 1) (mixData true 1) params = .ok out := by
  obtain ⟨qr, hqr⟩ := validQR
  obtain ⟨pm, hpm, _⟩ := mixModel_ok (Or.inl rfl)
  obtain ⟨out, hout⟩ := mixModel_filtered (Or.inl rfl) true (x := 0) (by norm_num) qr custom nan hpm
  obtain ⟨out', hout'⟩ := mixModel_filtered (Or.inl rfl) true (x := 1) (by norm_num) qr custom nan hpm
  have h := (C88_outcomes_partial hpm (mixModel_names 1) (mixModel_clean 1) (mixModel_order 1) (mixModel_clash 1) (mixModel_linear (Or.inl rfl)).periods (mixModel_linear (Or.inl rfl)).mixture
    (mixData_index true 0).1 (mixData_index true 0).2.1 (mixData_index true 1).1 (mixData_index true 1).2.1 (mixData_ids true 0).1 (mixData_ids true 0).2 (mixData_ids true 1).1 (mixData_ids true 1).2
    (mixData_same (Or.inl rfl) true 0 1) qr custom nan (params := pm.paramsIndex.map (fun l => (l, mixValues 1 l))) (by
      rw [List.map_map]
      exact (List.map_id pm.paramsIndex).symm ▸ C06_index_unique_partial hpm (mixModel_names 1))).1 out out' hout hout'
  exact ⟨qr, _, out, hqr, hout, h ▸ hout'⟩

/-- The third update of a filter whose first and third measurements are missing and whose second update is an anchoring update. -/
theorem outs_third {nObs nMix n nT nObserved nC : ℕ} {θ : Type} {qr : QR} (hqr : ValidQR qr) {fixed : ScanFixed nObs nT n nObserved nC θ} {kappa : ℝ} (hk : SigmaOptions fixed kappa) (hlin : AffineTransitions fixed)
    (h : nMix = 1 ∨ nObserved = 0) {c : Carry nObs nMix n} (hw : WeightsOk c.logWeights) {a₀ a₁ a₂ : LoopArgs nObs n nC} {as : List (LoopArgs nObs n nC)} (h₀ : a₀.measurements = fun _ => none) (hm₀ : a₀.isMeasurement = true)
    (hp₀ : a₀.isPredict = false) (hm₁ : a₁.isMeasurement = false) (hp₁ : a₁.isPredict = true) (hsd : a₁.measSd ≠ 0) (h₂ : a₂.measurements = fun _ => none) (hm₂ : a₂.isMeasurement = true)
    {o : StepOut nObs nMix n} (ho : (outs qr fixed c (a₀ :: a₁ :: a₂ :: as))[2]? = some o) (i : Fin nObs) (e : Fin nMix) :
    o.states i e = unanchoredTransition fixed i a₁.period (c.states i e) ∧ o.logWeights i e = ((c.belief i).update (a₁.measurement fixed i)).logWeight e := by
  have first : step qr fixed c a₀ = c := by
    obtain ⟨e1, e2⟩ := scanUpdate_eq qr fixed c a₀
    rw [h₀] at e1
    obtain ⟨k1, k2, k3, _⟩ := kalmanUpdate_missing qr c a₀.loadings a₀.controlParams a₀.measSd (fixed.controls (jaxIndex (nT + 1) a₀.period))
    unfold step
    rw [hp₀, if_neg (by simp), e2, hm₀, if_pos rfl, e1, k1, k2, k3]
  simp only [outs, List.getElem?_cons_succ, List.getElem?_cons_zero, Option.some.injEq, first] at ho
  obtain ⟨hb, _⟩ := scanUpdate_refines hqr fixed hw hsd i
  set c₁ := (scanUpdate qr fixed c a₁).1 with hc₁
  have s₁ : c₁.states = c.states ∧ c₁.logWeights i e = ((c.belief i).update (a₁.measurement fixed i)).logWeight e := by
    rw [← hb, hc₁, (scanUpdate_eq qr fixed c a₁).2, hm₁]
    exact ⟨rfl, rfl⟩
  have second : step qr fixed c a₁ = predictCarry qr fixed c₁ a₁.period := by
    unfold step
    rw [hp₁, if_pos rfl]
  rw [second] at ho
  obtain ⟨e1, e2⟩ := scanUpdate_eq qr fixed (predictCarry qr fixed c₁ a₁.period) a₂
  rw [h₂] at e1
  obtain ⟨k1, _, k3, _⟩ := kalmanUpdate_missing qr (predictCarry qr fixed c₁ a₁.period) a₂.loadings a₂.controlParams a₂.measSd (fixed.controls (jaxIndex (nT + 1) a₂.period))
  have o1 : o.states = (predictCarry qr fixed c₁ a₁.period).states := by
    rw [← ho]
    show (scanUpdate qr fixed (predictCarry qr fixed c₁ a₁.period) a₂).1.states = _
    rw [e2, hm₂, if_pos rfl, e1, k1]
  have o2 : o.logWeights = c₁.logWeights := by
    rw [← ho]
    show (scanUpdate qr fixed (predictCarry qr fixed c₁ a₁.period) a₂).2.logWeights = _
    rw [e1, k3]
    rfl
  rw [o1, o2, (predict_affine hqr hk hlin h c₁ a₁.period i e).1, s₁.1]
  exact ⟨rfl, s₁.2⟩

/-- The rows of update_info. -/
def mixUpdates : List URow := [⟨0, "y", ["a"], .measurement⟩, ⟨0, "q_a", ["a"], .anchoring⟩, ⟨1, "y", ["a"], .measurement⟩, ⟨1, "q_a", ["a"], .anchoring⟩]

theorem mixModel_updates : ∃ pm, processModel (mixModel 2) = .ok pm ∧ pm.dimensions.nPeriods = 2 ∧ pm.dimensions.nMixtures = 2 ∧ pm.updateInfo = mixUpdates := by
  have h : (processModel (mixModel 2) >>= fun pm => pure (pm.dimensions.nPeriods, pm.dimensions.nMixtures, pm.updateInfo)) = (.ok (2, 2, mixUpdates) : Py _) := by decide +kernel
  obtain ⟨pm, hpm, h⟩ := py_bind_ok.mp h
  rw [py_pure_ok, Prod.mk.injEq, Prod.mk.injEq] at h
  exact ⟨pm, hpm, h.1, h.2.1, h.2.2⟩

theorem mixModel_next (cov : Covariates) (s : String → ℝ) : nextState (mixModel 2) (mixValues 2) cov 0 s "a" = s "a" := by
  have hscale : ∀ t, anchorScale (mixModel 2) (mixValues 2) t "a" = 1 ∧ anchorConstant (mixModel 2) (mixValues 2) t "a" = 0 := by
    intro t
    obtain ⟨a1, _, a3⟩ := anchor_some (mixModel_names 2).keys ((mixModel_anchoredIn 2 "a" "q").mpr ⟨rfl, rfl⟩) (mixValues 2) t
    rw [a1, a3 (by rintro ⟨a, ⟨⟩, h⟩; cases h)]
    simp [mixValues]
  have hnc : ¬HasTransition (mixModel 2) "a" "constant" := by
    rintro ⟨spec, hmem, h⟩
    simp only [mixModel, List.mem_singleton, Prod.mk.injEq] at hmem
    rw [hmem.2] at h
    simp at h
  have hall : allFactors (mixModel 2) = ["a"] := rfl
  have hlat : latents (mixModel 2) = ["a"] := rfl
  unfold nextState nextAnchored anchoredValue
  rw [if_neg hnc, hall, hlat, (hscale _).1, (hscale _).2]
  simp [linearValue, linearTerms, mixValues, hscale]

theorem mixModel_state {qr : QR} (hqr : ValidQR qr) (custom : String → CustomFn) (nan : ℝ) {pm : Processed ℝ} (hpm : processModel (mixModel 2) = .ok pm) (x : ℝ) {out : FilteredStates}
    (hout : getFilteredStates qr custom nan (mixModel 2) (mixData false x) (pm.paramsIndex.map (fun l => (l, mixValues 2 l))) = .ok out) :
    ∃ cells, out.unanchored.states.rows[2]? = some (1, cells) ∧ cells "id" = 0 ∧ cells "a" = 2 * normalDensity 2 (x - 2) / (normalDensity 2 x + normalDensity 2 (x - 2)) := by
  obtain ⟨pm', hpm', hT, hK, hU⟩ := mixModel_updates
  obtain rfl := Except.ok.inj (hpm.symm.trans hpm')
  have hm := mixModel_linear (k := 2) (Or.inr rfl)
  have hg := mixModel_names 2
  unfold getFilteredStates at hout
  simp only [py_bind_ok, py_pure_ok] at hout
  obtain ⟨inputs, hin, params', hloc, debug, hdebug, pm', hpm', anchored, hanchored, rfl⟩ := hout
  obtain rfl := Except.ok.inj (hpm.symm.trans hpm')
  have hin' := hin
  unfold getMaximizationInputs at hin'
  simp only [py_bind_ok, py_pure_ok] at hin'
  obtain ⟨pm', hpm', info, hinfo, dat, hdat, cs, hcs, hinp⟩ := hin'
  obtain rfl := Except.ok.inj (hpm.symm.trans hpm')
  obtain ⟨hl1, hl2⟩ := locParams_ok (by
    rw [List.map_map]
    exact (List.map_id pm.paramsIndex).symm ▸ C06_index_unique_partial hpm hg) hloc
  have hn' : (params'.map Prod.fst).Nodup := by
    have : params'.map Prod.fst = pm.paramsIndex := by
      rw [hl1, ← hinp]
      simp [Processed.paramsTemplate, addBounds, Function.comp_def]
    rw [this]
    exact C06_index_unique_partial hpm hg
  have hval' : ∀ l x, (l, x) ∈ params' → x = mixValues 2 l := by
    intro l x h
    obtain ⟨l', _, h⟩ := List.mem_map.mp (hl2 _ h)
    rw [Prod.mk.injEq] at h
    rw [← h.1, ← h.2]
  obtain ⟨hi, hu, _⟩ := mixData_index false x
  obtain ⟨hids, hpers⟩ := mixData_ids false x
  have hObs := length_of_controls hpm hm.periods (mixModel_clash 2) hg hi hu hids hpers hin
  obtain ⟨pm', nT, con, obs, data, r, hpm', hT', hdata, hcon, hobs, hmeas, hr, hpost⟩ := evaluate_explicit hg (mixModel_clean 2) (mixModel_order 2) hin hn' hval' hdebug hObs
  obtain rfl := Except.ok.inj (hpm.symm.trans hpm')
  obtain rfl : nT = 0 := by omega
  rw [← hinp] at hpost
  dsimp only at hpost
  obtain ⟨rows, hrows, hframe, hrange⟩ := processDebugData_ok hpost
  obtain ⟨ho, _⟩ := logLikelihood_ok hr
  have hlenargs : r.outs.length = pm.updateInfo.length := by rw [ho, outs_length, loopArgs_length _ _ (by simp), List.length_map]
  have hU4 : pm.updateInfo.length = 4 := by rw [hU]; rfl
  obtain ⟨rows', hrows', _, _, hcell⟩ := C51_filtered_states_partial hpm (fun t ht => by
    obtain ⟨v, f, h⟩ := hm.measured t ht
    exact ⟨v, f, h, fun ⟨g, hg⟩ => hm.anchoring.1.notMeasured v g t f hg h⟩) hlenargs
  obtain rfl := Except.ok.inj (hrows.symm.trans hrows')
  -- the data
  obtain ⟨meas, hm1, _, _, _, harr⟩ := C27_data_arrays hpm hg.keys (mixModel_clash 2) hi hu hids hpers hdata
  rw [hm1, Option.getD_some] at hmeas
  have hD : ∀ (j : ℕ) (hj : j < pm.updateInfo.length) (i : Fin [(1 : Int), 2].length), pm.updateInfo[j].period < 2 → data ⟨j, hj⟩ i = baseValue (some (mixRow false x (i + 1) (10 * (pm.updateInfo[j].period + 1)))) (mixColumn pm.updateInfo[j].var) := by
    intro j hj i hp
    have hrow := mixData_row false x i.isLt hp
    obtain ⟨w, hw, hkept⟩ := (harr i _ _ i.isLt ((mixModel_period (Or.inr rfl) _).mpr hp) hrow).1 j _ _ (List.getElem?_eq_getElem hj) rfl (mixModel_value.mpr rfl)
    have hw' := Option.some.inj ((hmeas ⟨j, hj⟩ i).symm.trans hw)
    rw [hw']
    rcases hkept with ⟨⟨⟨c, hc, hv⟩, _⟩, _⟩ | ⟨_, h0⟩
    · simp only [mixModel, Option.getD_none, List.mem_singleton] at hc
      subst hc
      rw [mixModel_value] at hv
      simp [baseValue, mixColumn] at hv
    · exact h0
  -- the first three updates
  have hL := loopArgs_length (nObs := [(1 : Int), 2].length) (0 + 1) (pm.updateInfo.map (labelRow (mixModel 2) (mixValues 2))) (data := List.ofFn data) (by simp)
  have hget := fun (j : ℕ) (hj : j < pm.updateInfo.length) =>
    loopArgs_get (0 + 1) (rows := pm.updateInfo.map (labelRow (mixModel 2) (mixValues 2))) (r := labelRow (mixModel 2) (mixValues 2) pm.updateInfo[j]) (by rw [List.getElem?_map, List.getElem?_eq_getElem hj]; rfl)
      (data := List.ofFn data) (y := data ⟨j, hj⟩) (by rw [List.getElem?_ofFn, dif_pos hj])
  have hrow : ∀ (j : ℕ) (u : URow), mixUpdates[j]? = some u → ∃ hj : j < pm.updateInfo.length, pm.updateInfo[j] = u := by
    intro j u h
    rw [← hU] at h
    exact List.getElem?_eq_some_iff.mp h
  obtain ⟨j0, e0⟩ := hrow 0 _ rfl
  obtain ⟨j1, e1⟩ := hrow 1 _ rfl
  obtain ⟨j2, e2⟩ := hrow 2 _ rfl
  obtain ⟨j3, e3⟩ := hrow 3 _ rfl
  have g0 := hget 0 j0
  have g1 := hget 1 j1
  have g2 := hget 2 j2
  have d0 : data ⟨0, j0⟩ = fun _ => none := by
    funext i
    rw [hD 0 j0 i (by rw [e0]; norm_num), e0]
    simp [baseValue, mixRow, mixColumn]
  have d2 : data ⟨2, j2⟩ = fun _ => none := by
    funext i
    rw [hD 2 j2 i (by rw [e2]; norm_num), e2]
    simp [baseValue, mixRow, mixColumn]
  have d1 : data ⟨1, j1⟩ 0 = some x := by
    rw [hD 1 j1 0 (by rw [e1]; norm_num), e1]
    simp [baseValue, mixRow, mixColumn]
  have nx : ∀ (j : ℕ) (u : URow), mixUpdates[j]? = some u → ((pm.updateInfo.map (labelRow (mixModel 2) (mixValues 2)))[j]?).map (fun r => r.period) = some u.period := by
    intro j u h
    rw [List.getElem?_map, hU, h]
    rfl
  rw [e0, d0, nx (0 + 1) _ rfl] at g0
  rw [e1, nx (1 + 1) _ rfl] at g1
  rw [e2, d2, nx (2 + 1) _ rfl] at g2
  generalize hargs : loopArgs (0 + 1) (pm.updateInfo.map (labelRow (mixModel 2) (mixValues 2))) (List.ofFn data) = args at hL g0 g1 g2 ho
  rw [List.length_map, hU4] at hL
  obtain ⟨a₀, a₁, a₂, a₃, rfl⟩ : ∃ a b c d, args = [a, b, c, d] := by
    match args, hL with
    | [a, b, c, d], _ => exact ⟨a, b, c, d, rfl⟩
  simp only [List.getElem?_cons_succ, List.getElem?_cons_zero, Option.some.injEq] at g0 g1 g2
  have hlt : 2 < r.outs.length := by rw [hlenargs, hU4]; norm_num
  have h2 := List.getElem?_eq_getElem hlt
  have hlast : LastMeasurement pm.updateInfo 1 2 := by
    rw [hU]
    refine ⟨_, rfl, rfl, rfl, ?_⟩
    intro k' r' hk' _ hp
    have : k' < 4 := (List.getElem?_eq_some_iff.mp hk').1
    by_contra hlt
    obtain rfl : k' = 3 := by omega
    have : r' = ⟨1, "q_a", ["a"], .anchoring⟩ := (Option.some.inj hk').symm
    rw [this] at hp
    cases hp
  have hw : WeightsOk (labelCarry (mixModel 2) (mixValues 2) [(1 : Int), 2].length pm.dimensions.nMixtures).logWeights := by
    intro i
    rw [hK]
    simp [labelCarry, mixValues, Real.exp_neg, Real.exp_log]
  have third := fun e => outs_third (a₀ := a₀) (a₁ := a₁) (a₂ := a₂) hqr (sigma_label hpm (by rintro o x ⟨⟩ ⟨⟩) custom (mixValues 2) _ 0 con obs) (affine_label hm hpm hg custom (mixValues 2) _ 0 con obs) (Or.inr rfl) hw
    (by rw [g0]) (by rw [g0]; rfl) (by rw [g0]; rfl) (by rw [g1]; rfl) (by rw [g1]; rfl) (by rw [g1]; simp [labelRow, mixValues]) (by rw [g2]) (by rw [g2]; rfl) (o := r.outs[2]) (by rw [← ho]; exact h2) 0 e
  have hp1 : a₁.period = ((0 : ℕ) : Int) := by rw [g1]; rfl
  have hname : ∀ f : Fin (nLat (mixModel 2)), latName (mixModel 2) f = "a" := by
    intro f
    obtain rfl : f = (0 : Fin 1) := Subsingleton.elim (α := Fin 1) _ _
    rfl
  let μ : ℕ → ℝ := fun e => if e = 1 then 2 else 0
  have hstart : ∀ (e : Fin pm.dimensions.nMixtures) (f : Fin (nLat (mixModel 2))), (labelCarry (mixModel 2) (mixValues 2) [(1 : Int), 2].length pm.dimensions.nMixtures).states 0 e f = μ e := by
    intro e f
    have he : e.val = 0 ∨ e.val = 1 := by have := e.isLt; omega
    show mixValues 2 ⟨.initialStates, 0, mixtureName e, latName (mixModel 2) f⟩ = μ e
    rcases he with he | he
    · rw [he]
      simp [mixValues, μ, show mixtureName 0 ≠ "mixture_1" by decide]
    · rw [he]
      simp [mixValues, μ, show mixtureName 1 = "mixture_1" by decide]
  let cov : Covariates := ⟨fun _ _ => true, fun _ _ => 0, fun _ _ => 0⟩
  have hstate : ∀ (e : Fin pm.dimensions.nMixtures) (f : Fin (nLat (mixModel 2))), r.outs[2].states 0 e f = μ e := by
    intro e f
    rw [(third e).1, hp1]
    have hcov : unanchoredTransition (labelFixed custom (mixModel 2) pm (mixValues 2) [(1 : Int), 2].length 0 con obs) 0 ((0 : ℕ) : Int) = unanchoredTransition (covFixed custom (mixModel 2) pm (mixValues 2) 0 cov) 0 ((0 : ℕ) : Int) := by
      funext z f
      unfold unanchoredTransition covFixed labelFixed
      dsimp only
      have : obs (jaxIndex (0 + 1) ((0 : ℕ) : Int)) 0 = fun j : Fin (nObsd (mixModel 2)) => cov.factor (jaxIndex (0 + 1) ((0 : ℕ) : Int)) (obsName (mixModel 2) j) := funext (fun j => (Nat.not_lt_zero _ j.isLt).elim)
      rw [this]
    rw [hcov, unanchored_label hm hpm hg custom (mixValues 2) cov le_rfl (s := fun _ => μ e) (fun f => (hstart e f).symm), hname, mixModel_next]
  have hweight : ∀ e : Fin pm.dimensions.nMixtures, Real.exp (r.outs[2].logWeights 0 e) = normalDensity 2 (x - μ e) / (normalDensity 2 x + normalDensity 2 (x - 2)) := by
    intro e
    rw [(third e).2]
    set b := (labelCarry (mixModel 2) (mixValues 2) [(1 : Int), 2].length pm.dimensions.nMixtures).belief 0 with hb
    generalize hM : a₁.measurement (labelFixed custom (mixModel 2) pm (mixValues 2) [(1 : Int), 2].length 0 con obs) 0 = M
    have hy : M.y = some x := by
      rw [← hM]
      show a₁.measurements 0 = _
      rw [g1]
      exact d1
    have hh : M.h = fun _ => 1 := by
      rw [← hM]
      show a₁.loadings = _
      rw [g1]
      funext f
      show (if latName (mixModel 2) f ∈ ["a"] then mixValues 2 ⟨.loadings, 0, "q_a", latName (mixModel 2) f⟩ else 0) = 1
      rw [hname]
      simp [mixValues]
    have hc : M.c = 0 := by
      rw [← hM]
      show _ ⬝ᵥ a₁.controlParams = _
      have : a₁.controlParams = 0 := by
        rw [g1]
        funext f
        simp [labelRow, mixValues]
      rw [this, dotProduct_zero]
    have hsd : M.sd = 1 := by
      rw [← hM]
      show a₁.measSd = _
      rw [g1]
      simp [labelRow, mixValues]
    have hcov : ∀ e, residualVariance (b.cov e) M.h M.sd = 2 := by
      intro e
      rw [hh, hsd]
      have hU : (labelCarry (mixModel 2) (mixValues 2) [(1 : Int), 2].length pm.dimensions.nMixtures).upperChols 0 e = fun _ _ => 1 := by
        funext f g
        obtain rfl : f = g := Subsingleton.elim (α := Fin 1) _ _
        simp [labelCarry, mixValues]
      show residualVariance (((labelCarry (mixModel 2) (mixValues 2) [(1 : Int), 2].length pm.dimensions.nMixtures).upperChols 0 e)ᵀ * _) _ _ = _
      rw [hU]
      show residualVariance (n := 1) _ _ _ = _
      have hP : (id (fun _ _ => 1) : Matrix (Fin 1) (Fin 1) ℝ)ᵀ * (id (fun _ _ => 1) : Matrix (Fin 1) (Fin 1) ℝ) = fun _ _ => 1 := by
        funext f g
        rw [Matrix.mul_apply, Fin.sum_univ_one]
        exact mul_one 1
      have : ∀ h : Fin 1 → ℝ, residualVariance (fun _ _ => 1) h 1 = h 0 * h 0 + 1 := by
        intro h
        simp [residualVariance, dotProduct, mulVec]
      refine (congrArg (fun P => residualVariance (n := 1) P (fun _ => 1) 1) hP).trans ((this _).trans (by norm_num))
    have hres : ∀ e, b.residual M x e = x - μ e := by
      intro e
      unfold Belief.residual
      rw [hh, hc]
      have : b.mean e = fun _ => μ e := funext (fun f => hstart e f)
      rw [this]
      show x - ((fun _ : Fin 1 => μ e) ⬝ᵥ (fun _ => 1) + 0) = _
      simp [dotProduct]
    have hden : ∀ e, b.density M x e = normalDensity 2 (x - μ e) := fun e => by rw [Belief.density, hcov, hres]
    have hlw : ∀ e, Real.exp (b.logWeight e) = 1 / 2 := by
      intro e
      show Real.exp (Real.log (mixValues 2 ⟨.mixtureWeights, 0, _, "-"⟩)) = _
      rw [Real.exp_log] <;> simp [mixValues]
    have hpos : ∀ z, 0 < normalDensity 2 z := fun z => ProbabilityTheory.gaussianPDFReal_pos _ _ _ (by simp)
    have hlike : b.likelihood M x = 1 / 2 * (normalDensity 2 x + normalDensity 2 (x - 2)) := by
      unfold Belief.likelihood
      simp only [hlw, hden]
      rw [Finset.sum_fin_eq_sum_range, hK]
      simp [Finset.sum_range_succ, μ]
      ring
    have hw : ((b.update M).logWeight e) = Real.log (Real.exp (b.logWeight e) * b.density M x e / b.likelihood M x) := by
      simp only [Belief.update, hy]
    rw [hw, hlw, hden, hlike, mul_div_mul_left _ _ (by norm_num), Real.exp_log (div_pos (hpos _) (add_pos (hpos _) (hpos _)))]
  obtain ⟨cells, c1, c2, c3, c4⟩ := filteredFrame_row (factors := pm.labels.latentFactors) (hcell 1 2 _ 0 hlast h2)
  refine ⟨cells, by rw [hframe]; exact c1, by rw [c3]; simp, ?_⟩
  rw [c4 "a" (by decide) (by decide), (labels_of_ok hpm).1]
  have hidx : (List.map Prod.fst (mixModel 2).factors).idxOf "a" = 0 := rfl
  rw [hidx]
  show ∑ e, r.outs[2].states 0 e (0 : Fin 1) * Real.exp (r.outs[2].logWeights 0 e) = _
  rw [Finset.sum_congr rfl (fun e _ => congrArg₂ (· * ·) (hstate e (0 : Fin 1)) (hweight e))]
  rw [Finset.sum_fin_eq_sum_range]
  rw [hK]
  simp [Finset.sum_range_succ, μ]
  ring

/-- C88 fails for two mixture elements: the measurements of both individuals are missing in both datasets, which differ in the anchoring outcome of the first individual in the first period; the filtered states of this individual
in the second period differ. -/
theorem outcomes_matter (custom : String → CustomFn) (nan : ℝ) : ∃ (qr : QR) (params : List (Loc × ℝ)) (out out' : FilteredStates) (cells cells' : String → ℝ), ValidQR qr ∧
    SameUpToOutcomes (mixModel 2) (mixData false 0) (mixData false 1) [1, 2] [10, 20] ∧
    getFilteredStates qr custom nan (mixModel 2) (mixData false 0) params = .ok out ∧ getFilteredStates qr custom nan (mixModel 2) (mixData false 1) params = .ok out' ∧
    out.unanchored.states.rows[2]? = some (1, cells) ∧ out'.unanchored.states.rows[2]? = some (1, cells') ∧ cells "id" = 0 ∧ cells' "id" = 0 ∧ cells "a" ≠ cells' "a" := by
  obtain ⟨qr, hqr⟩ := validQR
  obtain ⟨pm, hpm, _⟩ := mixModel_ok (Or.inr rfl)
  obtain ⟨out, hout⟩ := mixModel_filtered (Or.inr rfl) false (x := 0) (by norm_num) qr custom nan hpm
  obtain ⟨out', hout'⟩ := mixModel_filtered (Or.inr rfl) false (x := 1) (by norm_num) qr custom nan hpm
  obtain ⟨cells, h1, h2, h3⟩ := mixModel_state hqr custom nan hpm 0 hout
  obtain ⟨cells', h1', h2', h3'⟩ := mixModel_state hqr custom nan hpm 1 hout'
  refine ⟨qr, _, out, out', cells, cells', hqr, mixData_same (Or.inr rfl) false 0 1, hout, hout', h1, h1', h2, h2', ?_⟩
  have hpos : ∀ z, 0 < normalDensity 2 z := fun z => ProbabilityTheory.gaussianPDFReal_pos _ _ _ (by simp)
  have hform : ∀ z, normalDensity 2 z = (√(2 * Real.pi * 2))⁻¹ * Real.exp (-z ^ 2 / 4) := by
    intro z
    unfold normalDensity ProbabilityTheory.gaussianPDFReal
    rw [show ((2 : ℝ).toNNReal : ℝ) = 2 from Real.coe_toNNReal _ (by norm_num), sub_zero]
    norm_num
  have hc : (√(2 * Real.pi * 2))⁻¹ ≠ 0 := by positivity
  have e1 : normalDensity 2 (1 - 2) = normalDensity 2 1 := by rw [hform, hform]; norm_num
  have e2 : normalDensity 2 (0 - 2) < normalDensity 2 0 := by
    rw [hform, hform]
    refine mul_lt_mul_of_pos_left (Real.exp_lt_exp.mpr (by norm_num)) (by positivity)
  rw [h3, h3', e1]
  have h4 : 2 * normalDensity 2 1 / (normalDensity 2 1 + normalDensity 2 1) = 1 := by
    rw [← two_mul]
    exact div_self (mul_pos two_pos (hpos 1)).ne'
  rw [h4]
  refine ne_of_lt ?_
  rw [div_lt_one (add_pos (hpos _) (hpos _))]
  linarith

end Ex
end Skill
