import Verif.Lemmas.CorrelationScores
/- Correlations of measurements and scores (correlation_heatmap.py). -/
namespace Skill
open Spec
variable {α : Type} [OfScientific α] [Neg α] [Zero α] [One α] [OfNat α 2] [DecidableEq α]

theorem CorrDataOk.updates {m : ModelDict α} {df : LongData ℝ} {latent observed : List String} {periods : List ℕ} (hd : CorrDataOk m df latent observed periods) {t : ℕ} (ht : t ∈ periods) : ∃ v, IsUpdate m t v := by
  obtain ⟨v, f, h⟩ := hd.measured t ht
  exact ⟨v, Or.inl ⟨f, h⟩⟩

theorem measurementDataSingle_ok {m : ModelDict α} {pm : Processed α} (hpm : processModel m = .ok pm) {df : LongData ℝ} {latent observed : List String} {periods : List ℕ} (hd : CorrDataOk m df latent observed periods)
    (ids : List Int) {t : ℕ} (ht : t ∈ periods) :
    measurementDataSingle (gridData df ids periods) pm.updateInfo latent observed t =
      .ok ((latent.flatMap (measurementNames pm.updateInfo t) ++ observed).map (fun c => (c, gridColumn df ids t c))) := by
  unfold measurementDataSingle
  rw [periodInfo_ok hpm (CorrDataOk.updates hd ht)]
  show Except.bind _ _ = _
  simp only [Except.bind]
  rw [mapM_pure_ok _ (measurementNames pm.updateInfo t) latent (fun f hf => factorMeasurements_ok _ t (hd.names f hf))]
  show List.mapM (namedColumn _ t) _ = _
  rw [mapM_pure_ok _ (fun c => (c, gridColumn df ids t c)), List.flatMap_def]
  intro c hc
  refine namedColumn_grid df ids hd.distinct ht ?_
  rcases List.mem_append.mp hc with hc | hc
  · obtain ⟨l, hl, hcl⟩ := List.mem_flatten.mp hc
    obtain ⟨f, hf, rfl⟩ := List.mem_map.mp hl
    exact hd.measurements t ht f hf c ((mem_measurementNames hpm t f c).mp hcl)
  · exact hd.observed c hc

theorem measurementTable {m : ModelDict α} {pm : Processed α} (hpm : processModel m = .ok pm) {df : LongData ℝ} (hi : IndexOk df) (hu : NoUnusedPeriods df) {ids pers : List Int} (hids : IdsOf df ids)
    (hp : PeriodsOf df pers) {factorsArg : FactorsArg} {periodsArg : PeriodsArg} {latent observed : List String} {periods : List ℕ} (hf : RequestedFactors m factorsArg latent observed)
    (hps : RequestedPeriods m periodsArg periods) (hd : CorrDataOk m df latent observed periods) :
    ∃ out, getMeasurementsCorr df m factorsArg periodsArg = .ok out ∧
      IsCorrelationTable ids.length (periods.flatMap (fun t => (latent.flatMap (measurementNames pm.updateInfo t) ++ observed).map (fun c => (c, t)))) (fun c => corrLabel (1 < periods.length) c.1 c.2)
        (fun i c w => CellIs df ids pers i c.2 c.1 w) out := by
  set items := periods.flatMap (fun t => (latent.flatMap (measurementNames pm.updateInfo t) ++ observed).map (fun c => (c, t))) with hitems
  have hrun : getMeasurementsCorr df m factorsArg periodsArg = .ok (corrOf (items.map (fun c => (corrLabel (1 < periods.length) c.1 c.2, gridColumn df ids c.2 c.1)))) := by
    unfold getMeasurementsCorr
    rw [hpm]
    show (preProcessData df (processPeriods pm.dimensions periodsArg) >>= _) = _
    rw [processPeriods_ok hpm hps, preProcess_eq periods hi hids hd.keys]
    show (processFactors pm.labels factorsArg >>= _) = _
    rw [processFactors_ok hpm hf]
    show (frameOfPeriods (measurementDataSingle (gridData df ids periods) pm.updateInfo latent observed) periods >>= _) = _
    have := frameOfPeriods_ok hd.some (fun t => (latent.flatMap (measurementNames pm.updateInfo t) ++ observed).map (fun c => (c, t))) Prod.fst (fun c => gridColumn df ids c.2 c.1)
      (fun t ht => (measurementDataSingle_ok hpm hd ids ht).trans (by rw [List.map_map]; rfl))
    rw [this]
    show Except.ok _ = Except.ok _
    congr 2
    rw [hitems, List.map_flatMap]
    refine List.flatMap_congr (fun t _ => ?_)
    rw [List.map_map, List.map_map]
    rfl
  refine ⟨_, hrun, isCorrelationTable ?_ ?_⟩
  · intro c _ i hi'
    exact ⟨_, (gridCell_cellIs hi hu hd.keys hids hp hi').mpr rfl⟩
  · intro c _ x hx
    exact gridColumn_column hi hu hd.keys hids hp hx

/-- **C72**: get_measurements_corr returns a table whose rows and columns are, period by period, the measurements of the requested latent factors (factor by factor, each measurement once) and the requested observed
factors; with several periods the label of a variable is `name, period`. Every entry is the sample correlation of the two variables over the individuals for which both are observed, whatever other values are missing.
The table is symmetric, has ones on the diagonal and no entry larger than one in absolute value, except for missing entries for variables that are constant. -/
theorem C72_measurement_correlations {m : ModelDict α} {pm : Processed α} (hpm : processModel m = .ok pm) {df : LongData ℝ} (hi : IndexOk df) (hu : NoUnusedPeriods df) {ids pers : List Int} (hids : IdsOf df ids)
    (hp : PeriodsOf df pers) {factorsArg : FactorsArg} {periodsArg : PeriodsArg} {latent observed : List String} {periods : List ℕ} (hf : RequestedFactors m factorsArg latent observed)
    (hps : RequestedPeriods m periodsArg periods) (hd : CorrDataOk m df latent observed periods) :
    ∃ (out : CorrTable) (measurements : ℕ → String → List String), getMeasurementsCorr df m factorsArg periodsArg = .ok out ∧
      (∀ t ∈ periods, ∀ f ∈ latent, (measurements t f).Nodup ∧ ∀ v, v ∈ measurements t f ↔ MeasurementOf m t v f) ∧
      IsCorrelationTable ids.length (periods.flatMap (fun t => (latent.flatMap (measurements t) ++ observed).map (fun c => (c, t)))) (fun c => corrLabel (1 < periods.length) c.1 c.2)
        (fun i c w => CellIs df ids pers i c.2 c.1 w) out := by
  obtain ⟨out, h1, h2⟩ := measurementTable hpm hi hu hids hp hf hps hd
  exact ⟨out, measurementNames pm.updateInfo, h1, fun t _ f _ => ⟨measurementNames_nodup hpm t f, mem_measurementNames hpm t f⟩, h2⟩

/-! ### scores -/

/-- The column of a factor. -/
def itemColumn (df : LongData ℝ) (ids : List Int) (score : ℕ → String → List FVal) : ScoreItem → List FVal
  | .latent f t => score t f
  | .observed f t => gridColumn df ids t f

/-- The frame of all scores. -/
theorem scoreFrame_ok {df : LongData ℝ} {ids : List Int} {latent observed : List String} {periods : List ℕ} (hne : periods ≠ []) {single : ℕ → Py Frame} {score : ℕ → String → List FVal}
    (h : ∀ t ∈ periods, single t = .ok (latent.map (fun f => (f, score t f)) ++ observed.map (fun f => (f, gridColumn df ids t f)))) :
    frameOfPeriods single periods =
      .ok ((scoreItems latent observed periods).map (fun k => (corrLabel (1 < periods.length) k.name.1 k.name.2, itemColumn df ids score k))) := by
  have := frameOfPeriods_ok hne (fun t => latent.map (fun f => ScoreItem.latent f t) ++ observed.map (fun f => ScoreItem.observed f t)) (fun k => k.name.1) (itemColumn df ids score)
    (fun t ht => (h t ht).trans (by rw [List.map_append, List.map_map, List.map_map]; rfl))
  rw [this, scoreItems, List.map_flatMap]
  congr 1
  refine List.flatMap_congr (fun t _ => ?_)
  simp only [List.map_append, List.map_map]
  rfl

/-- The scores of a factor. -/
noncomputable def scoreColumn (df : LongData ℝ) (ids : List Int) (params : List (Loc × ℝ)) (val : Loc → ℝ) (u : List URow) (t : ℕ) (f : String) : List FVal :=
  rowMeans ids.length (((measurementNames u t f).filter (fun v => !leaveOut (periodLoadings params t) v)).map (fun v =>
    (gridColumn df ids t v).map (fun x => (x.sub (val ⟨.controls, t, v, "constant"⟩)).div (val ⟨.loadings, t, v, f⟩))))

theorem measurementOf_update {m : ModelDict α} {t : ℕ} {v f : String} (h : MeasurementOf m t v f) : IsUpdate m t v := Or.inl ⟨f, h.1⟩

theorem concatColumns_ok {cs : Frame} (h : cs ≠ []) : concatColumns cs = .ok cs := by
  unfold concatColumns
  split
  · exact absurd rfl h
  · rfl

theorem scoresSingle_ok {m : ModelDict α} {pm : Processed α} (hpm : processModel m = .ok pm) {df : LongData ℝ} {latent observed : List String} {periods : List ℕ} (hd : CorrDataOk m df latent observed periods)
    (hne : latent ++ observed ≠ []) {params : List (Loc × ℝ)} {val : Loc → ℝ} (hq : ScoreParams m params val periods) (ids : List Int) {t : ℕ} (ht : t ∈ periods) :
    scoresSingle (gridData df ids periods) params pm.updateInfo latent observed t =
      .ok (latent.map (fun f => (f, scoreColumn df ids params val pm.updateInfo t f)) ++ observed.map (fun f => (f, gridColumn df ids t f))) := by
  obtain ⟨v0, f0, h0⟩ := hd.measured t ht
  have hc0 : IsParam m ⟨.controls, t, v0, "constant"⟩ := .control (Or.inl ⟨f0, h0⟩) (Or.inl rfl)
  have hl0 : IsParam m ⟨.loadings, t, v0, f0⟩ := .loading (measures_latent h0) (Or.inl h0)
  unfold scoresSingle
  rw [periodInfo_ok hpm (CorrDataOk.updates hd ht)]
  show (if _ then _ else _) = _
  have h1 : (periodLoadings params t) ≠ [] := List.ne_nil_of_mem ((mem_periodLoadings hq).mpr ⟨hl0, rfl⟩)
  have h2 : params.all (fun lx => decide (¬(lx.1.cat = .controls ∧ lx.1.period = t))) = false := by
    rw [List.all_eq_false]
    exact ⟨_, mem_params hq hc0, by simp⟩
  rw [if_neg (by simp only [Bool.or_eq_true, decide_eq_true_iff, h2]; simpa using h1)]
  rw [mapM_pure_ok _ (fun f => (f, scoreColumn df ids params val pm.updateInfo t f)) latent, mapM_pure_ok _ (fun c => (c, gridColumn df ids t c)) observed]
  · refine concatColumns_ok ?_
    intro h
    apply hne
    simpa using h
  · intro c hc
    exact namedColumn_grid df ids hd.distinct ht (hd.observed c hc)
  · intro f hf
    rw [factorMeasurements_ok _ t (hd.names f hf)]
    show Except.bind (List.mapM (m := Py) _ _) _ = _
    rw [mapM_pure_ok _ (fun v => (gridColumn df ids t v).map (fun x => (x.sub (val ⟨.controls, t, v, "constant"⟩)).div (val ⟨.loadings, t, v, f⟩)))]
    · show Except.ok _ = Except.ok _
      rw [periodLength_grid df ids hd.distinct ht]
      rfl
    · intro v hv
      have hm := (mem_measurementNames hpm t f v).mp (List.mem_filter.mp hv).1
      rw [periodColumn_grid df ids hd.distinct ht (hd.measurements t ht f hf v hm)]
      show Except.bind (seriesLoc _ _) _ = _
      rw [find_of_nodup (periodIntercepts_nodup hq.distinct t) (mem_periodIntercepts hq (.control (measurementOf_update hm) (Or.inl rfl)))]
      show Except.bind (seriesLoc _ _) _ = _
      rw [find_of_nodup (periodLoadings_nodup hq.distinct t) ((mem_periodLoadings hq).mpr ⟨.loading (measures_latent hm.1) (Or.inl hm.1), rfl⟩)]
      rfl


theorem scoreColumn_column {m : ModelDict α} {pm : Processed α} (hpm : processModel m = .ok pm) {df : LongData ℝ} (hi : IndexOk df) (hu : NoUnusedPeriods df) (hk : UniqueKeys df) {ids pers : List Int}
    (hids : IdsOf df ids) (hp : PeriodsOf df pers) {periods : List ℕ} {params : List (Loc × ℝ)} {val : Loc → ℝ} (hq : ScoreParams m params val periods) {t : ℕ} (ht : t ∈ periods) (f : String) :
    (∀ i < ids.length, ∃ s, ScoreIs m val df ids pers i t f s) ∧
      ∀ s : Fin ids.length → Option ℝ, (∀ i : Fin ids.length, ScoreIs m val df ids pers i t f (s i)) → Column (scoreColumn df ids params val pm.updateInfo t f) s := by
  set ns := (measurementNames pm.updateInfo t f).filter (fun v => !leaveOut (periodLoadings params t) v) with hns
  have hnd : ns.Nodup := (measurementNames_nodup hpm t f).filter _
  have hmem : ∀ v, v ∈ ns ↔ DedicatedTo m t v f := by
    intro v
    rw [hns, List.mem_filter, mem_measurementNames hpm, Bool.not_eq_true']
    constructor
    · rintro ⟨h1, h2⟩
      exact (leaveOut_iff hq ht h1).mp h2
    · intro h
      exact ⟨h.1, (leaveOut_iff hq ht h.1).mpr h⟩
  have hcell : ∀ (i : ℕ) (h : i < ids.length) v w, (∃ y, CellIs df ids pers i t v y ∧ w = y.map (fun y => (y - val ⟨.controls, t, v, "constant"⟩) / val ⟨.loadings, t, v, f⟩)) ↔
      w = (gridCell df (levelCode df.idLevel ids[i]) t v).map (fun y => (y - val ⟨.controls, t, v, "constant"⟩) / val ⟨.loadings, t, v, f⟩) := by
    intro i h v w
    constructor
    · rintro ⟨y, hy, rfl⟩
      rw [(gridCell_cellIs hi hu hk hids hp h).mp hy]
    · rintro rfl
      exact ⟨_, (gridCell_cellIs hi hu hk hids hp h).mpr rfl, rfl⟩
  refine ⟨fun i h => ⟨_, averageOver_intro hnd hmem (fun v => (hcell i h v _).mpr rfl)⟩, fun s hs => ?_⟩
  have hs' : s = fun i : Fin ids.length => average (ns.filterMap (fun v => (gridCell df (levelCode df.idLevel ids[i]) t v).map
      (fun y => (y - val ⟨.controls, t, v, "constant"⟩) / val ⟨.loadings, t, v, f⟩))) := by
    funext i
    exact averageOver_eq (hs i) hnd hmem (fun v w h => (hcell i i.2 v w).mp h)
  rw [hs']
  unfold scoreColumn
  refine rowMeans_column (fun v hv i => ?_)
  have hl : val ⟨.loadings, t, v, f⟩ ≠ 0 := hq.nonzero t ht v f ((hmem v).mp hv).1.1
  unfold gridColumn
  rw [List.getD_eq_getElem?_getD, List.getElem?_map, List.getElem?_map, List.getElem?_eq_getElem i.2, Option.map_some, Option.map_some, Option.getD_some]
  simp only [Fin.getElem_fin]
  cases gridCell df (levelCode df.idLevel ids[(i : ℕ)]) t v with
  | none => rfl
  | some y => simp [FVal.ofCell, FVal.sub, FVal.div, hl]

/-- **C59**: get_scores_corr returns the table of correlations of factor scores: the score of a latent factor is the average of (measurement - intercept) / loading over the observed measurements of this factor that
do not measure other factors. -/
theorem C59_score_correlations {m : ModelDict α} {pm : Processed α} (hpm : processModel m = .ok pm) {df : LongData ℝ} (hi : IndexOk df) (hu : NoUnusedPeriods df) {ids pers : List Int} (hids : IdsOf df ids)
    (hp : PeriodsOf df pers) {factorsArg : FactorsArg} {periodsArg : PeriodsArg} {latent observed : List String} {periods : List ℕ} (hf : RequestedFactors m factorsArg latent observed)
    (hne : latent ++ observed ≠ []) (hps : RequestedPeriods m periodsArg periods) (hd : CorrDataOk m df latent observed periods) {params : List (Loc × ℝ)} {val : Loc → ℝ} (hq : ScoreParams m params val periods) :
    ∃ out, getScoresCorr df params m factorsArg periodsArg = .ok out ∧
      IsCorrelationTable ids.length (scoreItems latent observed periods) (fun k => corrLabel (1 < periods.length) k.name.1 k.name.2)
        (fun i k s => k.ValueIs (ScoreIs m val df ids pers) df ids pers i s) out := by
  have hrun : getScoresCorr df params m factorsArg periodsArg =
      .ok (corrOf ((scoreItems latent observed periods).map (fun k => (corrLabel (1 < periods.length) k.name.1 k.name.2, itemColumn df ids (scoreColumn df ids params val pm.updateInfo) k)))) := by
    unfold getScoresCorr
    rw [hpm]
    show (preProcessData df (processPeriods pm.dimensions periodsArg) >>= _) = _
    rw [processPeriods_ok hpm hps, preProcess_eq periods hi hids hd.keys]
    show (processFactors pm.labels factorsArg >>= _) = _
    rw [processFactors_ok hpm hf]
    show (if _ then _ else _) = _
    obtain ⟨t0, ht0⟩ := List.exists_mem_of_ne_nil _ hd.some
    obtain ⟨v0, f0, h0⟩ := hd.measured t0 ht0
    have h1 : params.all (fun lx => decide (lx.1.cat ≠ .controls)) = false := by
      rw [List.all_eq_false]
      exact ⟨_, mem_params hq (.control (t := t0) (v := v0) (c := "constant") (Or.inl ⟨f0, h0⟩) (Or.inl rfl)), by simp⟩
    have h2 : params.all (fun lx => decide (lx.1.cat ≠ .loadings)) = false := by
      rw [List.all_eq_false]
      exact ⟨_, mem_params hq (.loading (measures_latent h0) (Or.inl h0)), by simp⟩
    rw [h1, h2, if_neg (by simp)]
    show (frameOfPeriods (scoresSingle (gridData df ids periods) params pm.updateInfo latent observed) periods >>= _) = _
    rw [scoreFrame_ok hd.some (fun t ht => scoresSingle_ok hpm hd hne hq ids ht)]
    rfl
  refine ⟨_, hrun, isCorrelationTable ?_ ?_⟩
  · intro k hk i hi'
    obtain ⟨t, ht, hk⟩ := List.mem_flatMap.mp hk
    rcases List.mem_append.mp hk with hk | hk
    · obtain ⟨f, _, rfl⟩ := List.mem_map.mp hk
      exact (scoreColumn_column hpm hi hu hd.keys hids hp hq ht f).1 i hi'
    · obtain ⟨f, _, rfl⟩ := List.mem_map.mp hk
      exact ⟨_, (gridCell_cellIs hi hu hd.keys hids hp hi').mpr rfl⟩
  · intro k hk x hx
    obtain ⟨t, ht, hk⟩ := List.mem_flatMap.mp hk
    rcases List.mem_append.mp hk with hk | hk
    · obtain ⟨f, _, rfl⟩ := List.mem_map.mp hk
      exact (scoreColumn_column hpm hi hu hd.keys hids hp hq ht f).2 x hx
    · obtain ⟨f, _, rfl⟩ := List.mem_map.mp hk
      exact gridColumn_column hi hu hd.keys hids hp hx

theorem average_const {xs : List ℝ} {θ : ℝ} (hne : xs ≠ []) (h : ∀ x ∈ xs, x = θ) : average xs = some θ := by
  unfold average
  rw [if_neg hne, List.eq_replicate_of_mem h, List.sum_replicate, List.length_replicate, nsmul_eq_mul]
  have : ((xs.length : ℕ) : ℝ) ≠ 0 := by simpa using hne
  rw [mul_div_cancel_left₀ _ this]

/-- **C59** (recovery of the factors): if all observed dedicated measurements of a factor are free of noise, then the score of an individual with such a measurement is the factor. -/
theorem C59_score_noise_free {m : ModelDict α} {val : Loc → ℝ} {df : LongData ℝ} {ids pers : List Int} {i t : ℕ} {f : String} {θ : ℝ} {s : Option ℝ} (hs : ScoreIs m val df ids pers i t f s)
    (hobs : ∃ v, DedicatedTo m t v f ∧ ∃ y, CellIs df ids pers i t v (some y)) (hfun : ∀ v y y', CellIs df ids pers i t v y → CellIs df ids pers i t v y' → y = y')
    (hl : ∀ v, DedicatedTo m t v f → val ⟨.loadings, t, v, f⟩ ≠ 0)
    (hy : ∀ v, DedicatedTo m t v f → ∀ y, CellIs df ids pers i t v (some y) → y = val ⟨.controls, t, v, "constant"⟩ + val ⟨.loadings, t, v, f⟩ * θ) : s = some θ := by
  obtain ⟨vs, z, h1, h2, h3, rfl⟩ := hs
  apply average_const
  · obtain ⟨v, hv, y, hyv⟩ := hobs
    obtain ⟨w, hw, hz⟩ := h3 v ((h2 v).mpr hv)
    rw [hfun v _ _ hw hyv] at hz
    exact List.ne_nil_of_mem (List.mem_filterMap.mpr ⟨v, (h2 v).mpr hv, hz⟩)
  · intro x hx
    obtain ⟨v, hv, hz⟩ := List.mem_filterMap.mp hx
    obtain ⟨w, hw, hz'⟩ := h3 v hv
    have hd := (h2 v).mp hv
    rw [hz] at hz'
    cases w with
    | none => cases hz'
    | some y =>
      rw [Option.map_some] at hz'
      rw [Option.some.inj hz', hy v hd y hw]
      field_simp [hl v hd]
      ring

theorem observedCorrelation_some {ι : Type} [Fintype ι] (x y : ι → ℝ) : observedCorrelation (fun i => some (x i)) (fun i => some (y i)) = correlation Finset.univ x y := by
  unfold observedCorrelation
  simp

theorem cellIs_unique {df : LongData ℝ} (hi : IndexOk df) (hu : NoUnusedPeriods df) (hk : UniqueKeys df) {ids pers : List Int} (hids : IdsOf df ids) (hp : PeriodsOf df pers) {i t : ℕ} (h : i < ids.length) {c : String}
    {y y' : Option ℝ} (h1 : CellIs df ids pers i t c y) (h2 : CellIs df ids pers i t c y') : y = y' :=
  ((gridCell_cellIs hi hu hk hids hp h).mp h1).trans ((gridCell_cellIs hi hu hk hids hp h).mp h2).symm

/-- **C59** (noise-free data): if the dedicated measurements of the requested latent factors are `intercept + loading * factor` where they are observed, and every individual has at least one in every requested period,
then get_scores_corr returns the correlations of the factors, whatever the other measurements are. -/
theorem C59_noise_free {m : ModelDict α} {pm : Processed α} (hpm : processModel m = .ok pm) {df : LongData ℝ} (hi : IndexOk df) (hu : NoUnusedPeriods df) {ids pers : List Int} (hids : IdsOf df ids)
    (hp : PeriodsOf df pers) {factorsArg : FactorsArg} {periodsArg : PeriodsArg} {latent observed : List String} {periods : List ℕ} (hf : RequestedFactors m factorsArg latent observed)
    (hne : latent ++ observed ≠ []) (hps : RequestedPeriods m periodsArg periods) (hd : CorrDataOk m df latent observed periods) {params : List (Loc × ℝ)} {val : Loc → ℝ} (hq : ScoreParams m params val periods)
    (θ : ℕ → String → Fin ids.length → ℝ) (hobs : ∀ t ∈ periods, ∀ f ∈ latent, ∀ i : Fin ids.length, ∃ v, DedicatedTo m t v f ∧ ∃ y, CellIs df ids pers i t v (some y))
    (hθ : ∀ t ∈ periods, ∀ f ∈ latent, ∀ v, DedicatedTo m t v f → ∀ (i : Fin ids.length) y, CellIs df ids pers i t v (some y) →
      y = val ⟨.controls, t, v, "constant"⟩ + val ⟨.loadings, t, v, f⟩ * θ t f i) :
    ∃ out, getScoresCorr df params m factorsArg periodsArg = .ok out ∧ out.rows = (scoreItems latent observed periods).map (fun k => corrLabel (1 < periods.length) k.name.1 k.name.2) ∧ out.cols = out.rows ∧
      ∀ (a b : ℕ) f t g s, (scoreItems latent observed periods)[a]? = some (.latent f t) → (scoreItems latent observed periods)[b]? = some (.latent g s) →
        entry2 out.cells a b = some (correlation Finset.univ (θ t f) (θ s g)) := by
  obtain ⟨out, hrun, ht⟩ := C59_score_correlations hpm hi hu hids hp hf hne hps hd hq
  refine ⟨out, hrun, ht.rows, ht.cols.trans ht.rows.symm, ?_⟩
  have hmem : ∀ {f t}, ScoreItem.latent f t ∈ scoreItems latent observed periods → t ∈ periods ∧ f ∈ latent := by
    intro f t h
    obtain ⟨t', ht', h⟩ := List.mem_flatMap.mp h
    rcases List.mem_append.mp h with h | h
    · obtain ⟨f', hf', he⟩ := List.mem_map.mp h
      cases he
      exact ⟨ht', hf'⟩
    · obtain ⟨f', _, he⟩ := List.mem_map.mp h
      cases he
  have hval : ∀ {f t}, ScoreItem.latent f t ∈ scoreItems latent observed periods → ∀ i : Fin ids.length, ScoreIs m val df ids pers i t f (some (θ t f i)) := by
    intro f t h i
    obtain ⟨h1, h2⟩ := hmem h
    obtain ⟨s, hs⟩ := ht.values _ h i i.2
    have hs' : ScoreIs m val df ids pers i t f s := hs
    rw [← C59_score_noise_free hs' (hobs t h1 f h2 i) (fun v y y' => cellIs_unique hi hu hd.keys hids hp i.2) (fun v hv => hq.nonzero t h1 v f hv.1.1) (fun v hv y hy => hθ t h1 f h2 v hv i y hy)]
    exact hs'
  intro a b f t g s ha hb
  rw [ht.entries a b _ _ ha hb (fun i => some (θ t f i)) (fun i => some (θ s g i)) (hval (List.mem_of_getElem? ha)) (hval (List.mem_of_getElem? hb)), observedCorrelation_some]

/-! ### quasi scores -/

/-- The quasi scores of a factor. -/
noncomputable def quasiColumn (df : LongData ℝ) (ids : List Int) (u : List URow) (t : ℕ) (f : String) : List FVal :=
  rowMeans ids.length ((measurementNames u t f).map (fun v => standardize (gridColumn df ids t v)))

theorem quasiScoresSingle_ok {m : ModelDict α} {pm : Processed α} (hpm : processModel m = .ok pm) {df : LongData ℝ} {latent observed : List String} {periods : List ℕ} (hd : CorrDataOk m df latent observed periods)
    (hne : latent ++ observed ≠ []) (ids : List Int) {t : ℕ} (ht : t ∈ periods) :
    quasiScoresSingle (gridData df ids periods) pm.updateInfo latent observed t =
      .ok (latent.map (fun f => (f, quasiColumn df ids pm.updateInfo t f)) ++ observed.map (fun f => (f, gridColumn df ids t f))) := by
  unfold quasiScoresSingle
  rw [periodInfo_ok hpm (CorrDataOk.updates hd ht)]
  show Except.bind (List.mapM (m := Py) _ _) _ = _
  rw [mapM_pure_ok _ (fun f => (f, quasiColumn df ids pm.updateInfo t f)) latent]
  · show Except.bind (List.mapM (m := Py) _ _) _ = _
    rw [mapM_pure_ok _ (fun c => (c, gridColumn df ids t c)) observed]
    · refine concatColumns_ok ?_
      intro h
      apply hne
      simpa using h
    · intro c hc
      exact namedColumn_grid df ids hd.distinct ht (hd.observed c hc)
  · intro f hf
    rw [factorMeasurements_ok _ t (hd.names f hf)]
    show Except.bind (List.mapM (m := Py) _ _) _ = _
    rw [mapM_pure_ok _ (fun v => gridColumn df ids t v)]
    · show Except.ok _ = Except.ok _
      rw [periodLength_grid df ids hd.distinct ht, List.map_map]
      rfl
    · intro v hv
      exact periodColumn_grid df ids hd.distinct ht (hd.measurements t ht f hf v ((mem_measurementNames hpm t f v).mp hv))

theorem quasiColumn_column {m : ModelDict α} {pm : Processed α} (hpm : processModel m = .ok pm) {df : LongData ℝ} (hi : IndexOk df) (hu : NoUnusedPeriods df) (hk : UniqueKeys df) {ids pers : List Int}
    (hids : IdsOf df ids) (hp : PeriodsOf df pers) (t : ℕ) (f : String) :
    (∀ i < ids.length, ∃ s, QuasiScoreIs m df ids pers i t f s) ∧
      ∀ s : Fin ids.length → Option ℝ, (∀ i : Fin ids.length, QuasiScoreIs m df ids pers i t f (s i)) → Column (quasiColumn df ids pm.updateInfo t f) s := by
  have hnd := measurementNames_nodup hpm t f
  have hmem := mem_measurementNames hpm t f
  have hcell : ∀ (i : ℕ) (h : i < ids.length) v w, (∃ (hi : i < ids.length) (x : Fin ids.length → Option ℝ), (∀ j : Fin ids.length, CellIs df ids pers j t v (x j)) ∧ w = standardized x ⟨i, hi⟩) ↔
      w = standardized (fun j : Fin ids.length => gridCell df (levelCode df.idLevel ids[(j : ℕ)]) t v) ⟨i, h⟩ := by
    intro i h v w
    constructor
    · rintro ⟨_, x, hx, rfl⟩
      congr 1
      funext j
      exact (gridCell_cellIs hi hu hk hids hp j.2).mp (hx j)
    · rintro rfl
      exact ⟨h, _, fun j => (gridCell_cellIs hi hu hk hids hp j.2).mpr rfl, rfl⟩
  refine ⟨fun i h => ⟨_, averageOver_intro hnd hmem (fun v => (hcell i h v _).mpr rfl)⟩, fun s hs => ?_⟩
  have hs' : s = fun i : Fin ids.length => average ((measurementNames pm.updateInfo t f).filterMap (fun v => standardized (fun j : Fin ids.length => gridCell df (levelCode df.idLevel ids[(j : ℕ)]) t v) i)) := by
    funext i
    exact averageOver_eq (hs i) hnd hmem (fun v w h => (hcell i i.2 v w).mp h)
  rw [hs']
  refine rowMeans_column (fun v hv i => standardize_getD ?_ i)
  unfold gridColumn
  refine List.ext_getElem (by simp) (fun j h1 h2 => by simp)

/-- **C73** (quasi scores): get_quasi_scores_corr returns the table of correlations of quasi scores: the quasi score of a latent factor is the average of its observed measurements, each standardized to mean zero and
variance one. -/
theorem C73_quasi_score_correlations {m : ModelDict α} {pm : Processed α} (hpm : processModel m = .ok pm) {df : LongData ℝ} (hi : IndexOk df) (hu : NoUnusedPeriods df) {ids pers : List Int} (hids : IdsOf df ids)
    (hp : PeriodsOf df pers) {factorsArg : FactorsArg} {periodsArg : PeriodsArg} {latent observed : List String} {periods : List ℕ} (hf : RequestedFactors m factorsArg latent observed)
    (hne : latent ++ observed ≠ []) (hps : RequestedPeriods m periodsArg periods) (hd : CorrDataOk m df latent observed periods) :
    ∃ out, getQuasiScoresCorr df m factorsArg periodsArg = .ok out ∧
      IsCorrelationTable ids.length (scoreItems latent observed periods) (fun k => corrLabel (1 < periods.length) k.name.1 k.name.2)
        (fun i k s => k.ValueIs (QuasiScoreIs m df ids pers) df ids pers i s) out := by
  have hrun : getQuasiScoresCorr df m factorsArg periodsArg =
      .ok (corrOf ((scoreItems latent observed periods).map (fun k => (corrLabel (1 < periods.length) k.name.1 k.name.2, itemColumn df ids (quasiColumn df ids pm.updateInfo) k)))) := by
    unfold getQuasiScoresCorr
    rw [hpm]
    show (preProcessData df (processPeriods pm.dimensions periodsArg) >>= _) = _
    rw [processPeriods_ok hpm hps, preProcess_eq periods hi hids hd.keys]
    show (processFactors pm.labels factorsArg >>= _) = _
    rw [processFactors_ok hpm hf]
    show (frameOfPeriods (quasiScoresSingle (gridData df ids periods) pm.updateInfo latent observed) periods >>= _) = _
    rw [scoreFrame_ok hd.some (fun t ht => quasiScoresSingle_ok hpm hd hne ids ht)]
    rfl
  refine ⟨_, hrun, isCorrelationTable ?_ ?_⟩
  · intro k hk i hi'
    obtain ⟨t, ht, hk⟩ := List.mem_flatMap.mp hk
    rcases List.mem_append.mp hk with hk | hk
    · obtain ⟨f, _, rfl⟩ := List.mem_map.mp hk
      exact (quasiColumn_column hpm hi hu hd.keys hids hp t f).1 i hi'
    · obtain ⟨f, _, rfl⟩ := List.mem_map.mp hk
      exact ⟨_, (gridCell_cellIs hi hu hd.keys hids hp hi').mpr rfl⟩
  · intro k hk x hx
    obtain ⟨t, ht, hk⟩ := List.mem_flatMap.mp hk
    rcases List.mem_append.mp hk with hk | hk
    · obtain ⟨f, _, rfl⟩ := List.mem_map.mp hk
      exact (quasiColumn_column hpm hi hu hd.keys hids hp t f).2 x hx
    · obtain ⟨f, _, rfl⟩ := List.mem_map.mp hk
      exact gridColumn_column hi hu hd.keys hids hp hx

end Skill
