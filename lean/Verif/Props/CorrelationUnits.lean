import Verif.Props.Correlation
import Verif.Lemmas.CorrelationUnits
/- Correlations and scores in other units; quasi scores and scores. -/
namespace Skill
open Spec
variable {α : Type} [OfScientific α] [Neg α] [Zero α] [One α] [OfNat α 2] [DecidableEq α]

theorem changeUnits_corrDataOk {m : ModelDict α} {df : LongData ℝ} {a b : Int → String → ℝ} {latent observed : List String} {periods : List ℕ} (hd : CorrDataOk m df latent observed periods) :
    CorrDataOk m (changeUnits a b df) latent observed periods := ⟨changeUnits_keys hd.keys, hd.some, hd.distinct, hd.measured, hd.names, hd.measurements, hd.observed⟩

theorem mem_scoreItems {latent observed : List String} {periods : List ℕ} {k : ScoreItem} (h : k ∈ scoreItems latent observed periods) :
    (∃ t ∈ periods, ∃ f ∈ latent, k = .latent f t) ∨ ∃ t ∈ periods, ∃ f ∈ observed, k = .observed f t := by
  obtain ⟨t, ht, h⟩ := List.mem_flatMap.mp h
  rcases List.mem_append.mp h with h | h
  · obtain ⟨f, hf, he⟩ := List.mem_map.mp h
    exact Or.inl ⟨t, ht, f, hf, he.symm⟩
  · obtain ⟨f, hf, he⟩ := List.mem_map.mp h
    exact Or.inr ⟨t, ht, f, hf, he.symm⟩

/-- **C73** (units of measurements): measuring columns in other units (with positive factors, which may be different in each period) does not change the correlations of measurements. -/
theorem C73_units_measurements {m : ModelDict α} {pm : Processed α} (hpm : processModel m = .ok pm) {df : LongData ℝ} (hi : IndexOk df) (hu : NoUnusedPeriods df) {ids pers : List Int} (hids : IdsOf df ids)
    (hp : PeriodsOf df pers) {factorsArg : FactorsArg} {periodsArg : PeriodsArg} {latent observed : List String} {periods : List ℕ} (hf : RequestedFactors m factorsArg latent observed)
    (hps : RequestedPeriods m periodsArg periods) (hd : CorrDataOk m df latent observed periods) {a b : Int → String → ℝ} (ha : ∀ p c, 0 < a p c) :
    getMeasurementsCorr (changeUnits a b df) m factorsArg periodsArg = getMeasurementsCorr df m factorsArg periodsArg := by
  obtain ⟨out, h1, h2⟩ := measurementTable hpm hi hu hids hp hf hps hd
  obtain ⟨out', h1', h2'⟩ := measurementTable hpm (changeUnits_index (a := a) (b := b) hi) (changeUnits_periods hu) (changeUnits_idsOf hids) (changeUnits_periodsOf hp) hf hps (changeUnits_corrDataOk hd)
  rw [h1, h1']
  congr 1
  refine (isCorrelationTable_unique h2 h2' (fun k hk l hl => ?_)).symm
  choose x hx using fun i : Fin ids.length => h2.values k hk i i.2
  choose y hy using fun i : Fin ids.length => h2.values l hl i i.2
  exact ⟨x, y, _, _, hx, hy, fun i => changeUnits_cellIs (hx i), fun i => changeUnits_cellIs (hy i), (observedCorrelation_affine x y (ha _ _) (ha _ _) _ _).symm⟩

/-- The quasi score in the new units. -/
theorem changeUnits_quasiScoreIs {m : ModelDict α} {df : LongData ℝ} {a b : Int → String → ℝ} (ha : ∀ p c, 0 < a p c) {ids pers : List Int} {i t : ℕ} {f : String} {s : Option ℝ} (h : QuasiScoreIs m df ids pers i t f s) :
    QuasiScoreIs m (changeUnits a b df) ids pers i t f s := by
  obtain ⟨vs, z, h1, h2, h3, rfl⟩ := h
  refine ⟨vs, z, h1, h2, fun v hv => ?_, rfl⟩
  obtain ⟨hi, x, hx, hz⟩ := h3 v hv
  exact ⟨hi, _, fun j => changeUnits_cellIs (hx j), by rw [standardized_affine x (ha _ _), hz]⟩

/-- **C73** (units of measurements): measuring columns in other units does not change the correlations of quasi scores. -/
theorem C73_units_quasi_scores {m : ModelDict α} {pm : Processed α} (hpm : processModel m = .ok pm) {df : LongData ℝ} (hi : IndexOk df) (hu : NoUnusedPeriods df) {ids pers : List Int} (hids : IdsOf df ids)
    (hp : PeriodsOf df pers) {factorsArg : FactorsArg} {periodsArg : PeriodsArg} {latent observed : List String} {periods : List ℕ} (hf : RequestedFactors m factorsArg latent observed)
    (hne : latent ++ observed ≠ []) (hps : RequestedPeriods m periodsArg periods) (hd : CorrDataOk m df latent observed periods) {a b : Int → String → ℝ} (ha : ∀ p c, 0 < a p c) :
    getQuasiScoresCorr (changeUnits a b df) m factorsArg periodsArg = getQuasiScoresCorr df m factorsArg periodsArg := by
  obtain ⟨out, h1, h2⟩ := C73_quasi_score_correlations hpm hi hu hids hp hf hne hps hd
  obtain ⟨out', h1', h2'⟩ :=
    C73_quasi_score_correlations hpm (changeUnits_index (a := a) (b := b) hi) (changeUnits_periods hu) (changeUnits_idsOf hids) (changeUnits_periodsOf hp) hf hne hps (changeUnits_corrDataOk hd)
  rw [h1, h1']
  congr 1
  have hone : ∀ x : Fin ids.length → Option ℝ, x = fun i => (x i).map (fun v => 1 * v + 0) := fun x => by
    funext i
    cases x i <;> simp
  have hitem : ∀ k ∈ scoreItems latent observed periods, ∃ (x : Fin ids.length → Option ℝ) (c d : ℝ), 0 < c ∧ (∀ i : Fin ids.length, k.ValueIs (QuasiScoreIs m df ids pers) df ids pers i (x i)) ∧
      ∀ i : Fin ids.length, k.ValueIs (QuasiScoreIs m (changeUnits a b df) ids pers) (changeUnits a b df) ids pers i ((x i).map (fun v => c * v + d)) := by
    intro k hk
    choose x hx using fun i : Fin ids.length => h2.values k hk i i.2
    rcases mem_scoreItems hk with ⟨t, _, f, _, rfl⟩ | ⟨t, _, f, _, rfl⟩
    · refine ⟨x, 1, 0, one_pos, hx, fun i => ?_⟩
      rw [← congrFun (hone x) i]
      exact changeUnits_quasiScoreIs ha (hx i)
    · exact ⟨x, _, _, ha _ _, hx, fun i => changeUnits_cellIs (hx i)⟩
  refine (isCorrelationTable_unique h2 h2' (fun k hk l hl => ?_)).symm
  obtain ⟨x, c, d, hc, hx, hx'⟩ := hitem k hk
  obtain ⟨y, c', d', hc', hy, hy'⟩ := hitem l hl
  exact ⟨x, y, _, _, hx, hy, hx', hy', (observedCorrelation_affine x y hc hc' d d').symm⟩

/-- The score in the new units. -/
theorem changeUnits_scoreIs {m : ModelDict α} {df : LongData ℝ} {a b : Int → String → ℝ} (ha : ∀ p c, 0 < a p c) {val val' : Loc → ℝ} {ids pers : List Int} {i t : ℕ} {f : String} {s : Option ℝ}
    (hc : ∀ v, val' ⟨.controls, t, v, "constant"⟩ = a (pers.getD t 0) v * val ⟨.controls, t, v, "constant"⟩ + b (pers.getD t 0) v)
    (hl : ∀ v, val' ⟨.loadings, t, v, f⟩ = a (pers.getD t 0) v * val ⟨.loadings, t, v, f⟩) (h : ScoreIs m val df ids pers i t f s) : ScoreIs m val' (changeUnits a b df) ids pers i t f s := by
  obtain ⟨vs, z, h1, h2, h3, rfl⟩ := h
  refine ⟨vs, z, h1, h2, fun v hv => ?_, rfl⟩
  obtain ⟨y, hy, hz⟩ := h3 v hv
  refine ⟨_, changeUnits_cellIs hy, ?_⟩
  rw [hz, Option.map_map]
  congr 1
  funext w
  have := (ha (pers.getD t 0) v).ne'
  simp only [Function.comp, hc, hl]
  rw [show a (pers.getD t 0) v * w + b (pers.getD t 0) v - (a (pers.getD t 0) v * val ⟨.controls, t, v, "constant"⟩ + b (pers.getD t 0) v) = a (pers.getD t 0) v * (w - val ⟨.controls, t, v, "constant"⟩) by ring,
    mul_div_mul_left _ _ this]

/-- **C73** (units and parameters): measuring columns in other units, and changing intercepts and loadings accordingly, does not change the correlations of scores. -/
theorem C73_units_scores {m : ModelDict α} {pm : Processed α} (hpm : processModel m = .ok pm) {df : LongData ℝ} (hi : IndexOk df) (hu : NoUnusedPeriods df) {ids pers : List Int} (hids : IdsOf df ids)
    (hp : PeriodsOf df pers) {factorsArg : FactorsArg} {periodsArg : PeriodsArg} {latent observed : List String} {periods : List ℕ} (hf : RequestedFactors m factorsArg latent observed)
    (hne : latent ++ observed ≠ []) (hps : RequestedPeriods m periodsArg periods) (hd : CorrDataOk m df latent observed periods) {params params' : List (Loc × ℝ)} {val val' : Loc → ℝ}
    (hq : ScoreParams m params val periods) (hq' : ScoreParams m params' val' periods) {a b : Int → String → ℝ} (ha : ∀ p c, 0 < a p c)
    (hc : ∀ (t : ℕ) v, val' ⟨.controls, t, v, "constant"⟩ = a (pers.getD t 0) v * val ⟨.controls, t, v, "constant"⟩ + b (pers.getD t 0) v)
    (hl : ∀ (t : ℕ) v f, val' ⟨.loadings, t, v, f⟩ = a (pers.getD t 0) v * val ⟨.loadings, t, v, f⟩) :
    getScoresCorr (changeUnits a b df) params' m factorsArg periodsArg = getScoresCorr df params m factorsArg periodsArg := by
  obtain ⟨out, h1, h2⟩ := C59_score_correlations hpm hi hu hids hp hf hne hps hd hq
  obtain ⟨out', h1', h2'⟩ :=
    C59_score_correlations hpm (changeUnits_index (a := a) (b := b) hi) (changeUnits_periods hu) (changeUnits_idsOf hids) (changeUnits_periodsOf hp) hf hne hps (changeUnits_corrDataOk hd) hq'
  rw [h1, h1']
  congr 1
  have hone : ∀ x : Fin ids.length → Option ℝ, x = fun i => (x i).map (fun v => 1 * v + 0) := fun x => by
    funext i
    cases x i <;> simp
  have hitem : ∀ k ∈ scoreItems latent observed periods, ∃ (x : Fin ids.length → Option ℝ) (c d : ℝ), 0 < c ∧ (∀ i : Fin ids.length, k.ValueIs (ScoreIs m val df ids pers) df ids pers i (x i)) ∧
      ∀ i : Fin ids.length, k.ValueIs (ScoreIs m val' (changeUnits a b df) ids pers) (changeUnits a b df) ids pers i ((x i).map (fun v => c * v + d)) := by
    intro k hk
    choose x hx using fun i : Fin ids.length => h2.values k hk i i.2
    rcases mem_scoreItems hk with ⟨t, _, f, _, rfl⟩ | ⟨t, _, f, _, rfl⟩
    · refine ⟨x, 1, 0, one_pos, hx, fun i => ?_⟩
      rw [← congrFun (hone x) i]
      exact changeUnits_scoreIs ha (hc t) (fun v => hl t v f) (hx i)
    · exact ⟨x, _, _, ha _ _, hx, fun i => changeUnits_cellIs (hx i)⟩
  refine (isCorrelationTable_unique h2 h2' (fun k hk l hl => ?_)).symm
  obtain ⟨x, c, d, hc, hx, hx'⟩ := hitem k hk
  obtain ⟨y, c', d', hc', hy, hy'⟩ := hitem l hl
  exact ⟨x, y, _, _, hx, hy, hx', hy', (observedCorrelation_affine x y hc hc' d d').symm⟩

/-! ### parameters that scores need -/

theorem seriesLoc_ok {κ : Type} [DecidableEq κ] {series : List (κ × ℝ)} {key : κ} {x : ℝ} (h : seriesLoc series key = .ok x) : (key, x) ∈ series := by
  unfold seriesLoc at h
  split at h
  · next kv hkv =>
    have h1 := List.mem_of_find?_eq_some hkv
    have h2 : kv.1 = key := by simpa using List.find?_some hkv
    rw [← h2, ← Except.ok.inj h]
    exact h1
  · cases h

theorem frameOfPeriods_single {single : ℕ → Py Frame} {periods : List ℕ} {out : Frame} (h : frameOfPeriods single periods = .ok out) {t : ℕ} (ht : t ∈ periods) : ∃ frame, single t = .ok frame := by
  unfold frameOfPeriods at h
  split at h
  · cases h
  · rw [List.mem_singleton.mp ht]
    exact ⟨out, h⟩
  · simp only [py_bind_ok, py_pure_ok, mapM_ok_iff] at h
    obtain ⟨frames, hf, _⟩ := h
    obtain ⟨_, _, _, h1, _⟩ := forall₂_mem hf ht
    exact ⟨_, h1⟩

/-- **C59** (missing parameters): scores are only calculated with given parameters. If get_scores_corr returns a result, then params has the intercept and the loading of every measurement of a requested factor that has no
nonzero loading on another factor. -/
theorem C59_parameters_needed {m : ModelDict α} {pm : Processed α} (hpm : processModel m = .ok pm) {df : LongData ℝ} {factorsArg : FactorsArg} {periodsArg : PeriodsArg} {latent observed : List String} {periods : List ℕ}
    (hf : RequestedFactors m factorsArg latent observed) (hps : RequestedPeriods m periodsArg periods) {params : List (Loc × ℝ)} (hn : (params.map Prod.fst).Nodup) {out : CorrTable}
    (hout : getScoresCorr df params m factorsArg periodsArg = .ok out) {t : ℕ} (ht : t ∈ periods) {f : String} (hfl : f ∈ latent) {v : String} (hv : MeasurementOf m t v f)
    (hother : ∀ g x, ((⟨.loadings, t, v, g⟩ : Loc), x) ∈ params → g = f ∨ x = 0) :
    (⟨.controls, t, v, "constant"⟩ : Loc) ∈ params.map Prod.fst ∧ (⟨.loadings, t, v, f⟩ : Loc) ∈ params.map Prod.fst := by
  unfold getScoresCorr at hout
  rw [hpm] at hout
  replace hout : (preProcessData df (processPeriods pm.dimensions periodsArg) >>= _) = .ok out := hout
  rw [processPeriods_ok hpm hps, processFactors_ok hpm hf] at hout
  obtain ⟨data, _, hout⟩ := py_bind_ok.mp hout
  replace hout : (if _ then _ else _) = (.ok out : Py CorrTable) := hout
  split at hout
  · cases hout
  obtain ⟨frame, hframe, _⟩ := py_bind_ok.mp hout
  obtain ⟨frame', h1⟩ := frameOfPeriods_single hframe ht
  unfold scoresSingle at h1
  obtain ⟨info, hinfo, h1⟩ := py_bind_ok.mp h1
  dsimp only at h1
  split at h1
  · cases h1
  simp only [py_bind_ok, mapM_ok_iff] at h1
  obtain ⟨scores, hs, _⟩ := h1
  obtain ⟨_, _, meas, hmeas, cols, hcols, _⟩ := forall₂_mem hs hfl
  have hvm : v ∈ meas := by
    unfold factorMeasurements at hmeas
    split at hmeas
    · rw [periodInfo_ok hpm ⟨v, Or.inl ⟨f, hv.1⟩⟩] at hinfo
      rw [← Except.ok.inj hmeas, ← Except.ok.inj hinfo]
      exact (mem_measurementNames hpm t f v).mpr hv
    · cases hmeas
  have hleave : leaveOut (periodLoadings params t) v = false := by
    unfold leaveOut
    simp only [decide_eq_false_iff_not, not_lt]
    have hkeys : ((periodLoadings params t).map Prod.fst).Nodup := by
      unfold periodLoadings
      rw [List.map_map, List.Nodup, List.pairwise_map]
      rw [List.Nodup, List.pairwise_map] at hn
      refine (hn.filter _).imp_of_mem (fun {a b} ha hb hab he => hab ?_)
      have ha := (List.mem_filter.mp ha).2
      have hb := (List.mem_filter.mp hb).2
      simp only [Bool.and_eq_true, decide_eq_true_eq] at ha hb
      simp only [Function.comp, Prod.mk.injEq] at he
      obtain ⟨⟨c, t1, n1, n2⟩, x⟩ := a
      obtain ⟨⟨c', t1', n1', n2'⟩, x'⟩ := b
      dsimp only at ha hb he
      obtain ⟨rfl, rfl⟩ := ha
      obtain ⟨rfl, rfl⟩ := hb
      obtain ⟨rfl, rfl⟩ := he
      rfl
    have hall : ∀ kv ∈ (periodLoadings params t).filter (fun kv => decide (kv.1.1 = v) && decide (kv.2 ≠ 0)), kv.1 = (v, f) := by
      rintro ⟨⟨w, g⟩, x⟩ hkv
      obtain ⟨h1, h2⟩ := List.mem_filter.mp hkv
      simp only [Bool.and_eq_true, decide_eq_true_eq] at h2
      obtain ⟨⟨⟨c, t1, n1, n2⟩, y⟩, h3, h4⟩ := List.mem_map.mp h1
      obtain ⟨h5, h6⟩ := List.mem_filter.mp h3
      simp only [Bool.and_eq_true, decide_eq_true_eq] at h6
      obtain ⟨rfl, rfl⟩ := h6
      simp only [Prod.mk.injEq] at h4
      obtain ⟨⟨rfl, rfl⟩, rfl⟩ := h4
      obtain ⟨rfl, hx⟩ := h2
      rcases hother _ _ h5 with h | h
      · rw [h]
      · exact absurd h hx
    have hsub : (((periodLoadings params t).filter (fun kv => decide (kv.1.1 = v) && decide (kv.2 ≠ 0))).map Prod.fst).Nodup := hkeys.sublist (List.filter_sublist.map _)
    have hrep := List.eq_replicate_of_mem (l := ((periodLoadings params t).filter (fun kv => decide (kv.1.1 = v) && decide (kv.2 ≠ 0))).map Prod.fst) (a := (v, f)) (fun x hx => by
      obtain ⟨kv, h1, rfl⟩ := List.mem_map.mp hx
      exact hall kv h1)
    rw [hrep, List.nodup_replicate, List.length_map] at hsub
    exact hsub
  obtain ⟨_, _, values, hvalues, a, ha, b, hb, _⟩ := forall₂_mem hcols (List.mem_filter.mpr ⟨hvm, by simp [hleave]⟩)
  have h3 := seriesLoc_ok ha
  have h4 := seriesLoc_ok hb
  obtain ⟨⟨⟨c, t1, n1, n2⟩, x⟩, h5, h6⟩ := List.mem_map.mp h3
  obtain ⟨⟨⟨c', t1', n1', n2'⟩, x'⟩, h5', h6'⟩ := List.mem_map.mp h4
  have h7 := List.mem_filter.mp h5
  have h7' := List.mem_filter.mp h5'
  simp only [Bool.and_eq_true, decide_eq_true_eq, Prod.mk.injEq] at h6 h6' h7 h7'
  obtain ⟨h7, ⟨rfl, rfl⟩, rfl⟩ := h7
  obtain ⟨h7', rfl, rfl⟩ := h7'
  obtain ⟨rfl, _⟩ := h6
  obtain ⟨⟨rfl, rfl⟩, _⟩ := h6'
  exact ⟨List.mem_map.mpr ⟨_, h7, rfl⟩, List.mem_map.mpr ⟨_, h7', rfl⟩⟩

/-! ### quasi scores and scores -/

theorem averageOver_single {P : String → Prop} {V : String → Option ℝ → Prop} {v : String} {z : Option ℝ} (hP : ∀ w, P w ↔ w = v) (hz : V v z) : AverageOver P V z := by
  refine ⟨[v], fun _ => z, List.nodup_singleton v, fun w => by rw [List.mem_singleton, hP], fun w hw => ?_, ?_⟩
  · rw [List.mem_singleton.mp hw]
    exact hz
  · cases z <;> simp [average]

/-- **C74** (partial): if every requested latent factor has a single measurement in every requested period, and this measurement measures no other factor and has a positive loading, then quasi scores and scores have
the same correlations. Missing from the documented claim "The calculated scores coincide with factor scores for linear models": with several measurements it is false, see `C74_counterexample`. -/
theorem C74_quasi_scores_partial {m : ModelDict α} {pm : Processed α} (hpm : processModel m = .ok pm) {df : LongData ℝ} (hi : IndexOk df) (hu : NoUnusedPeriods df) {ids pers : List Int} (hids : IdsOf df ids)
    (hp : PeriodsOf df pers) {factorsArg : FactorsArg} {periodsArg : PeriodsArg} {latent observed : List String} {periods : List ℕ} (hf : RequestedFactors m factorsArg latent observed)
    (hne : latent ++ observed ≠ []) (hps : RequestedPeriods m periodsArg periods) (hd : CorrDataOk m df latent observed periods) {params : List (Loc × ℝ)} {val : Loc → ℝ}
    (hq : ScoreParams m params val periods)
    (hone : ∀ t ∈ periods, ∀ f ∈ latent, ∃ v, (∀ w, MeasurementOf m t w f ↔ w = v) ∧ DedicatedTo m t v f ∧ 0 < val ⟨.loadings, t, v, f⟩) :
    getQuasiScoresCorr df m factorsArg periodsArg = getScoresCorr df params m factorsArg periodsArg := by
  obtain ⟨out, h1, h2⟩ := C73_quasi_score_correlations hpm hi hu hids hp hf hne hps hd
  obtain ⟨out', h1', h2'⟩ := C59_score_correlations hpm hi hu hids hp hf hne hps hd hq
  rw [h1, h1']
  congr 1
  have hid : ∀ x : Fin ids.length → Option ℝ, x = fun i => (x i).map (fun v => 1 * v + 0) := fun x => by
    funext i
    cases x i <;> simp
  have hitem : ∀ k ∈ scoreItems latent observed periods, ∃ (x z : Fin ids.length → Option ℝ) (c d : ℝ), 0 < c ∧ (∀ i : Fin ids.length, k.ValueIs (QuasiScoreIs m df ids pers) df ids pers i (z i)) ∧
      (∀ i : Fin ids.length, k.ValueIs (ScoreIs m val df ids pers) df ids pers i ((x i).map (fun v => c * v + d))) ∧ (z = x ∨ z = standardized x) := by
    intro k hk
    rcases mem_scoreItems hk with ⟨t, ht, f, hf', rfl⟩ | ⟨t, _, f, _, rfl⟩
    · obtain ⟨v, hv1, hv2, hv3⟩ := hone t ht f hf'
      choose x hx using fun i : Fin ids.length => show ∃ w, CellIs df ids pers i t v w from ⟨_, (gridCell_cellIs hi hu hd.keys hids hp i.2).mpr rfl⟩
      have hded : ∀ w, DedicatedTo m t w f ↔ w = v := fun w => ⟨fun h => (hv1 w).mp h.1, fun h => h ▸ hv2⟩
      refine ⟨x, standardized x, (val ⟨.loadings, t, v, f⟩)⁻¹, -(val ⟨.controls, t, v, "constant"⟩ / val ⟨.loadings, t, v, f⟩), inv_pos.mpr hv3, fun i => ?_, fun i => ?_, Or.inr rfl⟩
      · show QuasiScoreIs m df ids pers i t f _
        unfold QuasiScoreIs
        exact averageOver_single hv1 ⟨i.2, x, hx, rfl⟩
      · show ScoreIs m val df ids pers i t f _
        unfold ScoreIs
        refine averageOver_single hded ⟨x i, hx i, ?_⟩
        congr 1
        funext w
        ring
    · choose x hx using fun i : Fin ids.length => h2.values _ hk i i.2
      refine ⟨x, x, 1, 0, one_pos, hx, fun i => ?_, Or.inl rfl⟩
      rw [← congrFun (hid x) i]
      exact hx i
  refine isCorrelationTable_unique h2 h2' (fun k hk l hl => ?_)
  obtain ⟨x, z, c, d, hc, hx, hx', hz⟩ := hitem k hk
  obtain ⟨y, w, c', d', hc', hy, hy', hw⟩ := hitem l hl
  refine ⟨z, w, _, _, hx, hy, hx', hy', ?_⟩
  rw [observedCorrelation_affine x y hc hc' d d']
  have e1 : ∀ u, observedCorrelation z u = observedCorrelation x u := fun u => by
    rcases hz with rfl | rfl
    · rfl
    · exact observedCorrelation_standardized x u
  have e2 : ∀ u, observedCorrelation w u = observedCorrelation y u := fun u => by
    rcases hw with rfl | rfl
    · rfl
    · exact observedCorrelation_standardized y u
  rw [e1, observedCorrelation_comm, e2, observedCorrelation_comm]

end Skill
