import Verif.Props.CorrelationExamples
import Verif.Props.CorrelationUnits
/- Errors of the functions for correlations (correlation_heatmap.py). -/
namespace Skill
open Spec
variable {α : Type} [OfScientific α] [Neg α] [Zero α] [One α] [OfNat α 2] [DecidableEq α]

/-- All errors are KeyErrors. -/
def OnlyKeyErrors {β : Type} (x : Py β) : Prop := ∀ e, x = .error e → e = .keyError

theorem OnlyKeyErrors.ok {β : Type} {b : β} : OnlyKeyErrors (.ok b : Py β) := by rintro e ⟨⟩

theorem OnlyKeyErrors.bind {β γ : Type} {x : Py β} {f : β → Py γ} (h : OnlyKeyErrors x) (hf : ∀ b, x = .ok b → OnlyKeyErrors (f b)) : OnlyKeyErrors (x >>= f) := by
  cases x with
  | error e =>
    rintro e' h'
    obtain rfl : e = e' := Except.error.inj h'
    exact h e rfl
  | ok b => exact hf b rfl

theorem OnlyKeyErrors.mapM {β γ : Type} {f : β → Py γ} {xs : List β} (h : ∀ x ∈ xs, OnlyKeyErrors (f x)) : OnlyKeyErrors (xs.mapM f) := by
  induction xs with
  | nil => exact OnlyKeyErrors.ok
  | cons x xs ih =>
    rw [List.mapM_cons]
    refine (h x List.mem_cons_self).bind (fun b _ => ?_)
    exact (ih (fun y hy => h y (List.mem_cons_of_mem _ hy))).bind (fun bs _ => OnlyKeyErrors.ok)

theorem periodInfo_keyErrors (u : List URow) (t : ℕ) : OnlyKeyErrors (periodInfo u t) := by
  unfold periodInfo
  split
  · rintro e ⟨⟩; rfl
  · exact OnlyKeyErrors.ok

theorem factorMeasurements_keyErrors (info : List URow) {f : String} (hf : IsQueryName f) : OnlyKeyErrors (factorMeasurements info f) := by
  unfold factorMeasurements
  rw [if_pos (by
    have := hf
    exact (queryName_iff f).mpr this)]
  exact OnlyKeyErrors.ok

theorem periodColumn_keyErrors (data : DataFrame ℝ) (t : ℕ) (c : String) : OnlyKeyErrors (periodColumn data t c) := by
  unfold periodColumn
  split_ifs
  · exact OnlyKeyErrors.ok
  · rintro e ⟨⟩; rfl

theorem namedColumn_keyErrors (data : DataFrame ℝ) (t : ℕ) (c : String) : OnlyKeyErrors (namedColumn data t c) :=
  (periodColumn_keyErrors data t c).bind (fun _ _ => OnlyKeyErrors.ok)

theorem seriesLoc_keyErrors {κ : Type} [DecidableEq κ] (series : List (κ × ℝ)) (key : κ) : OnlyKeyErrors (seriesLoc series key) := by
  unfold seriesLoc
  split
  · exact OnlyKeyErrors.ok
  · rintro e ⟨⟩; rfl

theorem concatColumns_keyErrors {cs : Frame} (h : cs ≠ []) : OnlyKeyErrors (concatColumns cs) := by
  rw [concatColumns_ok h]
  exact OnlyKeyErrors.ok

theorem frameOfPeriods_keyErrors {single : ℕ → Py Frame} {ps : List ℕ} (hne : ps ≠ []) (h : ∀ t ∈ ps, OnlyKeyErrors (single t)) : OnlyKeyErrors (frameOfPeriods single ps) := by
  unfold frameOfPeriods
  split
  · exact absurd rfl hne
  · exact h _ (by simp)
  · exact (OnlyKeyErrors.mapM (fun t ht => (h t ht).bind (fun _ _ => OnlyKeyErrors.ok))).bind (fun _ _ => OnlyKeyErrors.ok)

theorem measurementDataSingle_keyErrors (data : DataFrame ℝ) (u : List URow) {latent : List String} (hl : ∀ f ∈ latent, IsQueryName f) (observed : List String) (t : ℕ) :
    OnlyKeyErrors (measurementDataSingle data u latent observed t) :=
  (periodInfo_keyErrors u t).bind (fun info _ => (OnlyKeyErrors.mapM (fun f hf => factorMeasurements_keyErrors info (hl f hf))).bind (fun _ _ => OnlyKeyErrors.mapM (fun c _ => namedColumn_keyErrors data t c)))

theorem mapM_ne_nil {β γ : Type} {f : β → Py γ} {xs : List β} {ys : List γ} (h : xs.mapM f = .ok ys) (hne : xs ≠ []) : ys ≠ [] := by
  rintro rfl
  have := ((mapM_ok_iff _ _ _).mp h).length_eq
  exact hne (List.length_eq_zero_iff.mp this)

theorem append_ne_nil {β γ : Type} {f : β → Py γ} {g : β → Py γ} {xs ys : List β} {a b : List γ} (h : xs.mapM f = .ok a) (h' : ys.mapM g = .ok b) (hne : xs ++ ys ≠ []) : a ++ b ≠ [] := by
  intro e
  rw [List.append_eq_nil_iff] at e
  by_cases hx : xs = []
  · by_cases hy : ys = []
    · exact hne (by rw [hx, hy]; rfl)
    · exact mapM_ne_nil h' hy e.2
  · exact mapM_ne_nil h hx e.1

theorem quasiScoresSingle_keyErrors (data : DataFrame ℝ) (u : List URow) {latent observed : List String} (hl : ∀ f ∈ latent, IsQueryName f) (hne : latent ++ observed ≠ []) (t : ℕ) :
    OnlyKeyErrors (quasiScoresSingle data u latent observed t) := by
  refine (periodInfo_keyErrors u t).bind (fun info _ => OnlyKeyErrors.bind (OnlyKeyErrors.mapM (fun f hf => ?_)) (fun scores hs => (OnlyKeyErrors.mapM (fun c _ => namedColumn_keyErrors data t c)).bind (fun obs ho => ?_)))
  · exact (factorMeasurements_keyErrors info (hl f hf)).bind (fun _ _ => (OnlyKeyErrors.mapM (fun c _ => periodColumn_keyErrors data t c)).bind (fun _ _ => OnlyKeyErrors.ok))
  · exact concatColumns_keyErrors (append_ne_nil hs ho hne)

theorem scoresSingle_keyErrors (data : DataFrame ℝ) (params : List (Loc × ℝ)) (u : List URow) {latent observed : List String} (hl : ∀ f ∈ latent, IsQueryName f) (hne : latent ++ observed ≠ []) (t : ℕ) :
    OnlyKeyErrors (scoresSingle data params u latent observed t) := by
  refine (periodInfo_keyErrors u t).bind (fun info _ => ?_)
  dsimp only
  split
  · rintro e ⟨⟩; rfl
  refine OnlyKeyErrors.bind (OnlyKeyErrors.mapM (fun f hf => ?_)) (fun scores hs => (OnlyKeyErrors.mapM (fun c _ => namedColumn_keyErrors data t c)).bind (fun obs ho => ?_))
  · refine (factorMeasurements_keyErrors info (hl f hf)).bind (fun _ _ => OnlyKeyErrors.bind (OnlyKeyErrors.mapM (fun c _ => ?_)) (fun _ _ => OnlyKeyErrors.ok))
    exact (periodColumn_keyErrors data t c).bind (fun _ _ => (seriesLoc_keyErrors _ _).bind (fun _ _ => (seriesLoc_keyErrors _ _).bind (fun _ _ => OnlyKeyErrors.ok)))
  · exact concatColumns_keyErrors (append_ne_nil hs ho hne)

/-- A result that is not successful and has only KeyErrors. -/
theorem OnlyKeyErrors.error {β : Type} {x : Py β} (h : OnlyKeyErrors x) (hn : ∀ b, x ≠ .ok b) : x = .error .keyError := by
  cases x with
  | error e => rw [h e rfl]
  | ok b => exact absurd rfl (hn b)

theorem namedColumn_mem {data : DataFrame ℝ} {t : ℕ} {c : String} {x : String × List FVal} (h : namedColumn data t c = .ok x) : c ∈ data.columns := by
  unfold namedColumn periodColumn at h
  split_ifs at h with hc
  · exact hc
  · cases h

theorem periodColumn_mem {data : DataFrame ℝ} {t : ℕ} {c : String} {x : List FVal} (h : periodColumn data t c = .ok x) : c ∈ data.columns := by
  unfold periodColumn at h
  split_ifs at h with hc
  exact hc

/-- A column that is needed is not in the dataset: a measurement of a requested factor in a requested period or a requested observed factor. -/
def Spec.ColumnMissing {α : Type} (m : ModelDict α) (df : LongData ℝ) (latent observed : List String) (periods : List ℕ) : Prop :=
  (∃ t ∈ periods, ∃ f ∈ latent, ∃ v, MeasurementOf m t v f ∧ v ∉ df.columns) ∨ (periods ≠ [] ∧ ∃ f ∈ observed, f ∉ df.columns)

/-- **C72**, **C73** and **C59** (errors): for a dataset in which no individual has two rows for one period, requested factors with the names of variables and at least one requested factor and period, all errors are
KeyErrors. There is one in all tables of correlations of measurements and quasi scores if a column is missing, and in those of scores if the intercept or the loading of a measurement is missing that has no nonzero loading
on another factor. -/
theorem C72_errors {m : ModelDict α} {pm : Processed α} (hpm : processModel m = .ok pm) {df : LongData ℝ} (hi : IndexOk df) {ids : List Int} (hids : IdsOf df ids) (hkeys : UniqueKeys df)
    {factorsArg : FactorsArg} {periodsArg : PeriodsArg} {latent observed : List String} {periods : List ℕ} (hf : RequestedFactors m factorsArg latent observed) (hps : RequestedPeriods m periodsArg periods)
    (hne : periods ≠ []) (hsome : latent ++ observed ≠ []) (hnames : ∀ f ∈ latent, IsQueryName f) :
    (∀ e, getMeasurementsCorr df m factorsArg periodsArg = .error e → e = .keyError) ∧ (∀ e, getQuasiScoresCorr df m factorsArg periodsArg = .error e → e = .keyError) ∧
    (∀ params e, getScoresCorr df params m factorsArg periodsArg = .error e → e = .keyError) ∧
    (ColumnMissing m df latent observed periods → getMeasurementsCorr df m factorsArg periodsArg = .error .keyError ∧ getQuasiScoresCorr df m factorsArg periodsArg = .error .keyError) ∧
    ∀ params : List (Loc × ℝ), (params.map Prod.fst).Nodup → (∃ t ∈ periods, ∃ f ∈ latent, ∃ v, MeasurementOf m t v f ∧ (∀ g x, ((⟨.loadings, t, v, g⟩ : Loc), x) ∈ params → g = f ∨ x = 0) ∧
      ¬((⟨.controls, t, v, "constant"⟩ : Loc) ∈ params.map Prod.fst ∧ (⟨.loadings, t, v, f⟩ : Loc) ∈ params.map Prod.fst)) → getScoresCorr df params m factorsArg periodsArg = .error .keyError := by
  have e1 : getMeasurementsCorr df m factorsArg periodsArg = (do
      let frame ← frameOfPeriods (measurementDataSingle (gridData df ids periods) pm.updateInfo latent observed) periods
      pure (corrOf frame)) := by
    unfold getMeasurementsCorr
    rw [hpm]
    show (preProcessData df (processPeriods pm.dimensions periodsArg) >>= _) = _
    rw [processPeriods_ok hpm hps, preProcess_eq periods hi hids hkeys]
    show (processFactors pm.labels factorsArg >>= _) = _
    rw [processFactors_ok hpm hf]
    rfl
  have e2 : getQuasiScoresCorr df m factorsArg periodsArg = (do
      let frame ← frameOfPeriods (quasiScoresSingle (gridData df ids periods) pm.updateInfo latent observed) periods
      pure (corrOf frame)) := by
    unfold getQuasiScoresCorr
    rw [hpm]
    show (preProcessData df (processPeriods pm.dimensions periodsArg) >>= _) = _
    rw [processPeriods_ok hpm hps, preProcess_eq periods hi hids hkeys]
    show (processFactors pm.labels factorsArg >>= _) = _
    rw [processFactors_ok hpm hf]
    rfl
  have e3 : ∀ params, getScoresCorr df params m factorsArg periodsArg = if params.all (fun lx => decide (lx.1.cat ≠ .controls)) || params.all (fun lx => decide (lx.1.cat ≠ .loadings)) then .error .keyError else (do
      let frame ← frameOfPeriods (scoresSingle (gridData df ids periods) params pm.updateInfo latent observed) periods
      pure (corrOf frame)) := by
    intro params
    unfold getScoresCorr
    rw [hpm]
    show (preProcessData df (processPeriods pm.dimensions periodsArg) >>= _) = _
    rw [processPeriods_ok hpm hps, preProcess_eq periods hi hids hkeys]
    show (processFactors pm.labels factorsArg >>= _) = _
    rw [processFactors_ok hpm hf]
    rfl
  have k1 : OnlyKeyErrors (getMeasurementsCorr df m factorsArg periodsArg) := by
    rw [e1]
    exact (frameOfPeriods_keyErrors hne (fun t _ => measurementDataSingle_keyErrors _ _ hnames _ t)).bind (fun _ _ => OnlyKeyErrors.ok)
  have k2 : OnlyKeyErrors (getQuasiScoresCorr df m factorsArg periodsArg) := by
    rw [e2]
    exact (frameOfPeriods_keyErrors hne (fun t _ => quasiScoresSingle_keyErrors _ _ hnames hsome t)).bind (fun _ _ => OnlyKeyErrors.ok)
  have k3 : ∀ params, OnlyKeyErrors (getScoresCorr df params m factorsArg periodsArg) := by
    intro params
    rw [e3]
    split
    · rintro e ⟨⟩; rfl
    · exact (frameOfPeriods_keyErrors hne (fun t _ => scoresSingle_keyErrors _ _ _ hnames hsome t)).bind (fun _ _ => OnlyKeyErrors.ok)
  have hmem : ∀ {t : ℕ} {f v : String} {info : List URow} {meas : List String}, MeasurementOf m t v f → periodInfo pm.updateInfo t = .ok info → factorMeasurements info f = .ok meas → v ∈ meas := by
    intro t f v info meas hv hinfo hmeas
    unfold factorMeasurements at hmeas
    split at hmeas
    · rw [periodInfo_ok hpm ⟨v, Or.inl ⟨f, hv.1⟩⟩] at hinfo
      rw [← Except.ok.inj hmeas, ← Except.ok.inj hinfo]
      exact (mem_measurementNames hpm t f v).mpr hv
    · cases hmeas
  have hcol : (gridData df ids periods).columns = df.columns := rfl
  refine ⟨k1, k2, k3, fun hmiss => ⟨k1.error (fun b hb => ?_), k2.error (fun b hb => ?_)⟩, fun params hn hmiss => (k3 params).error (fun b hb => ?_)⟩
  · rw [e1] at hb
    obtain ⟨frame, hframe, _⟩ := py_bind_ok.mp hb
    have key : ∀ t ∈ periods, (∀ f ∈ latent, ∀ v, MeasurementOf m t v f → v ∈ df.columns) ∧ ∀ f ∈ observed, f ∈ df.columns := by
      intro t ht
      obtain ⟨frame', h1⟩ := frameOfPeriods_single hframe ht
      unfold measurementDataSingle at h1
      simp only [py_bind_ok] at h1
      obtain ⟨info, hinfo, meas, hmeas, h1⟩ := h1
      rw [mapM_ok_iff] at hmeas h1
      refine ⟨fun f hfl v hv => ?_, fun f hfo => ?_⟩
      · obtain ⟨y, hy, hfy⟩ := forall₂_mem hmeas hfl
        obtain ⟨z, _, hz⟩ := forall₂_mem h1 (List.mem_append_left observed (List.mem_flatten.mpr ⟨y, hy, hmem hv hinfo hfy⟩))
        exact namedColumn_mem hz
      · obtain ⟨z, _, hz⟩ := forall₂_mem h1 (List.mem_append_right _ hfo)
        exact namedColumn_mem hz
    rcases hmiss with ⟨t, ht, f, hfl, v, hv, hno⟩ | ⟨_, f, hfo, hno⟩
    · exact hno ((key t ht).1 f hfl v hv)
    · obtain ⟨t, ht⟩ := List.exists_mem_of_ne_nil _ hne
      exact hno ((key t ht).2 f hfo)
  · rw [e2] at hb
    obtain ⟨frame, hframe, _⟩ := py_bind_ok.mp hb
    have key : ∀ t ∈ periods, (∀ f ∈ latent, ∀ v, MeasurementOf m t v f → v ∈ df.columns) ∧ ∀ f ∈ observed, f ∈ df.columns := by
      intro t ht
      obtain ⟨frame', h1⟩ := frameOfPeriods_single hframe ht
      unfold quasiScoresSingle at h1
      simp only [py_bind_ok, mapM_ok_iff] at h1
      obtain ⟨info, hinfo, scores, hs, obs, ho, _⟩ := h1
      refine ⟨fun f hfl v hv => ?_, fun f hfo => ?_⟩
      · obtain ⟨_, _, meas, hmeas, cols, hcols, _⟩ := forall₂_mem hs hfl
        obtain ⟨z, _, hz⟩ := forall₂_mem hcols (hmem hv hinfo hmeas)
        exact periodColumn_mem hz
      · obtain ⟨z, _, hz⟩ := forall₂_mem ho hfo
        exact namedColumn_mem hz
    rcases hmiss with ⟨t, ht, f, hfl, v, hv, hno⟩ | ⟨_, f, hfo, hno⟩
    · exact hno ((key t ht).1 f hfl v hv)
    · obtain ⟨t, ht⟩ := List.exists_mem_of_ne_nil _ hne
      exact hno ((key t ht).2 f hfo)
  · obtain ⟨t, ht, f, hfl, v, hv, hother, hno⟩ := hmiss
    exact hno (C59_parameters_needed hpm hf hps hn hb ht hfl hv hother)

namespace Ex

/-- Without the column w there are no correlations of measurements and quasi scores. With it there are. -/
theorem C72_errors_example : (∃ out, getMeasurementsCorr linearData linearModel .all .all = .ok out) ∧
    getMeasurementsCorr { linearData with columns := ["y1", "y2", "x", "o"] } linearModel .all .all = .error .keyError ∧
    getQuasiScoresCorr { linearData with columns := ["y1", "y2", "x", "o"] } linearModel .all .all = .error .keyError := by
  obtain ⟨pm, hpm, _⟩ := linearModel_ok
  obtain ⟨out, _, h, _⟩ := C72_measurement_correlations hpm linearData_index.1 linearData_index.2.1 linearData_ids.1 linearData_ids.2 linearModel_all.1 linearModel_all.2 linearData_corr
  refine ⟨⟨out, h⟩, (C72_errors hpm (df := { linearData with columns := ["y1", "y2", "x", "o"] }) ⟨linearData_index.1.1, linearData_index.1.2, linearData_index.1.3, linearData_index.1.4⟩ linearData_ids.1
    linearData_index.2.2 linearModel_all.1 linearModel_all.2 (by simp) (by simp) linearData_corr.names).2.2.2.1 (Or.inl ⟨0, by simp, "b", by simp, "w", ?_, by simp⟩)⟩
  exact (linearModel_measurementOf 0 "w" "b").mpr ((linearModel_measures 0 "w" "b").mpr ⟨by norm_num, Or.inr ⟨rfl, rfl⟩⟩)

end Ex
end Skill
