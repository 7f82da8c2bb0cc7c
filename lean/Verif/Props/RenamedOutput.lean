import Verif.Props.Renaming
import Verif.Lemmas.RenamedOutput
/-
C112: filtered states, debug data and simulated data do not depend on names.
-/
namespace Skill
open Spec

section
variable {ρ : Equiv.Perm String}

/-- The values of the labels. -/
def lookupValues {β : Type} (params : List (Loc × β)) (index : List Loc) : Py (List β) :=
  index.mapM (fun l => (match params.lookup l with
    | some x => .ok x
    | none => .error .keyError))

theorem anchorStatesDf_eq {m : ModelDict ℝ} {pm : Processed ℝ} (hpm : processModel m = .ok pm) {info : ParsingInfo} (hinfo : createParsingInfo pm.paramsIndex pm.updateInfo pm.labels pm.anchoring = .ok info) (df : StatesFrame ℝ)
    (params : List (Loc × ℝ)) : anchorStatesDf Real.log df m params = lookupValues params pm.paramsIndex >>= fun values => parseParams Real.log values info pm.dimensions pm.labels 1 >>= fun parsed =>
      anchorStates df pm.labels.latentFactors parsed.scalingFactors parsed.anchoringConstants := by
  unfold anchorStatesDf Processed.parse
  rw [hpm]
  simp only [ok_bind_except, hinfo]
  rfl

theorem lookup_zip {β : Type} {index : List Loc} (hn : index.Nodup) {values : List β} (hlen : values.length = index.length) :
    lookupValues (index.zip values) index = .ok values := by
  unfold lookupValues
  rw [mapM_ok_iff]
  rw [List.forall₂_iff_get]
  refine ⟨hlen.symm, fun i h1 h2 => ?_⟩
  have hmem : (index.get ⟨i, h1⟩, values.get ⟨i, h2⟩) ∈ index.zip values := by
    rw [List.mem_iff_getElem]
    exact ⟨i, by simpa using ⟨h1, h2⟩, by simp⟩
  have hk : ((index.zip values).map Prod.fst).Nodup := by rw [List.map_fst_zip (by omega)]; exact hn
  rw [lookup_of_mem hk hmem]

theorem locParams_zip {β : Type} {index : List Loc} (hn : index.Nodup) {values : List β} (hlen : values.length = index.length) : locParams (index.zip values) index = .ok (index.zip values) := by
  have h := lookup_zip hn hlen
  unfold locParams
  unfold lookupValues at h
  rw [mapM_ok_iff] at h ⊢
  rw [List.forall₂_iff_get] at h ⊢
  refine ⟨by simp [hlen], fun i h1 h2 => ?_⟩
  have := h.2 i h1 (by omega)
  split at this
  · next x hx =>
    rw [hx]
    simp only [List.get_eq_getElem, List.getElem_zip] at this ⊢
    rw [Except.ok.inj this]
  · cases this

theorem reindexParams_zip (nan : ℝ) {index : List Loc} {values : List ℝ} (hlen : values.length = index.length) : reindexParams nan (index.zip values) index = .ok values := by
  unfold reindexParams
  rw [if_pos (List.map_fst_zip (by omega)), List.map_snd_zip (by omega)]

theorem parsingInfo_exists {m : ModelDict ℝ} (hq : ∀ f, IsLatent m f → querySafe f) {pm : Processed ℝ} (hpm : processModel m = .ok pm) :
    ∃ info, createParsingInfo pm.paramsIndex pm.updateInfo pm.labels pm.anchoring = .ok info := by
  unfold createParsingInfo
  obtain ⟨tr, htr⟩ := mapM_exists (f := fun f => do
    let pos ← selectTransition pm.paramsIndex f
    pure (f, pos)) (xs := pm.labels.latentFactors) (fun f hf => by
      rw [(labels_of_ok hpm).1] at hf
      obtain ⟨fs, h1, rfl⟩ := List.mem_map.mp hf
      unfold selectTransition
      rw [if_pos (hq fs.1 ⟨fs.2, h1⟩)]
      exact ⟨_, rfl⟩)
  rw [htr]
  exact ⟨_, rfl⟩

theorem latent_rename {m : ModelDict ℝ} (hq : ∀ f, IsLatent m f → querySafe (ρ f)) : ∀ f, IsLatent (renameModel ρ m) f → querySafe f := by
  rintro f ⟨spec, h⟩
  obtain ⟨fs, h1, h2⟩ := List.mem_map.mp h
  rw [Prod.mk.injEq] at h2
  rw [← h2.1]
  exact hq fs.1 ⟨fs.2, h1⟩

theorem anchorStatesDf_rename {m : ModelDict ℝ} (h : RenamingOk ρ m) {pm pm' : Processed ℝ} (hpm : processModel m = .ok pm) (hpm' : processModel (renameModel ρ m) = .ok pm') (df : StatesFrame ℝ) {values : List ℝ}
    (hlen : values.length = pm.paramsIndex.length) :
    anchorStatesDf Real.log (renameStates ρ df) (renameModel ρ m) (pm'.paramsIndex.zip values) = (anchorStatesDf Real.log df m (pm.paramsIndex.zip values)).map (renameStates ρ) := by
  have hr := processed_rename h.reserved hpm hpm'
  have hn := C06_index_unique_partial hpm h.names
  have hn' := C06_index_unique_partial hpm' h.names'
  obtain ⟨info, hinfo⟩ := parsingInfo_exists h.query hpm
  obtain ⟨info', hinfo'⟩ := parsingInfo_exists (latent_rename h.query') hpm'
  have hlen' : values.length = pm'.paramsIndex.length := by rw [hlen, (index_labels h.reserved hpm hpm').length_eq]
  rw [anchorStatesDf_eq hpm hinfo, anchorStatesDf_eq hpm' hinfo', lookup_zip hn hlen, lookup_zip hn' hlen']
  simp only [ok_bind_except, parsingInfo_rename hr hn hn' hinfo hinfo', hr.dimensions, parseParams_rename Real.log values info pm.dimensions hr.labels,
    map_bind_except, bind_map_except, hr.labels.latentFactors, anchorStates_rename]

/-- C112: with other names, `debug_loglike` returns the same numbers with the other names. -/
theorem C112_debug {m : ModelDict ℝ} (h : RenamingOk ρ m) {df : LongData ℝ} {inputs inputs' : MaximizationInputs} (hin : getMaximizationInputs m df = .ok inputs)
    (hin' : getMaximizationInputs (renameModel ρ m) (renameData ρ df) = .ok inputs') (qr : QR) (custom : String → CustomFn) (nan : ℝ) {values : List ℝ} (hlen : values.length = inputs.index.length) :
    inputs'.debugLoglike qr (renameCustom ρ custom) nan (renameModel ρ m) (inputs'.index.zip values) = (inputs.debugLoglike qr custom nan m (inputs.index.zip values)).map (renameDebug ρ) := by
  obtain ⟨inputs'', h1, h2, h3, h4⟩ := inputs_rename ρ h.reserved h.names h.names' h.query' hin
  obtain rfl := Except.ok.inj (hin'.symm.trans h1)
  unfold MaximizationInputs.debugLoglike
  refine h4 (renameDebug ρ) _ _ (fun nObs nMix n r => ?_) qr custom nan values hlen
  rw [h3.updateInfo, h3.labels.latentFactors, processDebugData_rename h.id h.period]

/-- C112: with other names, `get_filtered_states` returns the same numbers with the other names. -/
theorem C112_filtered {m : ModelDict ℝ} (h : RenamingOk ρ m) {df : LongData ℝ} {inputs inputs' : MaximizationInputs} (hin : getMaximizationInputs m df = .ok inputs)
    (hin' : getMaximizationInputs (renameModel ρ m) (renameData ρ df) = .ok inputs') (qr : QR) (custom : String → CustomFn) (nan : ℝ) {values : List ℝ} (hlen : values.length = inputs.index.length) :
    getFilteredStates qr (renameCustom ρ custom) nan (renameModel ρ m) (renameData ρ df) (inputs'.index.zip values) =
      (getFilteredStates qr custom nan m df (inputs.index.zip values)).map (renameFiltered ρ) := by
  have hd := C112_debug h hin hin' qr custom nan hlen
  have key : ∀ {m : ModelDict ℝ} {df : LongData ℝ} {inputs : MaximizationInputs}, GoodNames m → getMaximizationInputs m df = .ok inputs →
      ∃ pm, processModel m = .ok pm ∧ inputs.index = pm.paramsIndex ∧ inputs.template.map Prod.fst = pm.paramsIndex := by
    intro m df inputs hg hin
    unfold getMaximizationInputs at hin
    simp only [py_bind_ok, py_pure_ok] at hin
    obtain ⟨pm, hpm, info, hinfo, data, hdata, cs, hcs, rfl⟩ := hin
    exact ⟨pm, hpm, rfl, by simp [Processed.paramsTemplate, addBounds, Function.comp_def]⟩
  obtain ⟨pm, hpm, hix, htp⟩ := key h.names hin
  obtain ⟨pm', hpm', hix', htp'⟩ := key h.names' hin'
  have hr := processed_rename h.reserved hpm hpm'
  have hn := C06_index_unique_partial hpm h.names
  have hn' := C06_index_unique_partial hpm' h.names'
  rw [hix] at hlen
  have hlen' : values.length = pm'.paramsIndex.length := by rw [hlen, (index_labels h.reserved hpm hpm').length_eq]
  rw [hix, hix'] at hd ⊢
  unfold getFilteredStates
  rw [hin, hin', hpm, hpm']
  simp only [ok_bind_except, htp, htp', locParams_zip hn hlen, locParams_zip hn' hlen', hd, map_bind_except, bind_map_except]
  refine bind_congr fun d => ?_
  have e : (renameDebug ρ d).filteredStates = renameStates ρ d.filteredStates := rfl
  rw [e, anchorStatesDf_rename h hpm hpm' _ hlen, map_bind_except, hr.labels.latentFactors]
  refine bind_congr fun a => ?_
  rw [stateRanges_rename]
  rfl

/-- C112: with other names, `simulate_dataset` returns the same numbers with the other names, for the same random draws. -/
theorem C112_simulated {m : ModelDict ℝ} (h : RenamingOk ρ m) {pm pm' : Processed ℝ} (hpm : processModel m = .ok pm) (hpm' : processModel (renameModel ρ m) = .ok pm') (root : NormalRoot) (custom : String → CustomFn) (nan : ℝ)
    {values : List ℝ} (hlen : values.length = pm.paramsIndex.length) (nObs : Option ℕ) (data : Option (LongData ℝ)) (policies : List Policy) (draws : DatasetDraws) :
    simulateDataset root (renameCustom ρ custom) nan (renameModel ρ m) (pm'.paramsIndex.zip values) nObs (data.map (renameData ρ)) (policies.map (renamePolicy ρ)) draws =
      (simulateDataset root custom nan m (pm.paramsIndex.zip values) nObs data policies draws).map (renameSimulated ρ) := by
  have hr := processed_rename h.reserved hpm hpm'
  have hn := C06_index_unique_partial hpm h.names
  have hn' := C06_index_unique_partial hpm' h.names'
  obtain ⟨info, hinfo⟩ := parsingInfo_exists h.query hpm
  obtain ⟨info', hinfo'⟩ := parsingInfo_exists (latent_rename h.query') hpm'
  have hlen' : values.length = pm'.paramsIndex.length := by rw [hlen, (index_labels h.reserved hpm hpm').length_eq]
  have hnone : (data.map (renameData ρ)).isNone = data.isNone := by cases data <;> rfl
  have hobs : (pm.labels.observedFactors.map ρ ≠ []) ↔ (pm.labels.observedFactors ≠ []) := by simp
  have hctl : (pm.labels.controls.map ρ ≠ ["constant"]) ↔ (pm.labels.controls ≠ ["constant"]) := by
    rw [not_iff_not]
    have : ["constant"] = ["constant"].map ρ := by simp [h.reserved.constant]
    conv_lhs => rw [this]
    exact (List.map_injective_iff.mpr ρ.injective).eq_iff
  have hdat : simulationData pm' nObs (data.map (renameData ρ)) = simulationData pm nObs data := by
    unfold simulationData
    cases data with
    | none => simp only [Option.map_none, hr.dimensions]
    | some df =>
      simp only [Option.map_some]
      rw [hr.anchoring, hr.updateInfo, processData_rename df pm.updateInfo hr.labels pm.anchoring .simulation h.reserved.constant (fun f o hfo => h.reserved.anchors f o (anchoredIn_of_getItem hpm hfo))]
  have hlat : pm.dimensions.nLatentFactors = pm.labels.latentFactors.length := by rw [(labels_of_ok hpm).1]; exact (dims_of_ok hpm).1
  unfold simulateDataset
  rw [hnone, hpm, hpm']
  simp only [ok_bind_except, hr.labels.observedFactors, hr.labels.controls, hobs, hctl]
  split
  · rfl
  split
  · rfl
  split
  · rfl
  rw [hdat, bind_map_except]
  refine bind_congr fun d => ?_
  obtain ⟨n, controls, observed⟩ := d
  simp only [reindexParams_zip nan hlen, reindexParams_zip nan hlen', ok_bind_except, hinfo, hinfo', parsingInfo_rename hr hn hn' hinfo hinfo', hr.dimensions, parseParams_rename Real.log values info pm.dimensions hr.labels, map_bind_except, bind_map_except]
  refine bind_congr fun p => ?_
  unfold simulateProcessed
  dsimp only
  have hdim := hr.dimensions
  generalize pm'.dimensions = d' at hdim ⊢
  subst hdim
  simp only [hr.options, hr.updateInfo, hr.labels.latentFactors, hr.labels.allFactors]
  rw [simulateArrays_rename root custom m n _ _ _ _ _ nan _ _ hlat, map_bind_except, bind_map_except]
  refine bind_congr fun sims => ?_
  rw [stateRows_rename, filteredFrame_rename h.id h.period, anchorStatesDf_rename h hpm hpm' _ hlen, map_bind_except, bind_map_except]
  refine bind_congr fun a => ?_
  rw [stateRanges_rename, stateRanges_rename, measurementFrame_rename]
  rfl

end
end Skill
