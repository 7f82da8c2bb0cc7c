import Verif.Spec.AnchoringData
import Verif.Props.FilteredStates
/-
C88: the values of anchoring outcomes do not influence the filtered states.
-/
namespace Skill
open Spec

theorem kept_congr {m : ModelDict ℝ} {r r' : Option (LongRow ℝ)} {t : ℕ} (h : IncompleteControls m r t ↔ IncompleteControls m r' t) {v w w' : Option ℝ} (hw : Kept m r t v w) (hw' : Kept m r' t v w') : w = w' := by
  rcases hw with ⟨h1, rfl⟩ | ⟨h1, rfl⟩ <;> rcases hw' with ⟨h2, rfl⟩ | ⟨h2, rfl⟩
  · rfl
  · exact absurd (h.mp h1) h2
  · exact absurd (h.mpr h2) h1
  · rfl

theorem incomplete_iff {m : ModelDict ℝ} {r r' : Option (LongRow ℝ)} {t : ℕ} (h1 : ∀ c, UsedVariable m c → ∀ v, ValueIs m r c v ↔ ValueIs m r' c v)
    (h2 : (∃ c ∈ "constant" :: m.controls.getD [], ValueIs m r c none) → ∀ f o, AnchoredIn m f o → (baseValue r o = none ↔ baseValue r' o = none)) : IncompleteControls m r t ↔ IncompleteControls m r' t := by
  have key : (∃ c ∈ "constant" :: m.controls.getD [], ValueIs m r c none) → ∀ w, IsUpdate m t w → ((∃ y, ValueIs m r w (some y)) ↔ ∃ y, ValueIs m r' w (some y)) := by
    rintro hmiss w hw
    by_cases hM : IsMeasurement m t w
    · exact exists_congr (fun y => h1 w (Or.inl ⟨t, hM⟩) (some y))
    have hA : ∃ f, Anchors m w f := by
      rcases hw with hM' | ⟨_, hA⟩
      · exact absurd hM' hM
      · exact hA
    have one : ∀ s s' : Option (LongRow ℝ), (∀ f o, AnchoredIn m f o → (baseValue s o = none ↔ baseValue s' o = none)) → (∃ y, ValueIs m s w (some y)) → ∃ y, ValueIs m s' w (some y) := by
      rintro s s' h ⟨y, hy⟩
      rcases hy with ⟨f, o, hfo, rfl, hy⟩ | ⟨hn, _⟩
      · have : baseValue s' o ≠ none := fun h0 => by
          rw [(h f o hfo).mpr h0] at hy
          cases hy
        obtain ⟨y', hy'⟩ := Option.ne_none_iff_exists'.mp this
        exact ⟨y', Or.inl ⟨f, o, hfo, rfl, hy'.symm⟩⟩
      · exact absurd hA hn
    exact ⟨one r r' (h2 hmiss), one r' r (fun f o h => (h2 hmiss f o h).symm)⟩
  unfold IncompleteControls
  have hcon : (∃ c ∈ "constant" :: m.controls.getD [], ValueIs m r c none) ↔ ∃ c ∈ "constant" :: m.controls.getD [], ValueIs m r' c none :=
    exists_congr (fun c => and_congr_right (fun hc => h1 c (Or.inr (Or.inl hc)) none))
  constructor
  · rintro ⟨hm, w, y, hw, hy⟩
    obtain ⟨y', hy'⟩ := (key hm w hw).mp ⟨y, hy⟩
    exact ⟨hcon.mp hm, w, y', hw, hy'⟩
  · rintro ⟨hm, w, y, hw, hy⟩
    obtain ⟨y', hy'⟩ := (key (hcon.mpr hm) w hw).mpr ⟨y, hy⟩
    exact ⟨hcon.mpr hm, w, y', hw, hy'⟩

/-- The frame of filtered states only depends on states and weights. -/
theorem createFilteredStates_congr {nObs nMix n : ℕ} {os os' : List (StepOut nObs nMix n)} (u : List URow) (hl : os.length = os'.length)
    (h : ∀ (j : ℕ) (o o' : StepOut nObs nMix n), os[j]? = some o → os'[j]? = some o' → o.states = o'.states ∧ o.logWeights = o'.logWeights) :
    createFilteredStates os u = createFilteredStates os' u := by
  have key : (fun (x : ℕ × ℕ) => (do
      let out ← pyIndex os x.1
      pure ((List.finRange nObs).map (fun i => ({ values := aggregate out.states out.logWeights i, period := x.2, id := i.val } : FilteredRow n))) : Py _)) = fun x => (do
      let out ← pyIndex os' x.1
      pure ((List.finRange nObs).map (fun i => ({ values := aggregate out.states out.logWeights i, period := x.2, id := i.val } : FilteredRow n)))) := by
    funext x
    unfold pyIndex
    by_cases hx : x.1 < os.length
    · have e1 := List.getElem?_eq_getElem hx
      have e2 := List.getElem?_eq_getElem (hl ▸ hx)
      obtain ⟨h1, h2⟩ := h _ _ _ e1 e2
      rw [e1, e2]
      show Except.ok _ = Except.ok _
      rw [h1, h2]
    · rw [List.getElem?_eq_none (by omega), List.getElem?_eq_none (by omega)]
  unfold createFilteredStates
  rw [key]

section
variable {m : ModelDict ℝ} {pm : Processed ℝ} (hpm : processModel m = .ok pm) (hg : GoodNames m) (hc : CleanAnchoring m) (ho : SameOrder m) (hclash : NoNameClash m) (hper : IsPeriod m 1) (hmix : HasNMixtures m 1)
  {df df' : LongData ℝ} (hi : IndexOk df) (hu : NoUnusedPeriods df) (hi' : IndexOk df') (hu' : NoUnusedPeriods df') {ids pers : List Int} (hids : IdsOf df ids) (hpers : PeriodsOf df pers)
  (hids' : IdsOf df' ids) (hpers' : PeriodsOf df' pers) (hsame : SameUpToOutcomes m df df' ids pers) {qr : QR} {custom : String → CustomFn} {nan : ℝ} {val : Loc → ℝ} 
include hpm hg hc ho hclash hper hmix hi hu hi' hu' hids hpers hids' hpers' hsame

/-- The states, weights and the contributions of measurements are the same for both datasets. -/
theorem evaluate_outcomes {γ γ' : Type} {post : (nObs nMix n : ℕ) → LoglikeResult nObs nMix n → Py γ} {post' : (nObs nMix n : ℕ) → LoglikeResult nObs nMix n → Py γ'} {inputs inputs' : MaximizationInputs}
    (hin : getMaximizationInputs m df = .ok inputs) (hin' : getMaximizationInputs m df' = .ok inputs') {params : List (Loc × ℝ)} (hn : (params.map Prod.fst).Nodup) (hval : ∀ l x, (l, x) ∈ params → x = val l) {out : γ}
    {out' : γ'} (h : inputs.evaluate post qr custom nan m params = .ok out) (h' : inputs'.evaluate post' qr custom nan m params = .ok out') :
    ∃ r r' : LoglikeResult ids.length pm.dimensions.nMixtures (nLat m), post ids.length pm.dimensions.nMixtures (nLat m) r = .ok out ∧ post' ids.length pm.dimensions.nMixtures (nLat m) r' = .ok out' ∧
      r.outs.length = pm.updateInfo.length ∧ r'.outs.length = pm.updateInfo.length ∧ r.allContributions = r.outs.map (fun o => o.loglikes) ∧ r'.allContributions = r'.outs.map (fun o => o.loglikes) ∧
      ∀ (j : ℕ) (u : URow) (o o' : StepOut ids.length pm.dimensions.nMixtures (nLat m)), pm.updateInfo[j]? = some u → r.outs[j]? = some o → r'.outs[j]? = some o' →
        o.states = o'.states ∧ o.logWeights = o'.logWeights ∧ (IsMeasurement m u.period u.var → o.loglikes = o'.loglikes) := by
  have hObs := length_of_controls hpm hper hclash hg hi hu hids hpers hin
  have hObs' := length_of_controls hpm hper hclash hg hi' hu' hids' hpers' hin'
  obtain ⟨pm1, nT, con, obs, data, r, hpm1, hT, hdata, hcon, hobs, hmeas, hr, hpost⟩ := evaluate_explicit hg hc ho hin hn hval h hObs
  obtain rfl := Except.ok.inj (hpm.symm.trans hpm1)
  obtain ⟨pm2, nT', con', obs', data', r', hpm2, hT', hdata', hcon', hobs', hmeas', hr', hpost'⟩ := evaluate_explicit hg hc ho hin' hn hval h' hObs'
  obtain rfl := Except.ok.inj (hpm.symm.trans hpm2)
  obtain rfl : nT = nT' := by omega
  obtain ⟨meas, hm1, _, _, _, harr⟩ := C27_data_arrays hpm hg.keys hclash hi hu hids hpers hdata
  obtain ⟨meas', hm1', _, _, _, harr'⟩ := C27_data_arrays hpm hg.keys hclash hi' hu' hids' hpers' hdata'
  rw [hm1, Option.getD_some] at hmeas
  rw [hm1', Option.getD_some] at hmeas'
  have hperiod : ∀ t : Fin (nT + 2), IsPeriod m t := fun t => (isPeriod_iff hpm t).mpr (by have := t.isLt; omega)
  obtain ⟨hu1, hu2, _, _, hu5⟩ := C01_update_info_exact hpm
  have hcons : con = con' := by
    funext t i j
    obtain ⟨s, hs⟩ := exists_rowOf df ids pers (t : ℕ) i.isLt
    obtain ⟨s', hs'⟩ := exists_rowOf df' ids pers (t : ℕ) i.isLt
    obtain ⟨e1, e2⟩ := hsame i t s s' i.isLt (hperiod t) hs hs'
    obtain ⟨v, hv⟩ := exists_valueIs m s (conName m j)
    obtain ⟨w, hw, hk⟩ := (harr i t s i.isLt (hperiod t) hs).2.1 j _ v (conName_get j) hv
    obtain ⟨w', hw', hk'⟩ := (harr' i t s' i.isLt (hperiod t) hs').2.1 j _ v (conName_get j) ((e1 _ (Or.inr (Or.inl (List.mem_of_getElem? (conName_get j)))) v).mp hv)
    obtain rfl := kept_congr (incomplete_iff e1 e2) hk hk'
    obtain ⟨x, hx, hx2⟩ := hcon t i j
    obtain ⟨x', hx', hx2'⟩ := hcon' t i j
    obtain rfl := Option.some.inj (hx.symm.trans hw)
    obtain rfl := Option.some.inj (hx'.symm.trans hw')
    rw [hx2, hx2']
  have hobss : obs = obs' := by
    funext t i j
    obtain ⟨s, hs⟩ := exists_rowOf df ids pers (t : ℕ) i.isLt
    obtain ⟨s', hs'⟩ := exists_rowOf df' ids pers (t : ℕ) i.isLt
    obtain ⟨e1, e2⟩ := hsame i t s s' i.isLt (hperiod t) hs hs'
    obtain ⟨v, hv⟩ := exists_valueIs m s (obsName m j)
    obtain ⟨w, hw, hk⟩ := (harr i t s i.isLt (hperiod t) hs).2.2 j _ v (obsName_get j) hv
    obtain ⟨w', hw', hk'⟩ := (harr' i t s' i.isLt (hperiod t) hs').2.2 j _ v (obsName_get j) ((e1 _ (Or.inr (Or.inr (List.mem_of_getElem? (obsName_get j)))) v).mp hv)
    obtain rfl := kept_congr (incomplete_iff e1 e2) hk hk'
    obtain ⟨x, hx, hx2⟩ := hobs t i j
    obtain ⟨x', hx', hx2'⟩ := hobs' t i j
    obtain rfl := Option.some.inj (hx.symm.trans hw)
    obtain rfl := Option.some.inj (hx'.symm.trans hw')
    rw [hx2, hx2']
  have hupd : ∀ (j : ℕ) (hj : j < pm.updateInfo.length), IsUpdate m pm.updateInfo[j].period pm.updateInfo[j].var := fun j hj => (hu2 _ _).mp ⟨_, List.getElem_mem hj, rfl, rfl⟩
  have hpurpose : ∀ (j : ℕ) (hj : j < pm.updateInfo.length), pm.updateInfo[j].purpose = .measurement ↔ IsMeasurement m pm.updateInfo[j].period pm.updateInfo[j].var := by
    intro j hj
    have h5 := hu5 _ (List.getElem_mem hj)
    constructor
    · intro h0
      rcases hupd j hj with hM | ⟨_, hA⟩
      · exact hM
      · rw [h0] at h5
        exact absurd (h5.mpr hA) (by simp)
    · rintro ⟨g, hM⟩
      cases hp : pm.updateInfo[j].purpose with
      | measurement => rfl
      | anchoring =>
        obtain ⟨f, hf⟩ := h5.mp hp
        exact absurd hM (hc.notMeasured _ _ _ _ hf)
  have hdatas : ∀ (j : ℕ) (hj : j < pm.updateInfo.length), IsMeasurement m pm.updateInfo[j].period pm.updateInfo[j].var → data ⟨j, hj⟩ = data' ⟨j, hj⟩ := by
    intro j hj hM
    funext i
    have ht := isUpdate_period (hupd j hj)
    obtain ⟨s, hs⟩ := exists_rowOf df ids pers pm.updateInfo[j].period i.isLt
    obtain ⟨s', hs'⟩ := exists_rowOf df' ids pers pm.updateInfo[j].period i.isLt
    obtain ⟨e1, e2⟩ := hsame i _ s s' i.isLt ht hs hs'
    obtain ⟨v, hv⟩ := exists_valueIs m s pm.updateInfo[j].var
    obtain ⟨w, hw, hk⟩ := (harr i _ s i.isLt ht hs).1 j _ v (List.getElem?_eq_getElem hj) rfl hv
    obtain ⟨w', hw', hk'⟩ := (harr' i _ s' i.isLt ht hs').1 j _ v (List.getElem?_eq_getElem hj) rfl ((e1 _ (Or.inl ⟨_, hM⟩) v).mp hv)
    obtain rfl := kept_congr (incomplete_iff e1 e2) hk hk'
    exact Option.some.inj (((hmeas ⟨j, hj⟩ i).symm.trans hw).trans (hw'.symm.trans (hmeas' ⟨j, hj⟩ i)))
  subst hcons
  subst hobss
  obtain ⟨h1, h2, _⟩ := logLikelihood_ok hr
  obtain ⟨h1', h2', _⟩ := logLikelihood_ok hr'
  have hk : pm.dimensions.nMixtures = 1 := ((hasNMixtures_of_ok hpm 1).mp hmix).symm
  have hget := fun (d : Fin pm.updateInfo.length → Fin ids.length → Option ℝ) (j : ℕ) (hj : j < pm.updateInfo.length) =>
    loopArgs_get (nT + 1) (rows := pm.updateInfo.map (labelRow m val)) (r := labelRow m val pm.updateInfo[j]) (by rw [List.getElem?_map, List.getElem?_eq_getElem hj]; rfl) (data := List.ofFn d) (y := d ⟨j, hj⟩)
      (by rw [List.getElem?_ofFn, dif_pos hj])
  refine ⟨r, r', hpost, hpost', by rw [h1, outs_length, loopArgs_length _ _ (by simp), List.length_map], by rw [h1', outs_length, loopArgs_length _ _ (by simp), List.length_map], h2, h2', fun j u o o' hu ho ho' => ?_⟩
  rw [h1] at ho
  rw [h1'] at ho'
  obtain ⟨k, hk1, hk2, hk3, hk4⟩ := outs_keep qr _ (Or.inl hk) _ ho
  obtain ⟨k', hk1', hk2', hk3', hk4'⟩ := outs_keep qr _ (Or.inl hk) _ ho'
  have hargs : (loopArgs (nT + 1) (pm.updateInfo.map (labelRow m val)) (List.ofFn data)).map (fun a => a.keep a.isMeasurement) =
      (loopArgs (nT + 1) (pm.updateInfo.map (labelRow m val)) (List.ofFn data')).map (fun a => a.keep a.isMeasurement) := by
    refine List.ext_getElem? (fun l => ?_)
    by_cases hl : l < pm.updateInfo.length
    · rw [List.getElem?_map, List.getElem?_map, hget data l hl, hget data' l hl]
      by_cases hp : pm.updateInfo[l].purpose = .measurement
      · rw [hdatas l hl ((hpurpose l hl).mp hp)]
      · simp [LoopArgs.keep, labelRow, hp]
    · rw [List.getElem?_eq_none (by rw [List.length_map, loopArgs_length _ _ (by simp), List.length_map]; omega),
        List.getElem?_eq_none (by rw [List.length_map, loopArgs_length _ _ (by simp), List.length_map]; omega)]
  rw [hargs, hk1'] at hk1
  obtain rfl := Option.some.inj hk1
  refine ⟨hk2.symm.trans hk2', hk3.symm.trans hk3', fun hM => ?_⟩
  obtain ⟨hj, rfl⟩ := List.getElem?_eq_some_iff.mp hu
  have e := hk4 _ (hget data j hj)
  have e' := hk4' _ (hget data' j hj)
  have hp := (hpurpose j hj).mpr hM
  simp only [labelRow, hp, decide_true, if_true] at e e'
  exact e.symm.trans e'

/-- C88: the values of anchoring outcomes influence neither the filtered states nor the likelihood contributions of measurements, if there is one mixture element. -/
theorem C88_outcomes_partial (qr : QR) (custom : String → CustomFn) (nan : ℝ) {params : List (Loc × ℝ)} (hn : (params.map Prod.fst).Nodup) :
    (∀ out out', getFilteredStates qr custom nan m df params = .ok out → getFilteredStates qr custom nan m df' params = .ok out' → out' = out) ∧
    ∀ inputs inputs' out out', getMaximizationInputs m df = .ok inputs → getMaximizationInputs m df' = .ok inputs' → inputs.loglike qr custom nan m params = .ok out → inputs'.loglike qr custom nan m params = .ok out' →
      ∃ updates, Enumerates m updates ∧ out.allContributions.length = updates.length ∧ out'.allContributions.length = updates.length ∧
        ∀ (j t : Nat) (v : String), updates[j]? = some (t, v) → IsMeasurement m t v → out'.allContributions[j]? = out.allContributions[j]? := by
  obtain ⟨hu1, hu2, _⟩ := C01_update_info_exact hpm
  have hval : ∀ l x, (l, x) ∈ params → x = (params.lookup l).getD 0 := fun l x h => by rw [lookup_of_mem hn h, Option.getD_some]
  constructor
  · intro out out' h h'
    unfold getFilteredStates at h h'
    simp only [py_bind_ok, py_pure_ok] at h h'
    obtain ⟨inputs, hin, ps, hloc, debug, hdebug, pm1, hpm1, anchored, hanchored, rfl⟩ := h
    obtain ⟨inputs', hin', ps', hloc', debug', hdebug', pm2, hpm2, anchored', hanchored', rfl⟩ := h'
    obtain rfl := Except.ok.inj (hpm.symm.trans hpm1)
    obtain rfl := Except.ok.inj (hpm.symm.trans hpm2)
    have e : inputs.model = pm ∧ inputs.template = pm.paramsTemplate := by
      have h0 := hin
      unfold getMaximizationInputs at h0
      simp only [py_bind_ok, py_pure_ok] at h0
      obtain ⟨pm', hpm', _, _, _, _, _, _, rfl⟩ := h0
      obtain rfl := Except.ok.inj (hpm.symm.trans hpm')
      exact ⟨rfl, rfl⟩
    have e' : inputs'.model = pm ∧ inputs'.template = pm.paramsTemplate := by
      have h0 := hin'
      unfold getMaximizationInputs at h0
      simp only [py_bind_ok, py_pure_ok] at h0
      obtain ⟨pm', hpm', _, _, _, _, _, _, rfl⟩ := h0
      obtain rfl := Except.ok.inj (hpm.symm.trans hpm')
      exact ⟨rfl, rfl⟩
    rw [e.2] at hloc
    rw [e'.2] at hloc'
    obtain rfl := Except.ok.inj (hloc.symm.trans hloc')
    obtain ⟨hl1, hl2⟩ := locParams_ok hn hloc
    have hn' : (ps.map Prod.fst).Nodup := by
      have : ps.map Prod.fst = pm.paramsIndex := by
        rw [hl1]
        simp [Processed.paramsTemplate, addBounds, Function.comp_def]
      rw [this]
      exact C06_index_unique_partial hpm hg
    obtain ⟨r, r', hpost, hpost', hlen, hlen', _, _, hj⟩ := evaluate_outcomes hpm hg hc ho hclash hper hmix hi hu hi' hu' hids hpers hids' hpers' hsame hin hin' hn' (fun l x h => hval l x (hl2 _ h)) hdebug hdebug'
    rw [e.1] at hpost
    rw [e'.1] at hpost'
    obtain ⟨rows, hrows, hframe, hrange⟩ := processDebugData_ok hpost
    obtain ⟨rows', hrows', hframe', hrange'⟩ := processDebugData_ok hpost'
    have hcongr := createFilteredStates_congr pm.updateInfo (hlen.trans hlen'.symm) (fun j o o' ho ho' => by
      have hlt : j < pm.updateInfo.length := hlen ▸ (List.getElem?_eq_some_iff.mp ho).1
      obtain ⟨h1, h2, _⟩ := hj j _ o o' (List.getElem?_eq_getElem hlt) ho ho'
      exact ⟨h1, h2⟩)
    rw [hrows, hrows'] at hcongr
    obtain rfl := Except.ok.inj hcongr
    have hf : debug'.filteredStates = debug.filteredStates := hframe'.trans hframe.symm
    rw [hf] at hanchored'
    obtain rfl := Except.ok.inj (hanchored.symm.trans hanchored')
    rw [hrange, hrange', hf]
  · intro inputs inputs' out out' hin hin' h h'
    obtain ⟨r, r', hpost, hpost', hlen, hlen', ha, ha', hj⟩ := evaluate_outcomes hpm hg hc ho hclash hper hmix hi hu hi' hu' hids hpers hids' hpers' hsame hin hin' hn hval h h'
    obtain rfl := Except.ok.inj hpost
    obtain rfl := Except.ok.inj hpost'
    refine ⟨pm.updateInfo.map (fun r => (r.period, r.var)), ⟨hu1, fun t v => by rw [← hu2]; simp [List.mem_map]⟩, ?_, ?_, ?_⟩
    · simp [LoglikeResult.output, ha, hlen]
    · simp [LoglikeResult.output, ha', hlen']
    · intro j t v hjv hM
      rw [List.getElem?_map, Option.map_eq_some_iff] at hjv
      obtain ⟨u, hu, hut⟩ := hjv
      rw [Prod.mk.injEq] at hut
      obtain ⟨rfl, rfl⟩ := hut
      have hlt := (List.getElem?_eq_some_iff.mp hu).1
      have h1 := List.getElem?_eq_getElem (hlen.symm ▸ hlt)
      have h2 := List.getElem?_eq_getElem (hlen'.symm ▸ hlt)
      have := (hj j u _ _ hu h1 h2).2.2 hM
      simp only [LoglikeResult.output, ha, ha', List.getElem?_map, h1, h2, Option.map_some, this]

end

end Skill
