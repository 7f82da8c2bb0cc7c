import Verif.Lemmas.HigherMeasurementScan
import Verif.Props.FilteredStates
/- C141: a higher measurement never lowers the filtered state of the factor that it measures. -/
namespace Skill
open Matrix Spec

/-- The average state of a factor in the last output of a period, for two individuals of which one has a higher measurement in this period. -/
theorem evaluate_higher {γ : Type} {post : (nObs nMix n : ℕ) → LoglikeResult nObs nMix n → Py γ} {qr : QR} (hqr : ValidQR qr) {m : ModelDict ℝ} {pm : Processed ℝ} (hpm : processModel m = .ok pm) (hg : GoodNames m)
    (hc : CleanAnchoring m) (ho : SameOrder m) (hclash : NoNameClash m) (hper : IsPeriod m 1) {nM : ℕ} (hmix : HasNMixtures m nM) (hnM : nM ≠ 0) {df df' : LongData ℝ} (hi : IndexOk df) (hi' : IndexOk df')
    (hu : NoUnusedPeriods df) (hu' : NoUnusedPeriods df') {ids pers ids' pers' : List Int} (hids : IdsOf df ids) (hpers : PeriodsOf df pers) (hids' : IdsOf df' ids') (hpers' : PeriodsOf df' pers')
    {inputs inputs' : MaximizationInputs} (hin : getMaximizationInputs m df = .ok inputs) (hin' : getMaximizationInputs m df' = .ok inputs') {custom : String → CustomFn} {nan : ℝ} {params : List (Loc × ℝ)}
    (hn : (params.map Prod.fst).Nodup) {val : Loc → ℝ} (hval : ∀ l x, (l, x) ∈ params → x = val l) {out out' : γ} (h : inputs.evaluate post qr custom nan m params = .ok out)
    (h' : inputs'.evaluate post qr custom nan m params = .ok out') {T i i' : ℕ} {v : String} {f : Fin (nLat m)} (hv : OnlyMeasures m T v (latName m f)) (hs : HigherMeasurement m T v df ids pers i df' ids' pers' i')
    (hsd : ∀ w, IsMeasurement m T w → val ⟨.measSds, T, w, "-"⟩ ≠ 0) (hload : 0 ≤ val ⟨.loadings, T, v, latName m f⟩) {k : ℕ} (hk : LastMeasurement pm.updateInfo T k) :
    ∃ (r : LoglikeResult ids.length pm.dimensions.nMixtures (nLat m)) (r' : LoglikeResult ids'.length pm.dimensions.nMixtures (nLat m)) (o : StepOut ids.length pm.dimensions.nMixtures (nLat m))
      (o' : StepOut ids'.length pm.dimensions.nMixtures (nLat m)), post ids.length _ _ r = .ok out ∧ post ids'.length _ _ r' = .ok out' ∧ r.outs.length = pm.updateInfo.length ∧ r'.outs.length = pm.updateInfo.length ∧
      r.outs[k]? = some o ∧ r'.outs[k]? = some o' ∧
      ∑ e, o.states ⟨i, hs.first⟩ e f * Real.exp (o.logWeights ⟨i, hs.first⟩ e) ≤ ∑ e, o'.states ⟨i', hs.second⟩ e f * Real.exp (o'.logWeights ⟨i', hs.second⟩ e) := by
  have hObs := length_of_controls hpm hper hclash hg hi hu hids hpers hin
  have hObs' := length_of_controls hpm hper hclash hg hi' hu' hids' hpers' hin'
  obtain ⟨pm1, nT, con, obs, data, r, hpm1, hT, hdata, hcon, hobs, hmeas, hr, hpost⟩ := evaluate_explicit hg hc ho hin hn hval h hObs
  obtain rfl := Except.ok.inj (hpm.symm.trans hpm1)
  obtain ⟨pm2, nT', con', obs', data', r', hpm2, hT', hdata', hcon', hobs', hmeas', hr', hpost'⟩ := evaluate_explicit hg hc ho hin' hn hval h' hObs'
  obtain rfl := Except.ok.inj (hpm.symm.trans hpm2)
  obtain rfl : nT = nT' := by omega
  obtain ⟨hu1, hu2, hsorted, hcols, hu5⟩ := C01_update_info_exact hpm
  obtain ⟨d1, d2, d3, d4⟩ := data_higher hpm hg.keys hc hclash hi hi' hu hu' hids hpers hids' hpers' hdata hdata' hv hs
  have hrange := updates_in_range hpm hT
  haveI : NeZero pm.dimensions.nMixtures := ⟨by rw [← (hasNMixtures_of_ok hpm nM).mp hmix]; exact hnM⟩
  have hM : Measures m T v (latName m f) := (hv.measures _).mpr rfl
  obtain ⟨row0, hmem0, hp0, hv0⟩ := (hu2 T v).mpr (Or.inl ⟨_, hM⟩)
  obtain ⟨k0, hk0⟩ := List.getElem?_of_mem hmem0
  obtain ⟨rowk, hrowk, hpk, hmk, hlast⟩ := hk
  have hle : k0 ≤ k := hlast k0 row0 hk0 hp0 ((purpose_iff hpm hc hmem0).mpr ⟨_, by rw [hp0, hv0]; exact hM⟩)
  have hkl := (List.getElem?_eq_some_iff.mp hrowk).1
  have hk0l := (List.getElem?_eq_some_iff.mp hk0).1
  have hsort := List.pairwise_iff_getElem.mp hsorted
  have hge : ∀ (j : ℕ) (q : URow), pm.updateInfo[j]? = some q → j ≤ k → q.period ≤ T := by
    intro j q hq hj
    obtain ⟨hjl, rfl⟩ := List.getElem?_eq_some_iff.mp hq
    rcases hj.lt_or_eq with hlt | rfl
    · have := hsort j k hjl hkl hlt
      rw [(List.getElem?_eq_some_iff.mp hrowk).2, hpk] at this
      exact this
    · rw [(List.getElem?_eq_some_iff.mp hrowk).2, hpk]
  have hper0 : ∀ (j : ℕ) (q : URow), pm.updateInfo[j]? = some q → k0 ≤ j → j ≤ k → q.period = T := by
    intro j q hq hj0 hj
    refine le_antisymm (hge j q hq hj) ?_
    obtain ⟨hjl, rfl⟩ := List.getElem?_eq_some_iff.mp hq
    rcases hj0.lt_or_eq with hlt | rfl
    · have := hsort k0 j hk0l hjl hlt
      rw [(List.getElem?_eq_some_iff.mp hk0).2, hp0] at this
      exact this
    · rw [(List.getElem?_eq_some_iff.mp hk0).2, hp0]
  have hmeasrow : ∀ (j : ℕ) (q : URow), pm.updateInfo[j]? = some q → k0 ≤ j → j ≤ k → q.purpose = .measurement := by
    intro j q hq hj0 hj
    have hqT := hper0 j q hq hj0 hj
    obtain ⟨hjl, hqe⟩ := List.getElem?_eq_some_iff.mp hq
    rcases hj.lt_or_eq with hlt | rfl
    · by_contra hnot
      have hfirst := List.pairwise_iff_getElem.mp (measurements_first hpm hc) j k hjl hkl hlt
      rw [hqe, (List.getElem?_eq_some_iff.mp hrowk).2] at hfirst
      exact hfirst (by rw [hqT, hpk]) (fun hM' => hnot ((purpose_iff hpm hc (List.mem_of_getElem? hq)).mpr hM')) ((purpose_iff hpm hc (List.mem_of_getElem? hrowk)).mp hmk)
    · rw [Option.some.inj (hq.symm.trans hrowk)]
      exact hmk
  have hrows : ∀ (j : ℕ) (q : UpdateParams (nLat m) (nCon m)), (pm.updateInfo.map (labelRow m val))[j]? = some q → ∃ row, pm.updateInfo[j]? = some row ∧ q = labelRow m val row := by
    intro j q hq
    rw [List.getElem?_map, Option.map_eq_some_iff] at hq
    obtain ⟨row, h1, h2⟩ := hq
    exact ⟨row, h1, h2.symm⟩
  have hdat : ∀ (j : ℕ) (y : Fin ids.length → Option ℝ), (List.ofFn data)[j]? = some y → entry2 (inputs.data.measurements.getD []) j i = some (y ⟨i, hs.first⟩) := by
    intro j y hy
    rw [List.getElem?_ofFn] at hy
    split_ifs at hy with hj
    obtain rfl := Option.some.inj hy
    exact hmeas ⟨j, hj⟩ ⟨i, hs.first⟩
  have hdat' : ∀ (j : ℕ) (y : Fin ids'.length → Option ℝ), (List.ofFn data')[j]? = some y → entry2 (inputs'.data.measurements.getD []) j i' = some (y ⟨i', hs.second⟩) := by
    intro j y hy
    rw [List.getElem?_ofFn] at hy
    split_ifs at hy with hj
    obtain rfl := Option.some.inj hy
    exact hmeas' ⟨j, hj⟩ ⟨i', hs.second⟩
  have hlenofn : (List.ofFn data).length = (pm.updateInfo.map (labelRow m val)).length := by rw [List.length_ofFn, List.length_map]
  have hlenofn' : (List.ofFn data').length = (pm.updateInfo.map (labelRow m val)).length := by rw [List.length_ofFn, List.length_map]
  obtain ⟨o, o', q1, q2, q3⟩ := outs_higher hqr (fixed := (labelFixed custom m pm val ids.length nT con obs).select (fun _ : Fin 1 => ⟨i, hs.first⟩)) (con := fun t _ => con' t ⟨i', hs.second⟩) (obs := fun t _ => obs' t ⟨i', hs.second⟩)
    (rows := pm.updateInfo.map (labelRow m val)) (data := List.ofFn data) (data' := List.ofFn data') hlenofn hlenofn' (i := ⟨i, hs.first⟩) (i' := ⟨i', hs.second⟩)
    (fun q hq => by obtain ⟨row, hrow, rfl⟩ := List.mem_map.mp hq; exact hrange row hrow) (k0 := k0) (k := k) hle (by rw [List.length_map]; exact hkl)
    (fun j q hj hq hlt => by
      obtain ⟨row, hrow, rfl⟩ := hrows j q hq
      have hle := hge j row hrow hj
      have hp : IsPeriod m row.period := (isPeriod_iff hpm _).mpr (by have := hrange row (List.mem_of_getElem? hrow); omega)
      refine ⟨?_, ?_⟩
      · funext _ a
        obtain ⟨w, e1, e2⟩ := hcon ⟨row.period, hlt⟩ ⟨i, hs.first⟩ a
        obtain ⟨w', e1', e2'⟩ := hcon' ⟨row.period, hlt⟩ ⟨i', hs.second⟩ a
        have := d3 row.period hp hle a a.isLt
        dsimp only at e1 e1'
        rw [e1, e1'] at this
        exact e2.trans ((congrArg (fun w => Option.getD w nan) (Option.some.inj this)).trans e2'.symm)
      · funext _ a
        obtain ⟨w, e1, e2⟩ := hobs ⟨row.period, hlt⟩ ⟨i, hs.first⟩ a
        obtain ⟨w', e1', e2'⟩ := hobs' ⟨row.period, hlt⟩ ⟨i', hs.second⟩ a
        have := d4 row.period hp hle a a.isLt
        dsimp only at e1 e1'
        rw [e1, e1'] at this
        exact e2.trans ((congrArg (fun w => Option.getD w nan) (Option.some.inj this)).trans e2'.symm))
    (fun j hj hne y y' hy hy' => by
      have hjl : j < pm.updateInfo.length := by omega
      have hrow : pm.updateInfo[j]? = some pm.updateInfo[j] := List.getElem?_eq_getElem hjl
      have := d1 j _ hrow (by
        rcases (hge j _ hrow hj).lt_or_eq with hlt | heq
        · exact Or.inl hlt
        · refine Or.inr ⟨heq, fun hvar => hne ?_⟩
          have e : (pm.updateInfo.map URow.key)[j]? = (pm.updateInfo.map URow.key)[k0]? := by
            rw [List.getElem?_map, List.getElem?_map, hrow, hk0, Option.map_some, Option.map_some, URow.key, URow.key, heq, hvar, hp0, hv0]
          exact (List.getElem?_inj (by rw [List.length_map]; exact hjl) hu1).mp e)
      rw [hdat j y hy, hdat' j y' hy'] at this
      exact Option.some.inj this)
    (fun y y' hy hy' => by
      have := d2 k0 row0 hk0 hp0 hv0
      rw [hdat k0 y hy, hdat' k0 y' hy'] at this
      simpa only [Option.some.injEq] using this)
    (f := f) (fun q hq => by
      obtain ⟨row, hrow, rfl⟩ := hrows k0 q hq
      obtain rfl := Option.some.inj (hk0.symm.trans hrow)
      have hcol : ∀ g : Fin (nLat m), latName m g ∈ row0.trueCols ↔ g = f := by
        intro g
        rw [hcols row0 hmem0, hp0, hv0, hv.measures]
        constructor
        · rintro (e | hA)
          · exact latName_injective hg e
          · exact absurd hM (hc.notMeasured _ _ _ _ hA)
        · rintro rfl
          exact Or.inl rfl
      refine ⟨fun g hg => if_neg (fun e => hg ((hcol g).mp e)), ?_⟩
      show 0 ≤ if latName m f ∈ row0.trueCols then val ⟨.loadings, row0.period, row0.var, latName m f⟩ else 0
      rw [if_pos ((hcol f).mpr rfl), hp0, hv0]
      exact hload)
    (fun j q hj0 hj hq => by
      obtain ⟨row, hrow, rfl⟩ := hrows j q hq
      have hpT := hper0 j row hrow hj0 hj
      have hpm' := hmeasrow j row hrow hj0 hj
      refine ⟨decide_eq_true hpm', ?_, fun hlt q' hq' => ?_⟩
      · show val ⟨.measSds, row.period, row.var, "-"⟩ ≠ 0
        have := (purpose_iff hpm hc (List.mem_of_getElem? hrow)).mp hpm'
        rw [hpT] at this ⊢
        exact hsd _ this
      · obtain ⟨row', hrow', rfl⟩ := hrows (j + 1) q' hq'
        exact (hper0 (j + 1) row' hrow' (by omega) (by omega)).trans hpT.symm)
    ((labelCarry m val ids.length pm.dimensions.nMixtures).select (fun _ : Fin 1 => ⟨i, hs.first⟩))
  obtain ⟨ho1, _⟩ := logLikelihood_ok hr
  obtain ⟨ho2, _⟩ := logLikelihood_ok hr'
  have hl1 : r.outs.length = pm.updateInfo.length := by rw [ho1, outs_length, loopArgs_length _ _ (by simp), List.length_map]
  have hl2 : r'.outs.length = pm.updateInfo.length := by rw [ho2, outs_length, loopArgs_length _ _ (by simp), List.length_map]
  rw [outs_select, ← ho1, List.getElem?_map, List.getElem?_eq_getElem (by omega), Option.map_some] at q1
  have q2 : (outs qr ((labelFixed custom m pm val ids'.length nT con' obs').select (fun _ : Fin 1 => ⟨i', hs.second⟩)) ((labelCarry m val ids'.length pm.dimensions.nMixtures).select (fun _ : Fin 1 => ⟨i', hs.second⟩))
    ((loopArgs (nT + 1) (pm.updateInfo.map (labelRow m val)) (List.ofFn data')).map (LoopArgs.select (fun _ : Fin 1 => ⟨i', hs.second⟩))))[k]? = some o' := q2
  rw [outs_select, ← ho2, List.getElem?_map, List.getElem?_eq_getElem (by omega), Option.map_some] at q2
  obtain rfl := Option.some.inj q1
  obtain rfl := Option.some.inj q2
  exact ⟨r, r', r.outs[k], r'.outs[k], hpost, hpost', hl1, hl2, List.getElem?_eq_getElem (by omega), List.getElem?_eq_getElem (by omega), q3⟩

/-- The anchored value of a factor is `c + s * x` with `s` nonnegative if the loading of its anchoring outcome is. -/
theorem anchored_monotone {m : ModelDict ℝ} {pm : Processed ℝ} (hpm : processModel m = .ok pm) (hg : GoodNames m) (hc : CleanAnchoring m) (ho : SameOrder m) {values : List ℝ} {val : Loc → ℝ}
    (hvalues : values = pm.paramsIndex.map val) {p : Parsed ℝ} (hparse : pm.parse Real.log values 1 = .ok p) {t : ℕ} (ht : IsPeriod m t) (a : Fin (nLat m))
    (hpos : ∀ o, AnchoredIn m (latName m a) o → 0 ≤ val ⟨.loadings, t, o ++ "_" ++ latName m a, latName m a⟩) {s : ℝ} (hs : at2 p.scalingFactors t a = some s) : 0 ≤ s := by
  obtain ⟨hA, hB, _⟩ := C08_anchoring_params_partial hpm hg hc ho hvalues hparse t a (latName m a) ht (by
    unfold allFactors
    rw [List.getElem?_append_left (by simp), latName_get])
  by_cases hanc : ∃ o, AnchoredIn m (latName m a) o
  · obtain ⟨o, hao⟩ := hanc
    rw [(hA o hao).1] at hs
    rw [← Option.some.inj hs]
    exact hpos o hao
  · rw [(hB hanc).1] at hs
    rw [← Option.some.inj hs]
    exact zero_le_one

/-- **C141**: the column `v` measures only factor `f` in period `T`. Two individuals of one dataset or of two datasets have the same data up to period `T`, but the second one has a higher value in `v` in period `T`.
Then the filtered state of `f` in period `T` of the second individual is not lower, provided that the loading is not negative, for each transition function and each number of mixture elements. The same is true
of the anchored states if the loading of the anchoring outcome is not negative. -/
theorem C141_monotone {qr : QR} (hqr : ValidQR qr) {m : ModelDict ℝ} (hg : GoodNames m) (hc : CleanAnchoring m) (ho : SameOrder m) (hclash : NoNameClash m) (hnames : ∀ f, IsLatent m f → f ≠ "period" ∧ f ≠ "id")
    (hper : IsPeriod m 1) (hmeas : ∀ t, IsPeriod m t → ∃ v f, Measures m t v f) {nM : ℕ} (hmix : HasNMixtures m nM) (hnM : nM ≠ 0) {df df' : LongData ℝ} (hi : IndexOk df) (hi' : IndexOk df')
    (hu : NoUnusedPeriods df) (hu' : NoUnusedPeriods df') {ids pers ids' pers' : List Int} (hids : IdsOf df ids) (hpers : PeriodsOf df pers) (hids' : IdsOf df' ids') (hpers' : PeriodsOf df' pers')
    {custom : String → CustomFn} {nan : ℝ} {params : List (Loc × ℝ)} (hn : (params.map Prod.fst).Nodup) {val : Loc → ℝ} (hval : ∀ l x, (l, x) ∈ params → x = val l) {out out' : FilteredStates}
    (h : getFilteredStates qr custom nan m df params = .ok out) (h' : getFilteredStates qr custom nan m df' params = .ok out') {T i i' : ℕ} {v f : String} (hf : IsLatent m f) (hv : OnlyMeasures m T v f)
    (hs : HigherMeasurement m T v df ids pers i df' ids' pers' i') (hsd : ∀ w, IsMeasurement m T w → val ⟨.measSds, T, w, "-"⟩ ≠ 0) (hload : 0 ≤ val ⟨.loadings, T, v, f⟩) :
    (∃ cells cells', out.unanchored.states.rows[T * ids.length + i]? = some (T, cells) ∧ out'.unanchored.states.rows[T * ids'.length + i']? = some (T, cells') ∧ cells "id" = i ∧ cells' "id" = i' ∧
      cells f ≤ cells' f) ∧
    ((∀ o, AnchoredIn m f o → 0 ≤ val ⟨.loadings, T, o ++ "_" ++ f, f⟩) →
      ∃ cells cells', out.anchored.states.rows[T * ids.length + i]? = some (T, cells) ∧ out'.anchored.states.rows[T * ids'.length + i']? = some (T, cells') ∧ cells "id" = i ∧ cells' "id" = i' ∧
        cells f ≤ cells' f) := by
  unfold getFilteredStates at h h'
  simp only [py_bind_ok, py_pure_ok] at h h'
  obtain ⟨inputs, hin, par, hpar, d, hdeb, pm, hpm, anc, hanc, rfl⟩ := h
  obtain ⟨inputs', hin', par', hpar', d', hdeb', pm', hpm', anc', hanc', rfl⟩ := h'
  obtain rfl := Except.ok.inj (hpm.symm.trans hpm')
  have hpr : inputs'.template = inputs.template ∧ inputs'.model = inputs.model ∧ inputs.model = pm ∧ inputs.template.map Prod.fst = pm.paramsIndex := by
    unfold getMaximizationInputs at hin hin'
    simp only [py_bind_ok, py_pure_ok] at hin hin'
    obtain ⟨pm1, hpm1, _, _, _, _, _, _, rfl⟩ := hin
    obtain ⟨pm2, hpm2, _, _, _, _, _, _, rfl⟩ := hin'
    obtain rfl := Except.ok.inj (hpm.symm.trans hpm1)
    obtain rfl := Except.ok.inj (hpm.symm.trans hpm2)
    exact ⟨rfl, rfl, rfl, by simp [Processed.paramsTemplate, addBounds, Function.comp_def]⟩
  rw [hpr.1] at hpar'
  obtain rfl := Except.ok.inj (hpar.symm.trans hpar')
  obtain ⟨hl1, hl2⟩ := locParams_ok hn hpar
  have hn' : (par.map Prod.fst).Nodup := by
    rw [hl1, hpr.2.2.2]
    exact C06_index_unique_partial hpm hg
  have hval' : ∀ l x, (l, x) ∈ par → x = val l := fun l x h => hval l x (hl2 _ h)
  unfold MaximizationInputs.debugLoglike at hdeb hdeb'
  rw [hpr.2.1, hpr.2.2.1] at hdeb'
  rw [hpr.2.2.1] at hdeb
  have hmeas' : ∀ t, IsPeriod m t → ∃ v f, Measures m t v f ∧ ¬ ∃ g, Anchors m v g := fun t ht => by
    obtain ⟨v, f, h⟩ := hmeas t ht
    exact ⟨v, f, h, fun ⟨g, hg⟩ => hc.notMeasured v g t f hg h⟩
  have hperT : IsPeriod m T := isUpdate_period (Or.inl ⟨f, (hv.measures f).mpr rfl⟩)
  obtain ⟨spec, hspec⟩ := hf
  obtain ⟨a, ha⟩ : ∃ a : Fin (nLat m), latName m a = f := by
    have hmem : f ∈ m.factors.map Prod.fst := List.mem_map.mpr ⟨_, hspec, rfl⟩
    obtain ⟨j, hj⟩ := List.getElem?_of_mem hmem
    have hjl : j < nLat m := by simpa using (List.getElem?_eq_some_iff.mp hj).1
    exact ⟨⟨j, hjl⟩, Option.some.inj ((latName_get ⟨j, hjl⟩).symm.trans hj)⟩
  have hlat : IsLatent m f := ⟨spec, hspec⟩
  clear hspec
  subst ha
  have hlabels : pm.labels.latentFactors = m.factors.map Prod.fst := (labels_of_ok hpm).1
  have hidx : (m.factors.map Prod.fst).idxOf (latName m a) = a := nodup_get? hg.keys.factors (latName_get a)
  obtain ⟨k, hk⟩ : ∃ k, LastMeasurement pm.updateInfo T k := by
    have hlen : (List.replicate pm.updateInfo.length (⟨fun _ => 0, fun _ _ => none, fun _ _ => none, fun _ _ => 0, fun _ _ _ => 0⟩ : StepOut 1 1 1)).length = pm.updateInfo.length := List.length_replicate
    obtain ⟨_, _, _, hlast, _⟩ := C51_filtered_states_partial hpm hmeas' hlen
    exact hlast T hperT
  obtain ⟨r, r', o, o', p1, p2, hl, hl', g1, g2, hle⟩ := evaluate_higher hqr hpm hg hc ho hclash hper hmix hnM hi hi' hu hu' hids hpers hids' hpers' hin hin' hn' hval' hdeb hdeb' hv hs hsd hload hk
  obtain ⟨rows, hr1, hf1, _⟩ := processDebugData_ok p1
  obtain ⟨rows', hr2, hf2, _⟩ := processDebugData_ok p2
  obtain ⟨q, hq, _, _, hrow⟩ := C51_filtered_states_partial hpm hmeas' hl
  obtain rfl := Except.ok.inj (hr1.symm.trans hq)
  obtain ⟨q', hq', _, _, hrow'⟩ := C51_filtered_states_partial hpm hmeas' hl'
  obtain rfl := Except.ok.inj (hr2.symm.trans hq')
  obtain ⟨cells, hc1, _, hc3, hc4⟩ := filteredFrame_row (factors := pm.labels.latentFactors) (hrow T k o ⟨i, hs.first⟩ hk g1)
  obtain ⟨cells', hc1', _, hc3', hc4'⟩ := filteredFrame_row (factors := pm.labels.latentFactors) (hrow' T k o' ⟨i', hs.second⟩ hk g2)
  have hgetD : ∀ x : Fin (nLat m) → ℝ, (List.ofFn x).getD ((m.factors.map Prod.fst).idxOf (latName m a)) 0 = x a := fun x => by
    rw [hidx, List.getD_eq_getElem?_getD, List.getElem?_ofFn, dif_pos a.isLt, Option.getD_some]
  have hcells : cells (latName m a) ≤ cells' (latName m a) := by
    rw [hc4 _ (hnames _ hlat).1 (hnames _ hlat).2, hc4' _ (hnames _ hlat).1 (hnames _ hlat).2, hlabels, hgetD, hgetD]
    exact hle
  rw [← hf1] at hc1
  rw [← hf2] at hc1'
  refine ⟨⟨cells, cells', hc1, hc1', hc3, hc3', hcells⟩, fun hpos => ?_⟩
  obtain ⟨values, p, hvl, hvg, hparse, _, _, harow⟩ := C54_affine hpm hg.keys hanc
  obtain ⟨values', p', hvl', hvg', hparse', _, _, harow'⟩ := C54_affine hpm hg.keys hanc'
  have hvalues : ∀ {vs : List ℝ}, vs.length = pm.paramsIndex.length → (∀ (i : Nat) l, pm.paramsIndex[i]? = some l → vs[i]? = par.lookup l) → vs = pm.paramsIndex.map val := by
    intro vs hvl hvg
    refine List.ext_getElem (by simp [hvl]) (fun a h1 h2 => ?_)
    have ha : a < pm.paramsIndex.length := by simpa using h2
    have := hvg a _ (List.getElem?_eq_getElem ha)
    rw [List.getElem?_eq_getElem h1] at this
    rw [List.getElem_map]
    exact hval' _ _ (lookup_mem this.symm)
  obtain rfl : values = values' := (hvalues hvl hvg).trans (hvalues hvl' hvg').symm
  obtain rfl := Except.ok.inj (hparse.symm.trans hparse')
  obtain ⟨b, hb1, hb2, hb3⟩ := harow _ _ _ hc1
  obtain ⟨b', hb1', hb2', hb3'⟩ := harow' _ _ _ hc1'
  obtain ⟨s, c, e1, e2, e3⟩ := hb3 a _ (latName_get a)
  obtain ⟨s', c', e1', e2', e3'⟩ := hb3' a _ (latName_get a)
  obtain rfl := Option.some.inj (e1.symm.trans e1')
  obtain rfl := Option.some.inj (e2.symm.trans e2')
  have hsnn := anchored_monotone hpm hg hc ho (hvalues hvl hvg) hparse hperT a hpos e1
  refine ⟨b, b', hb1, hb1', ?_, ?_, ?_⟩
  · rw [hb2 _ (fun h => (hnames _ h).2 rfl), hc3]
  · rw [hb2' _ (fun h => (hnames _ h).2 rfl), hc3']
  · rw [e3, e3']
    have := mul_le_mul_of_nonneg_right hcells hsnn
    linarith

end Skill
