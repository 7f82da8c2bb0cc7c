import Verif.Lemmas.SamePatternData
import Verif.Props.NoLookAhead
/- C142: in linear models the standard deviations of residuals depend only on which values are observed. -/
namespace Skill
open Matrix Spec

/-- The standard deviations of residuals of two individuals that have missing values at the same places. -/
theorem evaluate_pattern {γ : Type} {post : (nObs nMix n : ℕ) → LoglikeResult nObs nMix n → Py γ} {qr : QR} {m : ModelDict ℝ} {pm : Processed ℝ} (hpm : processModel m = .ok pm) {nM : ℕ} (hm : LinearModel m nM)
    (hg : GoodNames m) (hkappa : ∀ o x, m.estimationOptions = some o → o.sigmaPointsScale = some x → 0 ≤ x) {df df' : LongData ℝ} (hi : IndexOk df) (hi' : IndexOk df') (hu : NoUnusedPeriods df)
    (hu' : NoUnusedPeriods df') {ids pers ids' pers' : List Int} (hids : IdsOf df ids) (hpers : PeriodsOf df pers) (hids' : IdsOf df' ids') (hpers' : PeriodsOf df' pers') {inputs inputs' : MaximizationInputs}
    (hin : getMaximizationInputs m df = .ok inputs) (hin' : getMaximizationInputs m df' = .ok inputs') {custom : String → CustomFn} {nan : ℝ} {params : List (Loc × ℝ)} (hn : (params.map Prod.fst).Nodup)
    {out out' : γ} (h : inputs.evaluate post qr custom nan m params = .ok out) (h' : inputs'.evaluate post qr custom nan m params = .ok out') {T i i' : ℕ} (hs : SamePatternUpTo m T df ids pers i df' ids' pers' i') :
    ∃ (r : LoglikeResult ids.length pm.dimensions.nMixtures (nLat m)) (r' : LoglikeResult ids'.length pm.dimensions.nMixtures (nLat m)), post ids.length _ _ r = .ok out ∧ post ids'.length _ _ r' = .ok out' ∧
      r.outs.length = pm.updateInfo.length ∧ r'.outs.length = pm.updateInfo.length ∧
      ∀ (k : ℕ) (row : URow), pm.updateInfo[k]? = some row → row.period ≤ T →
        ((r.outs.map StepOut.residualSds)[k]?).map (fun d => d ⟨i, hs.1⟩) = ((r'.outs.map StepOut.residualSds)[k]?).map (fun d => d ⟨i', hs.2.1⟩) := by
  obtain ⟨hc, ho, hclash⟩ := hm.anchoring
  set val : Loc → ℝ := fun l => (params.lookup l).getD 0 with hvaldef
  have hval : ∀ l x, (l, x) ∈ params → x = val l := fun l x hx => by
    rw [hvaldef]
    dsimp only
    rw [lookup_of_mem hn hx, Option.getD_some]
  have hObs := length_of_controls hpm hm.periods hclash hg hi hu hids hpers hin
  have hObs' := length_of_controls hpm hm.periods hclash hg hi' hu' hids' hpers' hin'
  obtain ⟨pm1, nT, con, obs, data, r, hpm1, hT, hdata, hcon, hobs, hmeas, hr, hpost⟩ := evaluate_explicit hg hc ho hin hn hval h hObs
  obtain rfl := Except.ok.inj (hpm.symm.trans hpm1)
  obtain ⟨pm2, nT', con', obs', data', r', hpm2, hT', hdata', hcon', hobs', hmeas', hr', hpost'⟩ := evaluate_explicit hg hc ho hin' hn hval h' hObs'
  obtain rfl := Except.ok.inj (hpm.symm.trans hpm2)
  obtain rfl : nT = nT' := by omega
  obtain ⟨hu1, hu2, hsorted, hcols, hu5⟩ := C01_update_info_exact hpm
  have hpat := data_pattern hpm hg.keys hclash hi hi' hu hu' hids hpers hids' hpers' hdata hdata' hs
  obtain ⟨ho1, _⟩ := logLikelihood_ok hr
  obtain ⟨ho2, _⟩ := logLikelihood_ok hr'
  have hl1 : r.outs.length = pm.updateInfo.length := by rw [ho1, outs_length, loopArgs_length _ _ (by simp), List.length_map]
  have hl2 : r'.outs.length = pm.updateInfo.length := by rw [ho2, outs_length, loopArgs_length _ _ (by simp), List.length_map]
  refine ⟨r, r', hpost, hpost', hl1, hl2, fun k row hrow hTk => ?_⟩
  have hkl := (List.getElem?_eq_some_iff.mp hrow).1
  have hsort := List.pairwise_iff_getElem.mp hsorted
  have hge : ∀ (j : ℕ) (q : URow), pm.updateInfo[j]? = some q → j ≤ k → q.period ≤ T := by
    intro j q hq hj
    obtain ⟨hjl, rfl⟩ := List.getElem?_eq_some_iff.mp hq
    refine le_trans ?_ hTk
    rcases hj.lt_or_eq with hlt | rfl
    · have := hsort j k hjl hkl hlt
      rwa [(List.getElem?_eq_some_iff.mp hrow).2] at this
    · rw [(List.getElem?_eq_some_iff.mp hrow).2]
  have hk : SigmaOptions (labelFixed custom m pm val 1 nT (fun t _ => con t ⟨i, hs.1⟩) (fun t _ => obs t ⟨i, hs.1⟩)) _ := sigma_label hpm hkappa custom val 1 nT _ _
  have hlin := affine_label hm hpm hg custom val 1 nT (fun t _ => con t ⟨i, hs.1⟩) (fun t _ => obs t ⟨i, hs.1⟩)
  have key := outs_pattern qr hk hlin (fun t _ => con' t ⟨i', hs.2.1⟩) (fun t _ => obs' t ⟨i', hs.2.1⟩) (k + 1)
    (as := (loopArgs (nT + 1) (pm.updateInfo.map (labelRow m val)) (List.ofFn data)).map (LoopArgs.select (fun _ : Fin 1 => ⟨i, hs.1⟩)))
    (as' := (loopArgs (nT + 1) (pm.updateInfo.map (labelRow m val)) (List.ofFn data')).map (LoopArgs.select (fun _ : Fin 1 => ⟨i', hs.2.1⟩)))
    (fun j hj => by
      have hjl : j < pm.updateInfo.length := by omega
      have hq : pm.updateInfo[j]? = some pm.updateInfo[j] := List.getElem?_eq_getElem hjl
      have hr0 : (pm.updateInfo.map (labelRow m val))[j]? = some (labelRow m val pm.updateInfo[j]) := by rw [List.getElem?_map, hq]; rfl
      have hd0 : (List.ofFn data)[j]? = some (data ⟨j, hjl⟩) := by rw [List.getElem?_ofFn, dif_pos hjl]
      have hd1 : (List.ofFn data')[j]? = some (data' ⟨j, hjl⟩) := by rw [List.getElem?_ofFn, dif_pos hjl]
      refine ⟨_, _, by rw [List.getElem?_map, loopArgs_get _ hr0 hd0]; rfl, by rw [List.getElem?_map, loopArgs_get _ hr0 hd1]; rfl, rfl, fun _ => ?_⟩
      obtain ⟨w, w', e1, e2, e3⟩ := hpat j _ hq (hge j _ hq (by omega))
      have e1' := hmeas ⟨j, hjl⟩ ⟨i, hs.1⟩
      have e2' := hmeas' ⟨j, hjl⟩ ⟨i', hs.2.1⟩
      dsimp only at e1' e2'
      rw [e1] at e1'
      rw [e2] at e2'
      show (data ⟨j, hjl⟩ ⟨i, hs.1⟩).isSome = (data' ⟨j, hjl⟩ ⟨i', hs.2.1⟩).isSome
      rw [← Option.some.inj e1', ← Option.some.inj e2']
      exact e3)
    (c := (labelCarry m val ids.length pm.dimensions.nMixtures).select (fun _ : Fin 1 => ⟨i, hs.1⟩)) (c' := (labelCarry m val ids'.length pm.dimensions.nMixtures).select (fun _ : Fin 1 => ⟨i', hs.2.1⟩)) rfl k (by omega)
  have q1 : (outs qr ((labelFixed custom m pm val ids.length nT con obs).select (fun _ : Fin 1 => ⟨i, hs.1⟩)) ((labelCarry m val ids.length pm.dimensions.nMixtures).select (fun _ : Fin 1 => ⟨i, hs.1⟩))
    ((loopArgs (nT + 1) (pm.updateInfo.map (labelRow m val)) (List.ofFn data)).map (LoopArgs.select (fun _ : Fin 1 => ⟨i, hs.1⟩))))[k]?.map StepOut.residualSds =
    (outs qr ((labelFixed custom m pm val ids'.length nT con' obs').select (fun _ : Fin 1 => ⟨i', hs.2.1⟩)) ((labelCarry m val ids'.length pm.dimensions.nMixtures).select (fun _ : Fin 1 => ⟨i', hs.2.1⟩))
    ((loopArgs (nT + 1) (pm.updateInfo.map (labelRow m val)) (List.ofFn data')).map (LoopArgs.select (fun _ : Fin 1 => ⟨i', hs.2.1⟩))))[k]?.map StepOut.residualSds := key
  rw [outs_select, outs_select, ← ho1, ← ho2, List.getElem?_map, List.getElem?_map, List.getElem?_eq_getElem (by omega), List.getElem?_eq_getElem (by omega)] at q1
  rw [List.getElem?_map, List.getElem?_map, List.getElem?_eq_getElem (by omega), List.getElem?_eq_getElem (by omega)]
  exact congrArg some (congrFun (Option.some.inj q1) 0)

/-- **C142**: two individuals of one dataset or of two datasets have missing values at the same places in all periods up to `T`. The values themselves, of measurements, controls and observed factors, may be different.
In a model with linear or constant transition functions, with any number of mixture elements and with or without anchoring, they have the same standard deviations of residuals at all updates of these periods. -/
theorem C142_residual_sds {m : ModelDict ℝ} {nM : ℕ} (hm : LinearModel m nM) (hg : GoodNames m) (hkappa : ∀ o x, m.estimationOptions = some o → o.sigmaPointsScale = some x → 0 ≤ x) {df df' : LongData ℝ}
    (hi : IndexOk df) (hi' : IndexOk df') (hu : NoUnusedPeriods df) (hu' : NoUnusedPeriods df') {ids pers ids' pers' : List Int} (hids : IdsOf df ids) (hpers : PeriodsOf df pers) (hids' : IdsOf df' ids')
    (hpers' : PeriodsOf df' pers') {inputs inputs' : MaximizationInputs} (hin : getMaximizationInputs m df = .ok inputs) (hin' : getMaximizationInputs m df' = .ok inputs') {qr : QR} {custom : String → CustomFn} {nan : ℝ}
    {params : List (Loc × ℝ)} (hn : (params.map Prod.fst).Nodup) {out out' : DebugData} (h : inputs.debugLoglike qr custom nan m params = .ok out) (h' : inputs'.debugLoglike qr custom nan m params = .ok out')
    {T i i' : ℕ} (hs : SamePatternUpTo m T df ids pers i df' ids' pers' i') :
    ∀ d ∈ out.residualSds, d.period ≤ T → d.id = i * nM + d.mixture → { d with id := i' * nM + d.mixture } ∈ out'.residualSds := by
  unfold MaximizationInputs.debugLoglike at h h'
  have hpr : ∃ pm, processModel m = .ok pm ∧ inputs.model = pm ∧ inputs'.model = pm := by
    unfold getMaximizationInputs at hin hin'
    simp only [py_bind_ok, py_pure_ok] at hin hin'
    obtain ⟨pm1, hpm1, _, _, _, _, _, _, rfl⟩ := hin
    obtain ⟨pm2, hpm2, _, _, _, _, _, _, rfl⟩ := hin'
    obtain rfl := Except.ok.inj (hpm1.symm.trans hpm2)
    exact ⟨_, hpm1, rfl, rfl⟩
  obtain ⟨pm, hpm, hm1, hm2⟩ := hpr
  rw [hm1] at h
  rw [hm2] at h'
  obtain ⟨r, r', h1, h2, hl, hl', key⟩ := evaluate_pattern hpm hm hg hkappa hi hi' hu hu' hids hpers hids' hpers' hin hin' hn h h' hs
  obtain rfl := (hasNMixtures_of_ok hpm nM).mp hm.mixture
  rw [processResiduals_flatten (processDebugData_residuals h1).2, processResiduals_flatten (processDebugData_residuals h2).2]
  exact fun d hd hT hid => debugBlock_upTo (by rw [List.length_map, hl']) key hd hT hid

end Skill
