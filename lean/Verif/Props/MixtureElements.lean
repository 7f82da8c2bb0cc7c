import Verif.Spec.MixtureElements
import Verif.Lemmas.MergedElements
import Verif.Props.ParamsUpTo
import Verif.Props.Restrictions
/- C136: several equal mixture elements are the same as one. -/
namespace Skill
open Matrix Spec
variable {m : ModelDict ℝ} {pm : Processed ℝ} {k k' : ℕ}

/-- The number of mixture elements only changes itself. -/
theorem processModel_withMixtures (hpm : processModel m = .ok pm) (k : ℕ) : processModel (withMixtures m k) =
    .ok { pm with dimensions := { pm.dimensions with nMixtures := k }, estimationOptions := { pm.estimationOptions with nMixtures := some k } } := by
  obtain ⟨d1, c1, t1, l1, a1, e1, u1, n1⟩ := processModel_ok_iff.mp hpm
  obtain ⟨o, n, ho, -⟩ := getDimensions_ok d1
  rw [processModel_ok_iff]
  refine ⟨?_, c1, t1, l1, a1, ?_, u1, n1⟩
  · unfold getDimensions at d1 ⊢
    simp only [ho, py_bind_ok, py_pure_ok] at d1
    obtain ⟨N, hN, o', ho', hd⟩ := d1
    obtain rfl := Except.ok.inj ho'
    simp only [withMixtures, ho, Option.map_some, py_bind_ok, py_pure_ok]
    exact ⟨N, hN, _, rfl, by rw [← hd]; rfl⟩
  · dsimp only
    rw [e1]
    unfold processEstimationOptions
    simp only [withMixtures, ho, Option.map_some, Option.getD_some]

theorem withMixtures_names (hg : GoodNames m) (k : ℕ) : GoodNames (withMixtures m k) := ⟨⟨hg.keys.factors, hg.keys.outcomes⟩, hg.distinct, hg.controls, hg.chars, hg.reserved, hg.registered⟩

theorem isLatent_latName (f : Fin (nLat m)) : IsLatent m (latName m f) := by
  obtain ⟨⟨_, spec⟩, hs, h⟩ := List.mem_map.mp (List.mem_of_getElem? (latName_get f))
  exact ⟨spec, h ▸ hs⟩

theorem labelCarry_merges {merge : ℕ → ℕ} {val val' : Loc → ℝ} (h : Copies m k k' merge val val') (nObs : ℕ) :
    (labelCarry (withMixtures m k') val' nObs k').Merges (fun e => (⟨merge e, h.inRange e e.isLt⟩ : Fin k)) (labelCarry m val nObs k) where
  states i e := by
    funext f
    exact h.states e e.isLt _ (isLatent_latName f)
  upperChols i e := by
    ext a b
    show (if a ≤ b then _ else _) = (if a ≤ b then _ else _)
    split_ifs
    · exact h.cholcovs e e.isLt _ _ (isLatent_latName b) (isLatent_latName a)
    · rfl
  logWeights i := by
    constructor
    · intro e
      show ∑ e' : Fin k' with _, Real.exp (Real.log (val' ⟨.mixtureWeights, 0, Spec.mixtureName e', "-"⟩)) = Real.exp (Real.log (val ⟨.mixtureWeights, 0, Spec.mixtureName e, "-"⟩))
      rw [Real.exp_log (h.positive e e.isLt), h.weights e e.isLt]
      rw [Finset.sum_filter, Finset.sum_filter, ← Fin.sum_univ_eq_sum_range (fun e' => if merge e' = e then val' ⟨.mixtureWeights, 0, Spec.mixtureName e', "-"⟩ else 0)]
      refine Finset.sum_congr rfl (fun e' _ => ?_)
      rw [Real.exp_log (h.positive' e' e'.isLt)]
      simp only [Fin.ext_iff]
    · show ∑ e : Fin k, Real.exp (Real.log (val _)) = 1
      rw [← h.total, ← Fin.sum_univ_eq_sum_range (fun e => val ⟨.mixtureWeights, 0, Spec.mixtureName e, "-"⟩)]
      exact Finset.sum_congr rfl (fun e _ => Real.exp_log (h.positive e e.isLt))

theorem labelRow_copies {merge : ℕ → ℕ} {val val' : Loc → ℝ} (h : Copies m k k' merge val val') (r : URow) : (labelRow (withMixtures m k') val' r : UpdateParams (nLat m) (nCon m)) = labelRow m val r := by
  have h' : ∀ l : Loc, l.cat ≠ .initialStates → l.cat ≠ .initialCholcovs → l.cat ≠ .mixtureWeights → val' l = val l := h.others
  show ({ period := r.period, var := r.var, isMeasurement := decide (r.purpose = .measurement), loadings := fun f => if latName m f ∈ r.trueCols then val' ⟨.loadings, r.period, r.var, latName m f⟩ else 0
          controlParams := fun c => val' ⟨.controls, r.period, r.var, conName m c⟩, sd := val' ⟨.measSds, r.period, r.var, "-"⟩ } : UpdateParams (nLat m) (nCon m)) = _
  unfold labelRow
  congr 1
  · funext f
    rw [h' _ (by simp) (by simp) (by simp)]
  · funext c
    rw [h' _ (by simp) (by simp) (by simp)]
  · rw [h' _ (by simp) (by simp) (by simp)]

theorem labelFixed_copies {merge : ℕ → ℕ} {val val' : Loc → ℝ} (h : Copies m k k' merge val val') (custom : String → CustomFn) (nObs nT : ℕ) (con : Fin (nT + 2) → Fin nObs → Fin (nCon m) → ℝ)
    (obs : Fin (nT + 2) → Fin nObs → Fin (nObsd m) → ℝ) :
    (labelFixed custom (withMixtures m k') { pm with dimensions := { pm.dimensions with nMixtures := k' }, estimationOptions := { pm.estimationOptions with nMixtures := some k' } } val' nObs nT con obs :
      ScanFixed nObs nT (nLat m) (nObsd m) (nCon m) (Dict (List ℝ))) = labelFixed custom m pm val nObs nT con obs := by
  have h' : ∀ l : Loc, l.cat ≠ .initialStates → l.cat ≠ .initialCholcovs → l.cat ≠ .mixtureWeights → val' l = val l := h.others
  have e1 : ∀ t, transParams pm val' t = transParams pm val t := fun t => by
    unfold transParams
    refine List.map_congr_left (fun fn _ => ?_)
    congr 1
    refine List.map_congr_left (fun nm _ => ?_)
    exact h' _ (by simp) (by simp) (by simp)
  have e2 : ∀ t f, scalingOf m val' t f = scalingOf m val t f := fun t f => by
    unfold scalingOf
    cases outcomeOf m f with
    | none => rfl
    | some o => exact h' _ (by simp) (by simp) (by simp)
  have e3 : ∀ t f, constantOf m val' t f = constantOf m val t f := fun t f => by
    unfold constantOf
    split_ifs
    · rfl
    · cases outcomeOf m f with
      | none => rfl
      | some o => exact h' _ (by simp) (by simp) (by simp)
  have e4 : ∀ t f, val' ⟨.shockSds, t, f, "-"⟩ = val ⟨.shockSds, t, f, "-"⟩ := fun t f => h' _ (by simp) (by simp) (by simp)
  show ({ controls := con, observed := obs, transition := fun t => transParams pm val' t, shockSds := fun t f => val' ⟨.shockSds, t, latName m f, "-"⟩, scaling := fun t f => scalingOf m val' t (allName m f)
          constants := fun t f => constantOf m val' t (allName m f), sigmaScalingFactor := sigmaScalingFactor (nLat m) pm.estimationOptions.sigmaPointsScale
          sigmaWeights := sigmaWeights (nLat m) pm.estimationOptions.sigmaPointsScale, func := fun params states => transitionValues (nLat m) (allFactors m) (transitionFns custom m) params states } :
      ScanFixed nObs nT (nLat m) (nObsd m) (nCon m) (Dict (List ℝ))) = _
  simp only [e1, e2, e3, e4]
  rfl

section evaluate
variable (hg : GoodNames m) (hc : CleanAnchoring m) (ho : SameOrder m) (hk : HasNMixtures m k) {merge : ℕ → ℕ} {val val' : Loc → ℝ} (hcopy : Copies m k k' merge val val') {df : LongData ℝ}

include hg hc ho hk hcopy in
theorem evaluate_merges {inputs inputs' : MaximizationInputs} (hin : getMaximizationInputs m df = .ok inputs) (hin' : getMaximizationInputs (withMixtures m k') df = .ok inputs') {qr : QR} {custom : String → CustomFn} {nan : ℝ}
    {params params' : List (Loc × ℝ)} (hn : (params.map Prod.fst).Nodup) (hval : ∀ l x, (l, x) ∈ params → x = val l) (hn' : (params'.map Prod.fst).Nodup) (hval' : ∀ l x, (l, x) ∈ params' → x = val' l)
    {γ γ' : Type} {post : (nObs nMix n : ℕ) → LoglikeResult nObs nMix n → Py γ} {post' : (nObs nMix n : ℕ) → LoglikeResult nObs nMix n → Py γ'} {out : γ} {out' : γ'}
    (h : inputs.evaluate post qr custom nan m params = .ok out) (h' : inputs'.evaluate post' qr custom nan (withMixtures m k') params' = .ok out') :
    ∃ (nObs : ℕ) (r : LoglikeResult nObs k (nLat m)) (r' : LoglikeResult nObs k' (nLat m)), post nObs _ _ r = .ok out ∧ post' nObs _ _ r' = .ok out' ∧ r'.value = r.value ∧ r'.contributions = r.contributions ∧
      r'.allContributions = r.allContributions ∧ List.Forall₂ (StepOut.Merges (fun e => (⟨merge e, hcopy.inRange e e.isLt⟩ : Fin k))) r'.outs r.outs ∧ r.outs.length = inputs.model.updateInfo.length := by
  obtain ⟨pm, nT, con, obs, data, r, hpm, hT, hd, hcon, hobs, hmeas, hr, hpost⟩ := evaluate_explicit hg hc ho hin hn hval h rfl
  have hpm1 := processModel_withMixtures hpm k'
  obtain ⟨info, cs, e1⟩ : ∃ info cs, inputs = { model := pm, index := pm.paramsIndex, info := info, data := inputs.data, constraints := cs, template := pm.paramsTemplate } := by
    obtain ⟨pm0, info, data, cs, g1, _, _, _, g2⟩ := getMaximizationInputs_ok.mp hin
    obtain rfl := Except.ok.inj (hpm.symm.trans g1)
    exact ⟨info, cs, by rw [g2]⟩
  have hdata : inputs'.data = inputs.data := by
    obtain ⟨pm0, info, data, cs, g1, _, g3, _, g2⟩ := getMaximizationInputs_ok.mp hin'
    obtain rfl := Except.ok.inj (hpm1.symm.trans g1)
    rw [g2]
    exact Except.ok.inj (g3.symm.trans hd)
  obtain ⟨pm', nT', con', obs', data', r', hpm', hT', hd', hcon', hobs', hmeas', hr', hpost'⟩ := evaluate_explicit (withMixtures_names hg k') ⟨hc.latent, hc.notMeasured, hc.distinct⟩ ho hin' hn' hval' h' (by rw [hdata])
  obtain rfl := Except.ok.inj (hpm1.symm.trans hpm')
  obtain rfl : nT = nT' := by
    have : pm.dimensions.nPeriods = nT' + 2 := hT'
    omega
  obtain rfl : pm.dimensions.nMixtures = k := ((hasNMixtures_of_ok hpm k).mp hk).symm
  have hcc : con = con' := by
    funext t i j
    obtain ⟨w, h1, h2⟩ := hcon t i j
    obtain ⟨w', h1', h2'⟩ := hcon' t i j
    rw [hdata] at h1'
    rw [h2, h2', Option.some.inj (h1.symm.trans h1')]
  have hoo : obs = obs' := by
    funext t i j
    obtain ⟨w, h1, h2⟩ := hobs t i j
    obtain ⟨w', h1', h2'⟩ := hobs' t i j
    rw [hdata] at h1'
    rw [h2, h2', Option.some.inj (h1.symm.trans h1')]
  have hdd : data = data' := by
    funext k i
    have := hmeas' k i
    rw [hdata] at this
    exact Option.some.inj ((hmeas k i).symm.trans this)
  subst hcc hoo hdd
  have hargs : pm.updateInfo.map (fun q => (labelRow (withMixtures m k') val' q : UpdateParams (nLat m) (nCon m))) = pm.updateInfo.map (labelRow m val) := List.map_congr_left (fun q _ => labelRow_copies hcopy q)
  obtain ⟨r2, hr2, hpost2⟩ : ∃ r2 : LoglikeResult (inputs.data.controls.headD []).length k' (nLat m), logLikelihood qr (labelFixed custom m pm val (inputs.data.controls.headD []).length nT con obs) (clipOptions pm.estimationOptions)
      (labelCarry (withMixtures m k') val' (inputs.data.controls.headD []).length k') (loopArgs (nT + 1) (pm.updateInfo.map (labelRow m val)) (List.ofFn data)) = .ok r2 ∧
      post' (inputs.data.controls.headD []).length k' (nLat m) r2 = .ok out' := by
    refine ⟨r', ?_, hpost'⟩
    rw [← labelFixed_copies hcopy, ← hargs]
    exact hr'
  obtain ⟨o1, o2, o3, o4⟩ := logLikelihood_ok hr
  obtain ⟨o1', o2', o3', o4'⟩ := logLikelihood_ok hr2
  have hout : List.Forall₂ (StepOut.Merges (fun e => (⟨merge e, hcopy.inRange e e.isLt⟩ : Fin pm.dimensions.nMixtures))) r2.outs r.outs := by
    rw [o1, o1']
    exact outs_merges (labelCarry_merges hcopy _) qr _ _
  have hll : r2.outs.map (fun o => o.loglikes) = r.outs.map (fun o => o.loglikes) := by
    have : ∀ {xs : List (StepOut (inputs.data.controls.headD []).length k' (nLat m))} {ys : List (StepOut (inputs.data.controls.headD []).length pm.dimensions.nMixtures (nLat m))},
        List.Forall₂ (StepOut.Merges (fun e => (⟨merge e, hcopy.inRange e e.isLt⟩ : Fin pm.dimensions.nMixtures))) xs ys → xs.map (fun o => o.loglikes) = ys.map (fun o => o.loglikes) := by
      intro xs ys hxy
      induction hxy with
      | nil => rfl
      | cons hab _ ih => rw [List.map_cons, List.map_cons, ih, hab.loglikes]
    exact this hout
  refine ⟨_, r, r2, hpost, hpost2, ?_, ?_, ?_, hout, ?_⟩
  · have h1 : ∀ {nMix : ℕ} (os : List (StepOut (inputs.data.controls.headD []).length nMix (nLat m))) (c : (Fin (inputs.data.controls.headD []).length → ℝ) → ℝ), os.map (fun o => c o.loglikes) = (os.map (fun o => o.loglikes)).map c :=
      fun os c => by rw [List.map_map]; rfl
    rw [o4, o4', h1 r2.outs (fun ll => ∑ i, softClipping (ll i) _ _ _ _), h1 r.outs (fun ll => ∑ i, softClipping (ll i) _ _ _ _), hll]
  · have h1 : ∀ {nMix : ℕ} (os : List (StepOut (inputs.data.controls.headD []).length nMix (nLat m))) (c : (Fin (inputs.data.controls.headD []).length → ℝ) → ℝ), os.map (fun o => c o.loglikes) = (os.map (fun o => o.loglikes)).map c :=
      fun os c => by rw [List.map_map]; rfl
    funext i
    rw [o3, o3', h1 r2.outs (fun ll => softClipping (ll i) _ _ _ _), h1 r.outs (fun ll => softClipping (ll i) _ _ _ _), hll]
  · rw [o2, o2', hll]
  · rw [o1, outs_length, loopArgs_length _ _ (by simp), List.length_map, e1]

include hg hc ho hk hcopy in
/-- **C136**: if several mixture elements are copies of one element, the value of the log likelihood function and all contributions are the same as with the one element that has the sum of their weights. In particular a model
with one mixture element is nested in the models with several elements. -/
theorem C136_same_likelihood {inputs inputs' : MaximizationInputs} (hin : getMaximizationInputs m df = .ok inputs) (hin' : getMaximizationInputs (withMixtures m k') df = .ok inputs') {qr : QR} {custom : String → CustomFn} {nan : ℝ}
    {params params' : List (Loc × ℝ)} (hn : (params.map Prod.fst).Nodup) (hval : ∀ l x, (l, x) ∈ params → x = val l) (hn' : (params'.map Prod.fst).Nodup) (hval' : ∀ l x, (l, x) ∈ params' → x = val' l)
    {out out' : LoglikeOutput} (h : inputs.loglike qr custom nan m params = .ok out) (h' : inputs'.loglike qr custom nan (withMixtures m k') params' = .ok out') :
    out'.value = out.value ∧ out'.contributions = out.contributions ∧ out'.allContributions = out.allContributions := by
  obtain ⟨nObs, r, r', h1, h2, h3, h4, h5, _⟩ := evaluate_merges hg hc ho hk hcopy hin hin' hn hval hn' hval' h h'
  obtain rfl := Except.ok.inj h1
  obtain rfl := Except.ok.inj h2
  unfold LoglikeResult.output
  dsimp only
  rw [h3, h4, h5]
  exact ⟨rfl, rfl, rfl⟩

theorem createFilteredStates_merges {nObs n : ℕ} {σ : Fin k' → Fin k} {os' : List (StepOut nObs k' n)} {os : List (StepOut nObs k n)} (h : List.Forall₂ (StepOut.Merges σ) os' os) (u : List URow) :
    createFilteredStates os' u = createFilteredStates os u := by
  unfold createFilteredStates
  cases hk : keepUpdates u with
  | error e => rfl
  | ok keep =>
    have e : ∀ x : ℕ × ℕ, (do
        let out ← pyIndex os' x.1
        pure ((List.finRange nObs).map (fun i => ({ values := aggregate out.states out.logWeights i, period := x.2, id := i.val } : FilteredRow n))) : Py _) =
        (do
        let out ← pyIndex os x.1
        pure ((List.finRange nObs).map (fun i => ({ values := aggregate out.states out.logWeights i, period := x.2, id := i.val } : FilteredRow n)))) := by
      intro x
      unfold pyIndex
      by_cases hx : x.1 < os.length
      · have hx' : x.1 < os'.length := by rw [h.length_eq]; exact hx
        rw [List.getElem?_eq_getElem hx, List.getElem?_eq_getElem hx']
        have := (List.forall₂_iff_get.mp h).2 x.1 hx' hx
        rw [List.get_eq_getElem, List.get_eq_getElem] at this
        show (Except.ok _ : Py _) = Except.ok _
        rw [aggregate_merges this]
      · have hx' : ¬x.1 < os'.length := by rw [h.length_eq]; exact hx
        rw [List.getElem?_eq_none (by omega), List.getElem?_eq_none (by omega)]
        rfl
    simp only [e]

include hg hc ho hk hcopy in
/-- **C136**: the filtered states (averages over the mixture elements) and their ranges are the same, anchored and not anchored. As in C51, each period of the model needs a measurement that is not an anchoring outcome. -/
theorem C136_same_filtered_states (hq : ∀ f, IsLatent m f → querySafe f) (hper : IsPeriod m 1) (hmeas : ∀ t, IsPeriod m t → ∃ v f, Measures m t v f ∧ ¬ ∃ g, Anchors m v g) {qr : QR} {custom : String → CustomFn} {nan : ℝ}
    {params params' : List (Loc × ℝ)} (hn : (params.map Prod.fst).Nodup) (hval : ∀ l x, (l, x) ∈ params → x = val l) (hn' : (params'.map Prod.fst).Nodup) (hval' : ∀ l x, (l, x) ∈ params' → x = val' l)
    {out out' : FilteredStates} (h : getFilteredStates qr custom nan m df params = .ok out) (h' : getFilteredStates qr custom nan (withMixtures m k') df params' = .ok out') : out' = out := by
  unfold getFilteredStates at h h'
  simp only [py_bind_ok, py_pure_ok] at h h'
  obtain ⟨inputs, hin, par, hpar, d, hdeb, pm, hpm, anc, hanc, rfl⟩ := h
  obtain ⟨inputs', hin', par', hpar', d', hdeb', pm', hpm', anc', hanc', rfl⟩ := h'
  have hpm1 := processModel_withMixtures hpm k'
  obtain rfl := Except.ok.inj (hpm1.symm.trans hpm')
  have hpr : inputs.model = pm ∧ inputs.template.map Prod.fst = pm.paramsIndex := by
    obtain ⟨pm1, _, _, _, hp, _, _, _, rfl⟩ := getMaximizationInputs_ok.mp hin
    obtain rfl := Except.ok.inj (hpm.symm.trans hp)
    exact ⟨rfl, by simp [Processed.paramsTemplate, addBounds, Function.comp_def]⟩
  set pm1 : Processed ℝ := { pm with dimensions := { pm.dimensions with nMixtures := k' }, estimationOptions := { pm.estimationOptions with nMixtures := some k' } } with hdef
  have hpr' : inputs'.model = pm1 ∧ inputs'.template.map Prod.fst = pm1.paramsIndex := by
    obtain ⟨pm2, _, _, _, hp, _, _, _, rfl⟩ := getMaximizationInputs_ok.mp hin'
    obtain rfl := Except.ok.inj (hpm1.symm.trans hp)
    exact ⟨rfl, by simp [Processed.paramsTemplate, addBounds, Function.comp_def]⟩
  obtain ⟨k1, k2⟩ := locParams_ok hn hpar
  obtain ⟨k1', k2'⟩ := locParams_ok hn' hpar'
  rw [hpr.2] at k1
  rw [hpr'.2] at k1'
  have hg' := withMixtures_names hg k'
  have hnp : (par.map Prod.fst).Nodup := by rw [k1]; exact C06_index_unique_partial hpm hg
  have hnp' : (par'.map Prod.fst).Nodup := by rw [k1']; exact C06_index_unique_partial hpm1 hg'
  have hlook : ∀ {m0 : ModelDict ℝ} {p0 : Processed ℝ} (_ : processModel m0 = .ok p0) {ps : List (Loc × ℝ)} {v : Loc → ℝ}, ps.map Prod.fst = p0.paramsIndex → (ps.map Prod.fst).Nodup → (∀ l x, (l, x) ∈ ps → x = v l) →
      ∀ l, IsParam m0 l → ps.lookup l = some (v l) := by
    intro m0 p0 hp0 ps v e hnd hv l hl
    have : l ∈ ps.map Prod.fst := by rw [e]; exact (mem_paramsIndex_iff hp0 l).mpr hl
    obtain ⟨⟨l', x⟩, hx, rfl⟩ := List.mem_map.mp this
    rw [lookup_of_mem hnd hx, hv _ _ hx]
  have hv1 : ∀ l x, (l, x) ∈ par → x = val l := fun l x hx => hval l x (k2 _ hx)
  have hv2 : ∀ l x, (l, x) ∈ par' → x = val' l := fun l x hx => hval' l x (k2' _ hx)
  unfold MaximizationInputs.debugLoglike at hdeb hdeb'
  obtain ⟨nObs, r, r', h1, h2, _, _, _, h5, h6⟩ := evaluate_merges hg hc ho hk hcopy hin hin' hnp hv1 hnp' hv2 hdeb hdeb'
  rw [hpr.1] at h1 h6
  rw [hpr'.1] at h2
  obtain ⟨rows, hr1, hf1, hs1⟩ := processDebugData_ok h1
  obtain ⟨rows', hr2, hf2, hs2⟩ := processDebugData_ok h2
  obtain rfl : rows' = rows := Except.ok.inj (hr2.symm.trans ((createFilteredStates_merges h5 _).trans hr1))
  have hfs : d'.filteredStates = d.filteredStates := hf2.trans hf1.symm
  have hrs : d'.stateRanges = d.stateRanges := hs2.trans hs1.symm
  have hcols : ∀ (f : String), IsLatent m f → f ∈ d.filteredStates.columns := fun f hf => by
    obtain ⟨spec, hf⟩ := hf
    rw [hf1]
    exact List.mem_append_left _ ((labels_of_ok hpm).1 ▸ List.mem_map.mpr ⟨_, hf, rfl⟩)
  have hself := filteredRows_upTo hpm hmeas h6 h6 hr1 hr1 (T := 0) (fun _ _ _ _ => rfl)
  have hperiods : ∀ w ∈ d.filteredStates.rows, IsPeriod m w.1 := fun w hw => by
    rw [hf1] at hw
    obtain ⟨q, hq, rfl⟩ := List.mem_map.mp hw
    obtain ⟨_, _, hb⟩ := forall₂_mem hself hq
    exact hb.2.1
  have hmix : ¬HasNMixtures m 0 := fun h0 => by
    obtain rfl : k = 0 := by rw [(hasNMixtures_of_ok hpm k).mp hk, (hasNMixtures_of_ok hpm 0).mp h0]
    exact zero_ne_one hcopy.total
  have hmix' : ¬HasNMixtures (withMixtures m k') 0 := fun h0 => by
    obtain rfl : 0 = k' := (hasNMixtures_of_ok hpm1 0).mp h0
    have hk0 : 0 < k := Nat.pos_of_ne_zero (by rintro rfl; exact zero_ne_one hcopy.total)
    have := hcopy.positive 0 hk0
    rw [hcopy.weights 0 hk0] at this
    exact lt_irrefl _ this
  rw [hfs] at hanc'
  obtain ⟨anc1, a1, c1, a2, a3⟩ := C54_anchored_states hpm hg hc ho hq hper hmix Real.log (df := d.filteredStates) (hlook hpm k1 hnp hv1) hcols hperiods
  obtain rfl := Except.ok.inj (hanc.symm.trans a1)
  obtain ⟨anc2, b1, c2, b2, b3⟩ := C54_anchored_states hpm1 hg' ⟨hc.latent, hc.notMeasured, hc.distinct⟩ ho hq hper hmix' Real.log (df := d.filteredStates) (hlook hpm1 k1' hnp' hv2) hcols hperiods
  obtain rfl := Except.ok.inj (hanc'.symm.trans b1)
  have key : anc' = anc := by
    obtain ⟨cs, rs⟩ := anc
    obtain ⟨cs', rs'⟩ := anc'
    dsimp only at c1 c2 a2 b2 a3 b3
    rw [c1, c2]
    congr 1
    refine List.ext_getElem (by rw [a2, b2]) (fun j hj' hj => ?_)
    have hjl : j < d.filteredStates.rows.length := by omega
    obtain ⟨cells', e1, e2, e3, e4⟩ := a3 j d.filteredStates.rows[j].1 d.filteredStates.rows[j].2 (List.getElem?_eq_getElem hjl)
    obtain ⟨cells2', g1, g2, g3, g4⟩ := b3 j d.filteredStates.rows[j].1 d.filteredStates.rows[j].2 (List.getElem?_eq_getElem hjl)
    rw [List.getElem?_eq_getElem hj] at e1
    rw [List.getElem?_eq_getElem hj'] at g1
    rw [Option.some.inj e1, Option.some.inj g1]
    congr 1
    funext col
    by_cases hcol : ∃ o, AnchoredIn m col o
    · obtain ⟨o, hco⟩ := hcol
      have hL := hcopy.others ⟨.loadings, d.filteredStates.rows[j].1, o ++ "_" ++ col, col⟩ (by simp) (by simp) (by simp)
      have hC := hcopy.others ⟨.controls, d.filteredStates.rows[j].1, o ++ "_" ++ col, "constant"⟩ (by simp) (by simp) (by simp)
      by_cases hflag : AnchorFlag m AnchoringSpec.ignoreConstant
      · rw [e4 col o hco hflag, g4 col o hco hflag, hL]
      · rw [e3 col o hco hflag, g3 col o hco hflag, hL, hC]
    · rw [e2 col hcol, g2 col hcol]
  rw [key, hfs, hrs]

end evaluate

end Skill
