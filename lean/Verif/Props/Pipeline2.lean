import Verif.Props.Pipeline
import Verif.Lemmas.Constraints2
/-
C70: the likelihood function can be evaluated.
-/
namespace Skill
open Matrix MeasureTheory ProbabilityTheory Spec

theorem setMasked_length {β : Type} (mask : List Bool) (row values : List β) : (setMasked mask row values).length = row.length := by
  induction mask generalizing row values with
  | nil => cases row <;> cases values <;> simp [setMasked]
  | cons b ms ih =>
    cases b <;> cases row <;> cases values <;> simp [setMasked, ih]

/-- The shapes of the arrays for anchoring. -/
theorem anchoring_shapes {m : ModelDict ℝ} {pm : Processed ℝ} (hpm : processModel m = .ok pm) (hg : GoodNames m) (hc : CleanAnchoring m) {val : Loc → ℝ} {nObs : ℕ} {p : Parsed ℝ}
    (hp : pm.parse Real.log (pm.paramsIndex.map val) nObs = .ok p) :
    (p.scalingFactors.length = pm.dimensions.nPeriods ∧ ∀ x ∈ p.scalingFactors, x.length = nLat m + nObsd m) ∧
    (p.anchoringConstants.length = pm.dimensions.nPeriods ∧ ∀ x ∈ p.anchoringConstants, x.length = nLat m + nObsd m) := by
  obtain ⟨_, _, _, hcon, hload, _⟩ := C07_parsed_values hpm hg rfl hp
  rw [parse_ok_iff] at hp
  obtain ⟨info, hi, _, _, _, _, _, _, _, _, h9, h10⟩ := hp
  rw [createParsingInfo_ok] at hi
  obtain ⟨tr, htr, rfl⟩ := hi
  rw [hload, scaling_explicit hpm hg.keys hc val rfl rfl] at h9
  rw [hcon, constants_explicit hpm hg.keys hc val rfl rfl] at h10
  rw [← Except.ok.inj h9, ← Except.ok.inj h10]
  refine ⟨⟨by simp, ?_⟩, by simp, ?_⟩
  · intro x hx
    obtain ⟨t, _, rfl⟩ := List.mem_map.mp hx
    simp [setMasked_length]
  · intro x hx
    obtain ⟨t, _, rfl⟩ := List.mem_map.mp hx
    split_ifs <;> simp [setMasked_length]

theorem fillNaN_shape {nan : ℝ} {xs : List (List (List (Option ℝ)))} {k l p : ℕ} (h1 : xs.length = k) (h2 : ∀ x ∈ xs, x.length = l ∧ ∀ y ∈ x, y.length = p) :
    ∃ g, toArray3 k l p (fillNaN nan xs) = .ok g := by
  refine toArray3_exists (by simp [fillNaN, h1]) ?_
  intro x hx
  obtain ⟨a, ha, rfl⟩ := List.mem_map.mp hx
  refine ⟨by simp [(h2 a ha).1], ?_⟩
  intro y hy
  obtain ⟨b, hb, rfl⟩ := List.mem_map.mp hy
  simp [(h2 a ha).2 b hb]

/-- The clipping of the likelihood function is the clipping that the user asked for. -/
theorem softClipping_user {m : ModelDict ℝ} {pm : Processed ℝ} (hpm : processModel m = .ok pm) {o : EstSpec ℝ} (ho : m.estimationOptions = some o) (x : ℝ) :
    softClipping x (clipOptions pm.estimationOptions).lower (clipOptions pm.estimationOptions).upper (clipOptions pm.estimationOptions).lowerHardness (clipOptions pm.estimationOptions).upperHardness =
      clippedContribution o x := by
  rw [(processModel_ok_iff.mp hpm).2.2.2.2.2.1]
  unfold processEstimationOptions clipOptions clippedContribution softClipping
  simp only [ho, Option.getD_some]
  rcases o.clippingLowerBound with _ | _ | l <;> rcases o.clippingUpperBound with _ | _ | u <;>
    simp [smoothMax, smoothMin, lse_pair, add_comm, neg_div]

/-- The vector of parameters that `_get_jnp_params_vec` makes of a DataFrame. -/
theorem paramsVec_ok {index : List Loc} {params : List (Loc × ℝ)} {val : Loc → ℝ} (hn : (params.map Prod.fst).Nodup) (hlab : ∀ l, l ∈ params.map Prod.fst ↔ l ∈ index) (hval : ∀ l x, (l, x) ∈ params → x = val l) :
    getJnpParamsVec params index = .ok (index.map val) := by
  obtain ⟨a1, _⟩ := C09_row_order_irrelevant (params := params) (target := index) hn
  obtain ⟨vec, hv, hlen, hget⟩ := a1 hlab
  rw [hv]
  congr 1
  refine List.ext_getElem (by simp [hlen]) (fun k k1 k2 => ?_)
  have hk : k < index.length := by simpa using k2
  obtain ⟨⟨l, x⟩, hx, hl⟩ := List.mem_map.mp ((hlab index[k]).mpr (List.getElem_mem hk))
  dsimp only at hl
  have := hget k index[k] x (List.getElem?_eq_getElem hk) (hl ▸ hx)
  rw [List.getElem?_eq_getElem k1] at this
  rw [List.getElem_map, Option.some.inj this, ← hl]
  exact hval l x hx

/-- Under the conditions of C70 the likelihood function can be evaluated; what it computes in terms of the labels. -/
theorem evaluateVec_succeeds {m : ModelDict ℝ} {pm : Processed ℝ} (hpm : processModel m = .ok pm) (hg : GoodNames m) (hc : CleanAnchoring m) (ho : SameOrder m) (hclash : NoNameClash m)
    (hq : ∀ f, IsLatent m f → querySafe f) (hper : IsPeriod m 1) {k : ℕ} (hmix : HasNMixtures m k) (hk : k = 1 ∨ k ≠ 0 ∧ m.observedFactors.getD [] = [])
    {df : LongData ℝ} (hi : IndexOk df) (hu : NoUnusedPeriods df) {ids pers : List Int} (hids : IdsOf df ids) (hpers : PeriodsOf df pers) (hdata : DataOk m df ids pers) :
    ∃ inputs, getMaximizationInputs m df = .ok inputs ∧ inputs.model = pm ∧ inputs.index = pm.paramsIndex ∧ inputs.template = pm.paramsTemplate ∧
      ∀ nan : ℝ, ∃ (nT : ℕ) (con : Fin (nT + 2) → Fin ids.length → Fin (nCon m) → ℝ) (obs : Fin (nT + 2) → Fin ids.length → Fin (nObsd m) → ℝ) (dat : Fin pm.updateInfo.length → Fin ids.length → Option ℝ),
        pm.dimensions.nPeriods = nT + 2 ∧ ∀ (qr : QR) (custom : String → CustomFn) (val : Loc → ℝ),
          (∀ fs ∈ m.factors, TransFn.Usable (allFactors m) (fun name => val ⟨.transition, 0, fs.1, name⟩) (transFnOf (custom fs.1) fs.2.transition)) →
          ∃ (r : LoglikeResult ids.length pm.dimensions.nMixtures (nLat m)), logLikelihood qr (labelFixed custom m pm val ids.length nT con obs) (clipOptions pm.estimationOptions)
              (labelCarry m val ids.length pm.dimensions.nMixtures) (loopArgs (nT + 1) (pm.updateInfo.map (labelRow m val)) (List.ofFn dat)) = .ok r ∧
            ∀ {γ : Type} (post : (nObs nMix n : ℕ) → LoglikeResult nObs nMix n → Py γ), inputs.evaluateVec post qr custom nan m (pm.paramsIndex.map val) = post _ _ _ r := by
  obtain ⟨data, hdat⟩ := (C66_accepts_iff hpm hg.keys hclash hi hu hids hpers).mpr hdata
  obtain ⟨c1, c5, c7, _, _, _, hcs⟩ := constraints_ok hpm hg.keys
  have hk0 : pm.dimensions.nMixtures = k := ((hasNMixtures_of_ok hpm k).mp hmix).symm
  have hmix0 : ¬HasNMixtures m 0 := fun h0 => by
    have := (hasNMixtures_of_ok hpm 0).mp h0
    rcases hk with h | h <;> omega
  obtain ⟨nT, hT⟩ : ∃ nT, pm.dimensions.nPeriods = nT + 2 := ⟨pm.dimensions.nPeriods - 2, by have := (isPeriod_iff hpm 1).mp hper; omega⟩
  obtain ⟨info, hinfo⟩ : ∃ info, createParsingInfo pm.paramsIndex pm.updateInfo pm.labels pm.anchoring = .ok info := by
    obtain ⟨p, hp⟩ := C64_parse_succeeds_partial hpm hg hc hq hper hmix0 Real.log 0 (pm.paramsIndex.map (fun _ => (0 : ℝ))) (by simp)
    obtain ⟨info, h, _⟩ := parse_ok_iff.mp hp
    exact ⟨info, h⟩
  refine ⟨_, by
    unfold getMaximizationInputs
    simp only [py_bind_ok, py_pure_ok]
    exact ⟨pm, hpm, info, hinfo, data, hdat, _, hcs, rfl⟩, rfl, rfl, rfl, ?_⟩
  intro nan
  obtain ⟨meas, hmeas, ⟨s1, s2⟩, ⟨s3, s4⟩, ⟨s5, s6⟩, _⟩ := C27_data_arrays hpm hg.keys hclash hi hu hids hpers hdat
  have hnp : IsNPeriods m (nT + 2) := hT ▸ isNPeriods_of_ok hpm
  have s3 := IsNPeriods.unique s3 hnp
  have s5 := IsNPeriods.unique s5 hnp
  have hObs : (data.controls.headD []).length = ids.length := by
    cases hcon : data.controls with
    | nil => rw [hcon] at s3; simp at s3
    | cons x xs => exact (s4 x (by rw [hcon]; simp)).1
  obtain ⟨dat, hdatArr⟩ : ∃ dat, toArray2 pm.updateInfo.length ids.length meas = .ok dat := toArray2_exists s1 s2
  refine ⟨nT, fun t i j => ((entry3 data.controls t i j).getD none).getD nan, fun t i j => ((entry3 data.observedFactors t i j).getD none).getD nan, dat, hT, ?_⟩
  intro qr custom val husable
  obtain ⟨p, hparse⟩ := C64_parse_succeeds_partial hpm hg hc hq hper hmix0 Real.log ids.length (pm.paramsIndex.map val) (by simp)
  have hp : parseParams Real.log (pm.paramsIndex.map val) info pm.dimensions pm.labels ids.length = .ok p := by
    have h := hparse
    unfold Processed.parse at h
    obtain ⟨info', hi', h⟩ := py_bind_ok.mp h
    obtain rfl := Except.ok.inj (hinfo.symm.trans hi')
    exact h
  obtain ⟨p1, p2, p3, p4, p5, p6, p7, p8⟩ := C07_parsed_values hpm hg rfl hparse
  obtain ⟨⟨a1, a2⟩, a3, a4⟩ := anchoring_shapes hpm hg hc hparse
  rw [hT] at a1 a3 p7 p8
  -- the inputs of the loop
  obtain ⟨con, e1⟩ := fillNaN_shape (nan := nan) s3 s4
  obtain ⟨obs, e2⟩ := fillNaN_shape (nan := nan) s5 s6
  have e3 := transition_arrays pm val nT
  obtain ⟨sh, e4⟩ : ∃ sh, toArray2 (nT + 1) (nLat m) p.shockSds = .ok sh := toArray2_exists (by rw [p7]; simp) (by
    intro x hx
    rw [p7] at hx
    obtain ⟨t, _, rfl⟩ := List.mem_map.mp hx
    simp)
  obtain ⟨sc, e5⟩ : ∃ sc, toArray2 (nT + 2) (nLat m + nObsd m) p.scalingFactors = .ok sc := toArray2_exists a1 a2
  obtain ⟨co, e6⟩ : ∃ co, toArray2 (nT + 2) (nLat m + nObsd m) p.anchoringConstants = .ok co := toArray2_exists a3 a4
  obtain ⟨fixed, hfixed⟩ : ∃ fixed, scanInputs ids.length nT (nLat m) (nObsd m) (nCon m) nan (allFactors m) (transitionFns custom m) pm.estimationOptions.sigmaPointsScale p data.controls data.observedFactors = .ok fixed := by
    unfold scanInputs
    simp only [py_bind_ok, py_pure_ok]
    rw [p8]
    exact ⟨_, con, e1, obs, e2, _, e3, sh, e4, sc, e5, co, e6, rfl⟩
  obtain ⟨con', obs', rfl, hc1, hc2⟩ := scanInputs_label hpm hg hc ho custom hT hparse hfixed
  obtain rfl : con' = fun (t : Fin (nT + 2)) (i : Fin ids.length) (j : Fin (nCon m)) => ((entry3 data.controls t i j).getD none).getD nan := by
    funext t i j
    obtain ⟨w, hw, he⟩ := hc1 t i j
    rw [hw, he, Option.getD_some]
  obtain rfl : obs' = fun (t : Fin (nT + 2)) (i : Fin ids.length) (j : Fin (nObsd m)) => ((entry3 data.observedFactors t i j).getD none).getD nan := by
    funext t i j
    obtain ⟨w, hw, he⟩ := hc2 t i j
    rw [hw, he, Option.getD_some]
  obtain ⟨carry, hcarry⟩ : ∃ carry, initialCarry ids.length pm.dimensions.nMixtures (nLat m) p = .ok carry := by
    obtain ⟨st, b1⟩ : ∃ st, toArray3 ids.length pm.dimensions.nMixtures (nLat m) p.states = .ok st := toArray3_exists (by rw [p1]; simp) (by
      intro x hx
      rw [p1] at hx
      rw [List.eq_of_mem_replicate hx]
      refine ⟨by simp, ?_⟩
      intro y hy
      obtain ⟨e, _, rfl⟩ := List.mem_map.mp hy
      simp)
    obtain ⟨ch, b2⟩ : ∃ ch, toArray4 ids.length pm.dimensions.nMixtures (nLat m) (nLat m) p.upperChols = .ok ch := toArray4_exists (by rw [p2]; simp) (by
      intro x hx
      rw [p2] at hx
      rw [List.eq_of_mem_replicate hx]
      refine ⟨by simp, ?_⟩
      intro y hy
      obtain ⟨e, _, rfl⟩ := List.mem_map.mp hy
      refine ⟨by simp, ?_⟩
      intro z hz
      obtain ⟨j, _, rfl⟩ := List.mem_map.mp hz
      simp)
    obtain ⟨w, b3⟩ : ∃ w, toArray2 ids.length pm.dimensions.nMixtures p.logWeights = .ok w := toArray2_exists (by rw [p3]; simp) (by
      intro x hx
      rw [p3] at hx
      rw [List.eq_of_mem_replicate hx]
      simp)
    unfold initialCarry
    simp only [py_bind_ok, py_pure_ok]
    exact ⟨_, st, b1, ch, b2, w, b3, rfl⟩
  obtain ⟨rows, hrows⟩ : ∃ rows, loopParams (nLat m) (nCon m) pm.updateInfo p = .ok rows := by
    obtain ⟨lo, b1⟩ : ∃ lo, toArray2 pm.updateInfo.length (nLat m) p.loadings = .ok lo := toArray2_exists (by rw [p5]; simp) (by
      intro x hx
      rw [p5] at hx
      obtain ⟨t, _, rfl⟩ := List.mem_map.mp hx
      simp)
    obtain ⟨cp, b2⟩ : ∃ cp, toArray2 pm.updateInfo.length (nCon m) p.controls = .ok cp := toArray2_exists (by rw [p4]; simp) (by
      intro x hx
      rw [p4] at hx
      obtain ⟨t, _, rfl⟩ := List.mem_map.mp hx
      simp)
    obtain ⟨sd, b3⟩ : ∃ sd, toArray1 pm.updateInfo.length p.measSds = .ok sd := ⟨_, dif_pos (by rw [p6]; simp)⟩
    unfold loopParams
    simp only [py_bind_ok, py_pure_ok]
    exact ⟨_, lo, b1, cp, b2, sd, b3, rfl⟩
  obtain rfl := initialCarry_label hpm hg hparse hcarry
  obtain rfl := loopParams_label hpm hg hparse hrows
  have htrace := transition_label hpm hg.keys custom val 0 husable (fun _ => 0)
  have hzeros : (allFactors m).map (fun _ => (0 : ℝ)) = List.replicate (nLat m + nObsd m) 0 := by
    rw [List.map_const']
    simp [allFactors]
  rw [hzeros] at htrace
  obtain ⟨r, hr⟩ := (logLikelihood_ok_iff (qr := qr) (fixed := labelFixed custom m pm val ids.length nT _ _) (clip := clipOptions pm.estimationOptions) (initial := labelCarry m val ids.length pm.dimensions.nMixtures)
    (args := loopArgs (nT + 1) (pm.updateInfo.map (labelRow m val)) (List.ofFn dat))).mpr (by
      rcases hk with h | ⟨_, h⟩
      · exact Or.inr (Or.inl (hk0.trans h))
      · exact Or.inr (Or.inr (Or.inl (by simp [h]))))
  refine ⟨r, hr, ?_⟩
  intro γ post
  obtain ⟨d1, d2, d3⟩ := dimensions_eq hpm
  have hall : pm.labels.allFactors = allFactors m := (labels_of_ok hpm).2.2.2.2.1
  unfold MaximizationInputs.evaluateVec
  dsimp only
  simp only [bind, Except.bind]
  rw [hObs, hp]
  simp only []
  rw [hall, d1, d2, d3, show pm.dimensions.nPeriods - 2 = nT by omega, hmeas, Option.getD_some]
  unfold logLikelihoodJax
  rw [hfixed, hcarry, hrows, hdatArr]
  simp only [bind, Except.bind]
  rw [show transitionFunction (allFactors m) (transitionFns custom m) ((labelFixed custom m pm val ids.length nT _ _).transition 0) (List.replicate (nLat m + nObsd m) 0) = _ from htrace]
  simp only [hr]

/-- Under the conditions of C70 the likelihood function can be evaluated. -/
theorem evaluate_succeeds (qr : QR) {m : ModelDict ℝ} {pm : Processed ℝ} (hpm : processModel m = .ok pm) (hg : GoodNames m) (hc : CleanAnchoring m) (ho : SameOrder m) (hclash : NoNameClash m)
    (hq : ∀ f, IsLatent m f → querySafe f) (hper : IsPeriod m 1) {k : ℕ} (hmix : HasNMixtures m k) (hk : k = 1 ∨ k ≠ 0 ∧ m.observedFactors.getD [] = [])
    {df : LongData ℝ} (hi : IndexOk df) (hu : NoUnusedPeriods df) {ids pers : List Int} (hids : IdsOf df ids) (hpers : PeriodsOf df pers) (hdata : DataOk m df ids pers) :
    ∃ inputs, getMaximizationInputs m df = .ok inputs ∧ inputs.model = pm ∧ inputs.index = pm.paramsIndex ∧ inputs.template = pm.paramsTemplate ∧
      ∀ (custom : String → CustomFn) (nan : ℝ) (params : List (Loc × ℝ)) (val : Loc → ℝ), (params.map Prod.fst).Nodup → (∀ l, l ∈ params.map Prod.fst ↔ l ∈ inputs.index) → (∀ l x, (l, x) ∈ params → x = val l) →
        (∀ fs ∈ m.factors, TransFn.Usable (allFactors m) (fun name => val ⟨.transition, 0, fs.1, name⟩) (transFnOf (custom fs.1) fs.2.transition)) →
        ∃ (r : LoglikeResult ids.length pm.dimensions.nMixtures (nLat m)) (nT : ℕ) (fixed : ScanFixed ids.length nT (nLat m) (nObsd m) (nCon m) (Dict (List ℝ)))
          (carry : Carry ids.length pm.dimensions.nMixtures (nLat m)) (args : List (LoopArgs ids.length (nLat m) (nCon m))),
          args.length = pm.updateInfo.length ∧ logLikelihood qr fixed (clipOptions pm.estimationOptions) carry args = .ok r ∧
          ∀ {γ : Type} (post : (nObs nMix n : ℕ) → LoglikeResult nObs nMix n → Py γ), inputs.evaluate post qr custom nan m params = post _ _ _ r := by
  obtain ⟨inputs, hin, h1, h2, h3, hev⟩ := evaluateVec_succeeds hpm hg hc ho hclash hq hper hmix hk hi hu hids hpers hdata
  refine ⟨inputs, hin, h1, h2, h3, ?_⟩
  intro custom nan params val hn hlab hval husable
  obtain ⟨nT, con, obs, dat, _, hev⟩ := hev nan
  obtain ⟨r, hr, hpost⟩ := hev qr custom val husable
  refine ⟨r, nT, _, _, _, ?_, hr, ?_⟩
  · rw [loopArgs_length _ _ (by simp), List.length_map]
  · intro γ post
    unfold MaximizationInputs.evaluate
    rw [paramsVec_ok hn hlab hval, h2]
    exact hpost post

/-- **C70.** For every accepted model with names that can be told apart, at least two periods and (if it has several mixture elements) no observed factors, and for every dataset that fits the model, get_maximization_inputs
succeeds. The likelihood function that it returns can be evaluated for every parameter DataFrame that has the required labels, in any order. It returns one contribution for each individual, in total as many
`all_contributions` of each individual as there are updates, the value is the sum of the contributions,
and each contribution is the sum of the `all_contributions` of the individual, clipped as the estimation options say. -/
theorem C70_likelihood_evaluates (qr : QR) {m : ModelDict ℝ} {pm : Processed ℝ} (hpm : processModel m = .ok pm) (hg : GoodNames m) (hc : CleanAnchoring m) (ho : SameOrder m) (hclash : NoNameClash m)
    (hq : ∀ f, IsLatent m f → querySafe f) (hper : IsPeriod m 1) {k : ℕ} (hmix : HasNMixtures m k) (hk : k = 1 ∨ k ≠ 0 ∧ m.observedFactors.getD [] = [])
    {df : LongData ℝ} (hi : IndexOk df) (hu : NoUnusedPeriods df) {ids pers : List Int} (hids : IdsOf df ids) (hpers : PeriodsOf df pers) (hdata : DataOk m df ids pers) :
    ∃ inputs updates, getMaximizationInputs m df = .ok inputs ∧ Enumerates m updates ∧
      ∀ (custom : String → CustomFn) (nan : ℝ) (params : List (Loc × ℝ)) (val : Loc → ℝ), (params.map Prod.fst).Nodup → (∀ l, l ∈ params.map Prod.fst ↔ l ∈ inputs.index) → (∀ l x, (l, x) ∈ params → x = val l) →
        (∀ fs ∈ m.factors, TransFn.Usable (allFactors m) (fun name => val ⟨.transition, 0, fs.1, name⟩) (transFnOf (custom fs.1) fs.2.transition)) →
        ∃ out, inputs.loglike qr custom nan m params = .ok out ∧ out.contributions.length = ids.length ∧ out.allContributions.length = updates.length ∧
          (∀ row ∈ out.allContributions, row.length = ids.length) ∧ out.value = out.contributions.sum ∧
          ∃ options, m.estimationOptions = some options ∧
            ∀ i < ids.length, out.contributions.getD i 0 = (out.allContributions.map (fun row => clippedContribution options (row.getD i 0))).sum := by
  obtain ⟨inputs, hin, hmodel, hindex, _, hev⟩ := evaluate_succeeds qr hpm hg hc ho hclash hq hper hmix hk hi hu hids hpers hdata
  obtain ⟨hu1, hu2, _⟩ := C01_update_info_exact hpm
  refine ⟨inputs, pm.updateInfo.map (fun r => (r.period, r.var)), hin, ⟨hu1, fun t v => by rw [← hu2]; simp [List.mem_map]⟩, ?_⟩
  intro custom nan params val hn hlab hval husable
  obtain ⟨r, nT, fixed, carry, args, hargs, hr, hpost⟩ := hev custom nan params val hn hlab hval husable
  refine ⟨⟨r.value, List.ofFn r.contributions, r.allContributions.map List.ofFn⟩, hpost _, by simp, ?_, ?_, ?_, ?_⟩
  · obtain ⟨h1, h2, _⟩ := logLikelihood_ok hr
    rw [List.length_map, h2, h1, List.length_map, List.length_map, outs_length, hargs]
  · intro row hrow
    obtain ⟨x, _, rfl⟩ := List.mem_map.mp hrow
    simp
  · obtain ⟨_, _, h3, h4⟩ := logLikelihood_ok hr
    dsimp only
    rw [h4, List.sum_ofFn, list_sum_swap]
    exact Finset.sum_congr rfl (fun i _ => (h3 i).symm)
  · obtain ⟨o, ho, _⟩ := C04_options hpm
    refine ⟨o, ho, fun i hi => ?_⟩
    obtain ⟨_, _, h3⟩ := C40_value_is_sum hr
    dsimp only
    rw [List.getD_eq_getElem?_getD, List.getElem?_eq_getElem (by simpa using hi), Option.getD_some, List.getElem_ofFn, h3, List.map_map]
    congr 1
    refine List.map_congr_left (fun row _ => ?_)
    simp only [Function.comp_apply]
    rw [softClipping_user hpm ho, List.getD_eq_getElem?_getD, List.getElem?_eq_getElem (by simpa using hi), Option.getD_some, List.getElem_ofFn]

end Skill
