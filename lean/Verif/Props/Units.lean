import Verif.Lemmas.UnitsData
import Verif.Lemmas.SmoothLikelihood
/- C114: the units of measurements and control variables. -/
namespace Skill
open Matrix Spec

section
variable {m : ModelDict ℝ} {a b : ℕ → String → ℝ} {val : Loc → ℝ}

theorem unitParams_loadings (t : ℕ) (v f : String) : unitParams m a b val ⟨.loadings, t, v, f⟩ = a t v * val ⟨.loadings, t, v, f⟩ := rfl

theorem unitParams_measSds (t : ℕ) (v f : String) : unitParams m a b val ⟨.measSds, t, v, f⟩ = |a t v| * val ⟨.measSds, t, v, f⟩ := rfl

theorem unitParams_constant (t : ℕ) (v : String) : unitParams m a b val ⟨.controls, t, v, "constant"⟩ =
    a t v * (val ⟨.controls, t, v, "constant"⟩ - ((m.controls.getD []).map (fun x => val ⟨.controls, t, v, x⟩ * b t x / a t x)).sum) + b t v := rfl

theorem unitParams_control (t : ℕ) (v : String) {x : String} (hx : x ≠ "constant") : unitParams m a b val ⟨.controls, t, v, x⟩ = a t v * val ⟨.controls, t, v, x⟩ / a t x := by
  unfold unitParams
  dsimp only
  rw [if_neg hx]

/-- The systematic part of a measurement equation in other units. -/
theorem control_sum (hn : ("constant" :: m.controls.getD []).Nodup) {t : ℕ} (ha : ∀ x, a t x ≠ 0) (v : String) {z z' : Fin (nCon m) → ℝ} (h0 : ∀ j : Fin (nCon m), conName m j = "constant" → z j = 1 ∧ z' j = 1)
    (h1 : ∀ j : Fin (nCon m), conName m j ≠ "constant" → z' j = a t (conName m j) * z j + b t (conName m j)) :
    (z' ⬝ᵥ fun c : Fin (nCon m) => unitParams m a b val ⟨.controls, t, v, conName m c⟩) = a t v * (z ⬝ᵥ fun c : Fin (nCon m) => val ⟨.controls, t, v, conName m c⟩) + b t v := by
  have hne : ∀ j : Fin (m.controls.getD []).length, conName m j.succ ≠ "constant" := by
    intro j he
    refine (List.nodup_cons.mp hn).1 ?_
    rw [← he]
    simp
  have hz : conName m ((0 : Fin (nCon m)) : ℕ) = "constant" := rfl
  unfold dotProduct
  dsimp only
  rw [Fin.sum_univ_succ, Fin.sum_univ_succ, (h0 0 hz).1, (h0 0 hz).2, hz, unitParams_constant]
  have hs : ((m.controls.getD []).map (fun x => val ⟨.controls, t, v, x⟩ * b t x / a t x)).sum =
      ∑ j : Fin (m.controls.getD []).length, val ⟨.controls, t, v, conName m j.succ⟩ * b t (conName m j.succ) / a t (conName m j.succ) := by
    rw [← List.sum_ofFn]
    congr 1
    refine List.ext_getElem (by simp) (fun j j1 j2 => ?_)
    have hj : j < (m.controls.getD []).length := by simpa using j1
    rw [List.getElem_map, List.getElem_ofFn]
    simp [conName, List.getElem?_eq_getElem hj]
  have hs2 : ∑ j : Fin (m.controls.getD []).length, z' j.succ * unitParams m a b val ⟨.controls, t, v, conName m j.succ⟩ =
      a t v * ∑ j : Fin (m.controls.getD []).length, z j.succ * val ⟨.controls, t, v, conName m j.succ⟩ +
      a t v * ∑ j : Fin (m.controls.getD []).length, val ⟨.controls, t, v, conName m j.succ⟩ * b t (conName m j.succ) / a t (conName m j.succ) := by
    rw [Finset.mul_sum, Finset.mul_sum, ← Finset.sum_add_distrib]
    refine Finset.sum_congr rfl (fun j _ => ?_)
    rw [h1 _ (hne j), unitParams_control _ _ (hne j)]
    have := ha (conName m j.succ)
    field_simp
  rw [hs, hs2]
  ring

end

/-- Two evaluations of the likelihood function for data in different units. -/
theorem evaluate_units {qr : QR} (hqr : ValidQR qr) {m : ModelDict ℝ} (hg : GoodNames m) (hc : CleanAnchoring m) (ho : SameOrder m) (hclash : NoNameClash m) (hper : IsPeriod m 1) {k : ℕ} (hmix : HasNMixtures m k)
    (hkappa : ∀ o x, m.estimationOptions = some o → o.sigmaPointsScale = some x → 0 ≤ x) {df : LongData ℝ} (hi : IndexOk df) (hu : NoUnusedPeriods df) {ids pers : List Int} (hids : IdsOf df ids) (hpers : PeriodsOf df pers)
    {a b : Int → String → ℝ} (hok : UnitsOk m a b) {inputs inputs' : MaximizationInputs} (hin : getMaximizationInputs m df = .ok inputs) (hin' : getMaximizationInputs m (changeUnits a b df) = .ok inputs')
    {γ γ' : Type} {post : (nObs nMix n : ℕ) → LoglikeResult nObs nMix n → Py γ} {post' : (nObs nMix n : ℕ) → LoglikeResult nObs nMix n → Py γ'} {custom : String → CustomFn} {nan : ℝ} {params params' : List (Loc × ℝ)}
    {val : Loc → ℝ} (hp : ParamsAre inputs.index params val) (hp' : ParamsAre inputs'.index params' (unitParams m (fun t => a (pers.getD t 0)) (fun t => b (pers.getD t 0)) val)) (hint : InteriorValues custom m k val)
    (hsum : ∑ e : Fin k, val ⟨.mixtureWeights, 0, Spec.mixtureName e, "-"⟩ = 1) {out : γ} {out' : γ'} (h : inputs.evaluate post qr custom nan m params = .ok out) (h' : inputs'.evaluate post' qr custom nan m params' = .ok out') :
    ∃ (pm : Processed ℝ) (r r' : LoglikeResult ids.length pm.dimensions.nMixtures (nLat m)), processModel m = .ok pm ∧ post _ _ _ r = .ok out ∧ post' _ _ _ r' = .ok out' ∧
      r.outs.length = pm.updateInfo.length ∧ r'.outs.length = pm.updateInfo.length ∧ r.allContributions = r.outs.map (fun o => o.loglikes) ∧ r'.allContributions = r'.outs.map (fun o => o.loglikes) ∧
      (∀ q ∈ [r, r'], ∀ i, q.contributions i = (q.outs.map (fun o => softClipping (o.loglikes i) (clipOptions pm.estimationOptions).lower (clipOptions pm.estimationOptions).upper
        (clipOptions pm.estimationOptions).lowerHardness (clipOptions pm.estimationOptions).upperHardness)).sum) ∧
      r.value = ∑ i, r.contributions i ∧ r'.value = ∑ i, r'.contributions i ∧
      ∀ (j : ℕ) row o o', pm.updateInfo[j]? = some row → r.outs[j]? = some o → r'.outs[j]? = some o' → o'.states = o.states ∧ o'.logWeights = o.logWeights ∧
        ∀ i : Fin ids.length, (UsesObservation m df ids pers i row.period row.var → o'.loglikes i = o.loglikes i - Real.log |a (pers.getD row.period 0) row.var|) ∧
          (¬UsesObservation m df ids pers i row.period row.var → o'.loglikes i = o.loglikes i) := by
  have hlen : ∀ {df : LongData ℝ} {inputs : MaximizationInputs}, IndexOk df → NoUnusedPeriods df → IdsOf df ids → PeriodsOf df pers → getMaximizationInputs m df = .ok inputs → (inputs.data.controls.headD []).length = ids.length := by
    intro df inputs hi hu hids hpers hin
    unfold getMaximizationInputs at hin
    simp only [py_bind_ok, py_pure_ok] at hin
    obtain ⟨pm, hpm, info, hinfo, data, hdata, cs, hcs, rfl⟩ := hin
    obtain ⟨_, _, _, hcon, _⟩ := C27_data_arrays hpm hg.keys hclash hi hu hids hpers hdata
    have hpos : data.controls.length ≠ 0 := by
      rw [IsNPeriods.unique hcon.1 (isNPeriods_of_ok hpm)]
      have := (isPeriod_iff hpm 1).mp hper
      omega
    obtain ⟨n, hn⟩ := Nat.exists_eq_succ_of_ne_zero hpos
    exact data_length hpm hg.keys hclash hi hu hids hpers hdata hn
  obtain ⟨pm, nT, con, obs, dat, r, hpm, hT, hdata, hcon, hobs, hdat, hr, hpost⟩ := evaluate_explicit hg hc ho hin hp.unique hp.values h (hlen hi hu hids hpers hin)
  obtain ⟨pm', nT', con', obs', dat', r', hpm', hT', hdata', hcon', hobs', hdat', hr', hpost'⟩ :=
    evaluate_explicit hg hc ho hin' hp'.unique hp'.values h' (hlen (changeUnits_index hi) (changeUnits_periods hu) (changeUnits_idsOf hids) (changeUnits_periodsOf hpers) hin')
  obtain rfl := Except.ok.inj (hpm.symm.trans hpm')
  obtain rfl : nT = nT' := by omega
  have hk0 : pm.dimensions.nMixtures = k := ((hasNMixtures_of_ok hpm k).mp hmix).symm
  have hs : 0 ≤ pm.estimationOptions.sigmaPointsScale := (sigma_label hpm hkappa custom val ids.length nT con obs).nonneg
  subst hk0
  have hupd : ∀ row ∈ pm.updateInfo, IsUpdate m row.period row.var := fun row hrow => ((C01_update_info_exact hpm).2.1 _ _).mp ⟨row, hrow, rfl, rfl⟩
  have hsd : ∀ x ∈ loopArgs (nT + 1) (pm.updateInfo.map (labelRow m val)) (List.ofFn dat), x.measSd ≠ 0 := by
    intro x hx
    rw [loopArgs_label] at hx
    obtain ⟨y, hy, rfl⟩ := List.mem_map.mp hx
    exact hint.measSds _ _ (hupd _ (List.of_mem_zip (List.of_mem_zip hy).1).1)
  set A : ℕ → String → ℝ := fun t => a (pers.getD t 0) with hA
  set B : ℕ → String → ℝ := fun t => b (pers.getD t 0) with hB
  have hobsEq : obs' = obs := by
    funext t i j
    obtain ⟨w, hw, e⟩ := hobs t i j
    obtain ⟨w', hw', e'⟩ := hobs' t i j
    have := (data_units hpm hg.keys hclash hi hu hids hpers hok hdata hdata' i.isLt).2 t ((isPeriod_iff hpm _).mpr (by rw [hT]; exact t.isLt)) j j.isLt
    rw [hw, hw', Option.some.injEq] at this
    rw [e, e', this]
  have hcarry : labelCarry m (unitParams m A B val) ids.length pm.dimensions.nMixtures = labelCarry m val ids.length pm.dimensions.nMixtures := rfl
  have hfix : labelFixed custom m pm (unitParams m A B val) ids.length nT con' obs' = { labelFixed custom m pm val ids.length nT con obs with controls := con' } := by
    rw [hobsEq]
    have e1 : ∀ (t : ℕ) f, scalingOf m (unitParams m A B val) t f = scalingOf m val t f := by
      intro t f
      unfold scalingOf
      cases hf : outcomeOf m f with
      | none => rfl
      | some o =>
        simp only [Option.map_some, Option.getD_some, unitParams_loadings]
        rw [hA]
        dsimp only
        rw [(hok.outcomes _ f o ((outcomeOf_some hg.keys).mp hf)).2.2.1, one_mul]
    have e2 : ∀ (t : ℕ) f, constantOf m (unitParams m A B val) t f = constantOf m val t f := by
      intro t f
      unfold constantOf
      cases hf : outcomeOf m f with
      | none => rfl
      | some o =>
        have han := (outcomeOf_some hg.keys).mp hf
        obtain ⟨_, _, u1, u2⟩ := hok.outcomes (pers.getD t 0) f o han
        simp only [Option.map_some, Option.getD_some, unitParams_constant]
        have hz : ((m.controls.getD []).map (fun x => val ⟨.controls, t, o ++ "_" ++ f, x⟩ * B t x / A t x)).sum = 0 := by
          refine List.sum_eq_zero (fun x hx => ?_)
          obtain ⟨c, hc, rfl⟩ := List.mem_map.mp hx
          rw [hB]
          dsimp only
          rw [hok.controls ⟨f, o, han⟩ _ c hc]
          simp
        rw [hz, hA, hB]
        dsimp only
        rw [u1, u2]
        simp
    unfold labelFixed
    simp only [e1, e2]
    rfl
  rw [hfix, hcarry] at hr'
  obtain ⟨a1, a2, a3, a4⟩ := logLikelihood_ok hr
  obtain ⟨b1, b2, b3, b4⟩ := logLikelihood_ok hr'
  have hl1 : (loopArgs (nT + 1) (pm.updateInfo.map (labelRow m val)) (List.ofFn dat)).length = pm.updateInfo.length := by
    rw [loopArgs_length _ _ (by simp), List.length_map]
  have hl2 : (loopArgs (nT + 1) (pm.updateInfo.map (labelRow m (unitParams m A B val))) (List.ofFn dat')).length = pm.updateInfo.length := by
    rw [loopArgs_length _ _ (by simp), List.length_map]
  have hw : WeightsOk (labelCarry m val ids.length pm.dimensions.nMixtures).logWeights := fun i => by
    rw [← hsum]
    exact Finset.sum_congr rfl (fun e _ => Real.exp_log (hint.weights e e.isLt))
  have hargs : ∀ (j : ℕ) row, pm.updateInfo[j]? = some row → ∃ (h : j < pm.updateInfo.length),
      (loopArgs (nT + 1) (pm.updateInfo.map (labelRow m val)) (List.ofFn dat))[j]? = some
        { period := if row.period = nT + 1 then -1 else (row.period : Int), loadings := (labelRow m val row).loadings, controlParams := (labelRow m val row).controlParams, measSd := (labelRow m val row).sd,
          measurements := dat ⟨j, h⟩, isMeasurement := (labelRow m val row).isMeasurement, isPredict := decide ((pm.updateInfo[j + 1]?).map (fun r => r.period) = some (row.period + 1)) } ∧
      (loopArgs (nT + 1) (pm.updateInfo.map (labelRow m (unitParams m A B val))) (List.ofFn dat'))[j]? = some
        { period := if row.period = nT + 1 then -1 else (row.period : Int), loadings := (labelRow m (unitParams m A B val) row).loadings, controlParams := (labelRow m (unitParams m A B val) row).controlParams,
          measSd := (labelRow m (unitParams m A B val) row).sd, measurements := dat' ⟨j, h⟩, isMeasurement := (labelRow m val row).isMeasurement,
          isPredict := decide ((pm.updateInfo[j + 1]?).map (fun r => r.period) = some (row.period + 1)) } := by
    intro j row hrow
    have hj := (List.getElem?_eq_some_iff.mp hrow).1
    refine ⟨hj, ?_, ?_⟩
    · rw [loopArgs_get (nT + 1) (r := labelRow m val row) (y := dat ⟨j, hj⟩) (by rw [List.getElem?_map, hrow]; rfl) (by simp [hj])]
      simp [labelRow, Function.comp_def]
    · rw [loopArgs_get (nT + 1) (r := labelRow m (unitParams m A B val) row) (y := dat' ⟨j, hj⟩) (by rw [List.getElem?_map, hrow]; rfl) (by simp [hj])]
      simp [labelRow, Function.comp_def]
  have hmeas : ∀ (j : ℕ) row (hj : j < pm.updateInfo.length), pm.updateInfo[j]? = some row → ∀ i, dat' ⟨j, hj⟩ i = (dat ⟨j, hj⟩ i).map (fun y => A row.period row.var * y + B row.period row.var) ∧
      ((dat ⟨j, hj⟩ i).isSome ↔ UsesObservation m df ids pers i row.period row.var) ∧
      ((dat ⟨j, hj⟩ i).isSome → ∀ (c : Fin (nCon m)) (t : Fin (nT + 2)), t.val = row.period → con' t i c = A row.period (conName m c) * con t i c + B row.period (conName m c) ∧ (conName m c = "constant" → con t i c = 1)) := by
    intro j row hj hrow i
    obtain ⟨w, w1, w2, w3, w4⟩ := (data_units hpm hg.keys hclash hi hu hids hpers hok hdata hdata' i.isLt).1 j row hrow
    have d1 := hdat ⟨j, hj⟩ i
    have d2 := hdat' ⟨j, hj⟩ i
    dsimp only at d1 d2
    rw [w1] at d1
    rw [w2] at d2
    obtain rfl := Option.some.inj d1
    refine ⟨(Option.some.inj d2).symm, w3, fun hsome c t ht => ?_⟩
    obtain ⟨x, x1, x2, x3⟩ := w4 hsome c (conName m c) (conName_get c)
    obtain ⟨z, z1, z2⟩ := hcon t i c
    obtain ⟨z', z1', z2'⟩ := hcon' t i c
    rw [ht, x1] at z1
    rw [ht, x2] at z1'
    obtain rfl := Option.some.inj z1
    obtain rfl := Option.some.inj z1'
    rw [z2, z2', Option.getD_some, Option.getD_some]
    exact ⟨rfl, x3⟩
  have key := outs_rescaled hqr (labelFixed_regular hpm hg hT hint hs (con := con) (obs := obs)) con' hsd (args' := loopArgs (nT + 1) (pm.updateInfo.map (labelRow m (unitParams m A B val))) (List.ofFn dat'))
    (s := fun j => ((pm.updateInfo[j]?).map (fun row => A row.period row.var)).getD 1) (hl2.trans hl1.symm) ?_ (c := labelCarry m val ids.length pm.dimensions.nMixtures)
    (d := labelCarry m val ids.length pm.dimensions.nMixtures) ⟨rfl, rfl, labelCarry_regular hint, labelCarry_regular hint, fun _ _ => rfl⟩ hw
  · refine ⟨pm, r, r', hpm, hpost, hpost', by rw [a1, outs_length, hl1], by rw [b1, outs_length, hl2], a2, b2, ?_, (C40_value_is_sum hr).1, (C40_value_is_sum hr').1, ?_⟩
    · intro q hq
      simp only [List.mem_cons, List.not_mem_nil, or_false] at hq
      rcases hq with rfl | rfl
      · exact a3
      · exact b3
    · intro j row o o' hrow hoj hoj'
      obtain ⟨hj, g1, g2⟩ := hargs j row hrow
      rw [a1] at hoj
      rw [b1] at hoj'
      obtain ⟨k1, k2, k3⟩ := key j _ o o' g1 hoj hoj'
      refine ⟨k2, k3, fun i => ?_⟩
      have := k1 i
      rw [hrow] at this
      dsimp only [Option.map_some, Option.getD_some] at this
      have hsome := (hmeas j row hj hrow i).2.1
      refine ⟨fun hu => ?_, fun hu => ?_⟩
      · rw [this, if_pos (hsome.mpr hu)]
      · rw [this, if_neg (fun h => hu (hsome.mp h)), sub_zero]
  · intro j x x' hx hx'
    have hj : j < pm.updateInfo.length := by rw [← hl1]; exact (List.getElem?_eq_some_iff.mp hx).1
    have hrow : pm.updateInfo[j]? = some pm.updateInfo[j] := List.getElem?_eq_getElem hj
    generalize pm.updateInfo[j] = row at hrow
    obtain ⟨_, g1, g2⟩ := hargs j row hrow
    obtain rfl := Option.some.inj (hx.symm.trans g1)
    obtain rfl := Option.some.inj (hx'.symm.trans g2)
    rw [hrow]
    refine ⟨hok.nonzero _ _, fun _ => B row.period row.var, rfl, rfl, rfl, fun i => ?_⟩
    obtain ⟨q1, q2, q3⟩ := hmeas j row hj hrow i
    have ht : (jaxIndex (nT + 1) (if row.period = nT + 1 then -1 else (row.period : Int))).val = row.period := by
      have hle : row.period < nT + 2 := by rw [← hT]; exact (isPeriod_iff hpm _).mp (isUpdate_period (hupd row (List.mem_of_getElem? hrow)))
      split
      · rename_i he
        rw [jaxIndex_last, he]
        exact jaxIndex_val le_rfl
      · exact jaxIndex_val (by omega)
    refine ⟨?_, rfl, q1, fun hsome => ?_⟩
    · funext f
      simp only [LoopArgs.measurement, labelRow, unitParams_loadings, Pi.smul_apply, smul_eq_mul, mul_ite, mul_zero]
      rfl
    · have q3 := q3 hsome
      refine control_sum hg.controls (fun x => hok.nonzero _ x) row.var (fun c hcon => ?_) (fun c hcon => (q3 c _ ht).1)
      obtain ⟨q4, q5⟩ := q3 c _ ht
      refine ⟨q5 hcon, q4.trans ?_⟩
      rw [q5 hcon, hcon]
      obtain ⟨u1, u2⟩ := hok.constant (pers.getD row.period 0)
      simp only [hA, hB, u1, u2]
      norm_num

theorem list_sum_shift {xs : List ℝ} : ∀ {ys zs : List ℝ}, xs.length = zs.length → ys.length = zs.length → (∀ (j : ℕ) x y z, xs[j]? = some x → ys[j]? = some y → zs[j]? = some z → x = y - z) → xs.sum = ys.sum - zs.sum := by
  induction xs with
  | nil =>
    intro ys zs h1 h2 _
    obtain rfl := List.length_eq_zero_iff.mp h1.symm
    obtain rfl := List.length_eq_zero_iff.mp h2
    simp
  | cons x xs ih =>
    intro ys zs h1 h2 h
    cases zs with
    | nil => cases h1
    | cons z zs =>
      cases ys with
      | nil => cases h2
      | cons y ys =>
        rw [List.sum_cons, List.sum_cons, List.sum_cons, ih (by simpa using h1) (by simpa using h2) (fun j x y z hx hy hz => h (j + 1) x y z hx hy hz), h 0 x y z rfl rfl rfl]
        ring

section
variable {qr : QR} (hqr : ValidQR qr) {m : ModelDict ℝ} {pm : Processed ℝ} (hpm : processModel m = .ok pm) (hg : GoodNames m) (hc : CleanAnchoring m) (ho : SameOrder m) (hclash : NoNameClash m)
  (hq : ∀ f, IsLatent m f → querySafe f) (hper : IsPeriod m 1) {k : ℕ} (hmix : HasNMixtures m k) (hk : k = 1 ∨ k ≠ 0 ∧ m.observedFactors.getD [] = [])
  (hkappa : ∀ o x, m.estimationOptions = some o → o.sigmaPointsScale = some x → 0 ≤ x)
  {df : LongData ℝ} (hi : IndexOk df) (hu : NoUnusedPeriods df) {ids pers : List Int} (hids : IdsOf df ids) (hpers : PeriodsOf df pers) (hdata : DataOk m df ids pers) {a b : Int → String → ℝ} (hok : UnitsOk m a b)
include hqr hpm hg hc ho hclash hq hper hmix hk hkappa hi hu hids hpers hdata hok

/-- **C114**: the units of measurements and control variables do not matter. Data in other units are accepted, and the model has the same parameters. With the parameters in the new units, each contribution to the log likelihood
is the old one minus the logarithm of the factor by which the measurement was multiplied; contributions of missing measurements do not change. Unless contributions are clipped, the log likelihood of each individual and of the dataset
shifts by a number that does not depend on the parameters. -/
theorem C114_units : ∃ inputs inputs' updates, getMaximizationInputs m df = .ok inputs ∧ getMaximizationInputs m (changeUnits a b df) = .ok inputs' ∧ inputs'.index = inputs.index ∧ Enumerates m updates ∧
    ∀ (custom : String → CustomFn) (nan : ℝ) params params' val, ParamsAre inputs.index params val → ParamsAre inputs'.index params' (unitParams m (fun t => a (pers.getD t 0)) (fun t => b (pers.getD t 0)) val) →
      InteriorValues custom m k val → ∑ e : Fin k, val ⟨.mixtureWeights, 0, Spec.mixtureName e, "-"⟩ = 1 →
      ∃ out out', inputs.loglike qr custom nan m params = .ok out ∧ inputs'.loglike qr custom nan m params' = .ok out' ∧
        (∀ (j t i : ℕ) v, updates[j]? = some (t, v) → i < ids.length → ∃ x, entry2 out.allContributions j i = some x ∧
          (UsesObservation m df ids pers i t v → entry2 out'.allContributions j i = some (x - Real.log |a (pers.getD t 0) v|)) ∧
          (¬UsesObservation m df ids pers i t v → entry2 out'.allContributions j i = some x)) ∧
        (NoClipping m → (∀ i < ids.length, ∃ x, out.contributions[i]? = some x ∧ out'.contributions[i]? = some (x - logUnits m df ids pers a updates i)) ∧
          out'.value = out.value - ((List.range ids.length).map (logUnits m df ids pers a updates)).sum) := by
  obtain ⟨inputs, hin, _, hindex, _, hev⟩ := evaluate_succeeds qr hpm hg hc ho hclash hq hper hmix hk hi hu hids hpers hdata
  obtain ⟨inputs', hin', _, hindex', _, hev'⟩ := evaluate_succeeds qr hpm hg hc ho hclash hq hper hmix hk (changeUnits_index (a := a) (b := b) hi) (changeUnits_periods hu) (changeUnits_idsOf hids) (changeUnits_periodsOf hpers)
    (changeUnits_dataOk hclash hok hdata)
  obtain ⟨hu1, hu2, _⟩ := C01_update_info_exact hpm
  refine ⟨inputs, inputs', pm.updateInfo.map (fun r => (r.period, r.var)), hin, hin', hindex'.trans hindex.symm, ⟨hu1, fun t v => by rw [← hu2]; simp [List.mem_map]⟩, ?_⟩
  intro custom nan params params' val hp hp' hint hsum
  have hus : ∀ fs ∈ m.factors, TransFn.Usable (allFactors m) (fun name => val ⟨.transition, 0, fs.1, name⟩) (transFnOf (custom fs.1) fs.2.transition) := fun fs hfs => (hint.transition 0 hper fs hfs).usable
  obtain ⟨r, _, _, _, _, _, _, hpost⟩ := hev custom nan params val hp.unique hp.labels hp.values hus
  obtain ⟨r', _, _, _, _, _, _, hpost'⟩ := hev' custom nan params' _ hp'.unique hp'.labels hp'.values hus
  have h : inputs.loglike qr custom nan m params = .ok (LoglikeResult.output _ _ _ r) := hpost _
  have h' : inputs'.loglike qr custom nan m params' = .ok (LoglikeResult.output _ _ _ r') := hpost' _
  refine ⟨_, _, h, h', ?_⟩
  generalize LoglikeResult.output _ _ _ r = out at h ⊢
  generalize LoglikeResult.output _ _ _ r' = out' at h' ⊢
  obtain ⟨pm', r, r', hpm', e1, e2, l1, l2, c1, c2, c3, v1, v2, key⟩ := evaluate_units hqr hg hc ho hclash hper hmix hkappa hi hu hids hpers hok hin hin' hp hp' hint hsum h h'
  obtain rfl := Except.ok.inj (hpm.symm.trans hpm')
  obtain rfl := Except.ok.inj e1
  obtain rfl := Except.ok.inj e2
  have hall : ∀ (j t i : ℕ) v, (pm.updateInfo.map (fun r => (r.period, r.var)))[j]? = some (t, v) → ∀ hil : i < ids.length, ∃ o o', r.outs[j]? = some o ∧ r'.outs[j]? = some o' ∧
      (UsesObservation m df ids pers i t v → o'.loglikes ⟨i, hil⟩ = o.loglikes ⟨i, hil⟩ - Real.log |a (pers.getD t 0) v|) ∧ (¬UsesObservation m df ids pers i t v → o'.loglikes ⟨i, hil⟩ = o.loglikes ⟨i, hil⟩) := by
    intro j t i v hj hil
    rw [List.getElem?_map, Option.map_eq_some_iff] at hj
    obtain ⟨row, hrow, he⟩ := hj
    obtain ⟨rfl, rfl⟩ := Prod.mk.inj he
    have hjl := (List.getElem?_eq_some_iff.mp hrow).1
    have ho : r.outs[j]? = some r.outs[j] := List.getElem?_eq_getElem (by omega)
    have ho' : r'.outs[j]? = some r'.outs[j] := List.getElem?_eq_getElem (by omega)
    exact ⟨_, _, ho, ho', (key j row _ _ hrow ho ho').2.2 ⟨i, hil⟩⟩
  refine ⟨fun j t i v hj hil => ?_, fun hno => ?_⟩
  · obtain ⟨o, o', ho, ho', h1, h2⟩ := hall j t i v hj hil
    have q1 := entry2_ofFn (os := r.allContributions) j ⟨i, hil⟩
    have q2 := entry2_ofFn (os := r'.allContributions) j ⟨i, hil⟩
    rw [c1, List.getElem?_map, ho, Option.map_some, Option.map_some] at q1
    rw [c2, List.getElem?_map, ho', Option.map_some, Option.map_some] at q2
    dsimp only [LoglikeResult.output]
    rw [c1, c2]
    refine ⟨_, q1, fun hu => ?_, fun hu => ?_⟩
    · rw [q2, h1 hu]
    · rw [q2, h2 hu]
  · have hclip : (clipOptions pm.estimationOptions).lower = none ∧ (clipOptions pm.estimationOptions).upper = none := by
      obtain ⟨o, ho, hlo, hupb⟩ := hno
      unfold clipOptions
      dsimp only
      rw [(processModel_ok_iff.mp hpm).2.2.2.2.2.1]
      unfold processEstimationOptions
      dsimp only
      rw [ho, Option.getD_some, hlo]
      rcases hupb with h | h <;> rw [h] <;> exact ⟨rfl, rfl⟩
    have hcon : ∀ i : Fin ids.length, r'.contributions i = r.contributions i - logUnits m df ids pers a (pm.updateInfo.map (fun r => (r.period, r.var))) i := by
      intro i
      rw [c3 r (by simp), c3 r' (by simp), hclip.1, hclip.2]
      have hcl : ∀ x p q, softClipping x none none p q = x := fun x p q => rfl
      simp only [hcl]
      unfold logUnits
      refine list_sum_shift (by simp [l2]) (by simp [l1]) (fun j x y z hx hy hz => ?_)
      rw [List.getElem?_map, Option.map_eq_some_iff] at hx hy hz
      obtain ⟨o1, g1, rfl⟩ := hx
      obtain ⟨o2, g2, rfl⟩ := hy
      obtain ⟨⟨t, v⟩, g3, rfl⟩ := hz
      obtain ⟨o, o', ho, ho', h1, h2⟩ := hall j t i v g3 i.isLt
      obtain rfl := Option.some.inj (g1.symm.trans ho')
      obtain rfl := Option.some.inj (g2.symm.trans ho)
      dsimp only
      split
      · rename_i hu; exact h1 hu
      · rename_i hu; rw [sub_zero]; exact h2 hu
    refine ⟨fun i hil => ⟨r.contributions ⟨i, hil⟩, ?_, ?_⟩, ?_⟩
    · simp [LoglikeResult.output, hil]
    · simp [LoglikeResult.output, hil, hcon]
    · dsimp only [LoglikeResult.output]
      rw [v1, v2, Finset.sum_congr rfl (fun i _ => hcon i), Finset.sum_sub_distrib, ← List.sum_ofFn (f := fun i : Fin ids.length => logUnits m df ids pers a _ i)]
      congr 2
      refine List.ext_getElem (by simp) (fun j j1 j2 => ?_)
      simp

end
end Skill
