import Verif.Spec.NoLookAhead
import Verif.Lemmas.OwnData
import Verif.Lemmas.Edits
/- Two evaluations of the likelihood function for individuals with the same data up to some period. -/
namespace Skill
open Matrix Spec

section scan
variable {nObs nMix n nT nObserved nC : ℕ} {θ : Type}

/-- One step uses the controls and observed factors of one period. -/
theorem step_sameData (qr : QR) (fixed : ScanFixed nObs nT n nObserved nC θ) {con : Fin (nT + 2) → Fin nObs → Fin nC → ℝ} {obs : Fin (nT + 2) → Fin nObs → Fin nObserved → ℝ} {a : LoopArgs nObs n nC}
    (h1 : fixed.controls (jaxIndex (nT + 1) a.period) = con (jaxIndex (nT + 1) a.period)) (h2 : fixed.observed (jaxIndex (nT + 1) a.period) = obs (jaxIndex (nT + 1) a.period)) (c : Carry nObs nMix n) :
    step qr fixed c a = step qr { fixed with controls := con, observed := obs } c a ∧ stepOut qr fixed c a = stepOut qr { fixed with controls := con, observed := obs } c a := by
  have hu : scanUpdate qr fixed c a = scanUpdate qr { fixed with controls := con, observed := obs } c a := by
    unfold scanUpdate
    simp only [h1]
  refine ⟨?_, ?_⟩
  · unfold step predictCarry
    rw [hu]
    simp only [h2]
  · unfold stepOut
    rw [hu]

/-- The outputs of the first `K` steps depend only on the arguments of these steps. -/
theorem outs_upTo (qr : QR) {fixed : ScanFixed nObs nT n nObserved nC θ} {con : Fin (nT + 2) → Fin nObs → Fin nC → ℝ} {obs : Fin (nT + 2) → Fin nObs → Fin nObserved → ℝ} (K : ℕ) {as as' : List (LoopArgs nObs n nC)}
    (h : ∀ k < K, as[k]? = as'[k]?)
    (hf : ∀ k < K, ∀ a, as[k]? = some a → fixed.controls (jaxIndex (nT + 1) a.period) = con (jaxIndex (nT + 1) a.period) ∧ fixed.observed (jaxIndex (nT + 1) a.period) = obs (jaxIndex (nT + 1) a.period))
    (c : Carry nObs nMix n) : ∀ k < K, (outs qr fixed c as)[k]? = (outs qr { fixed with controls := con, observed := obs } c as')[k]? := by
  induction K generalizing as as' c with
  | zero => intro k hk; omega
  | succ K ih =>
    intro k hk
    have h0 := h 0 (by omega)
    cases as with
    | nil =>
      cases as' with
      | nil => rfl
      | cons a' as' => simp at h0
    | cons a as =>
      cases as' with
      | nil => simp at h0
      | cons a' as' =>
        obtain rfl : a = a' := by simpa using h0
        obtain ⟨g1, g2⟩ := hf 0 (by omega) a rfl
        obtain ⟨s1, s2⟩ := step_sameData qr fixed g1 g2 c
        cases k with
        | zero =>
          simp only [outs, List.getElem?_cons_zero, s2]
        | succ k =>
          simp only [outs, List.getElem?_cons_succ]
          rw [s1]
          exact ih (fun j hj => by simpa using h (j + 1) (by omega)) (fun j hj b hb => hf (j + 1) (by omega) b (by simpa using hb)) _ k (by omega)

end scan

/-- The data arrays have the same entries in the periods up to `T` for individuals with the same data up to period `T`. -/
theorem data_sameUpTo {m : ModelDict ℝ} {pm : Processed ℝ} (hpm : processModel m = .ok pm) (hd : DictKeys m) (hclash : NoNameClash m) {df df' : LongData ℝ} (hi : IndexOk df) (hi' : IndexOk df')
    (hu : NoUnusedPeriods df) (hu' : NoUnusedPeriods df') {ids pers ids' pers' : List Int} (hids : IdsOf df ids) (hpers : PeriodsOf df pers) (hids' : IdsOf df' ids') (hpers' : PeriodsOf df' pers')
    {data data' : ProcessedData ℝ} (h : processData df pm.labels pm.updateInfo pm.anchoring .estimation = .ok data) (h' : processData df' pm.labels pm.updateInfo pm.anchoring .estimation = .ok data')
    {T i i' : ℕ} (hs : SameHistoryUpTo m T df ids pers i df' ids' pers' i') :
    (∀ (k : ℕ) (row : URow), pm.updateInfo[k]? = some row → row.period ≤ T → entry2 (data.measurements.getD []) k i = entry2 (data'.measurements.getD []) k i') ∧
    (∀ t, IsPeriod m t → t ≤ T → ∀ j < (m.controls.getD []).length + 1, entry3 data.controls t i j = entry3 data'.controls t i' j) ∧
    (∀ t, IsPeriod m t → t ≤ T → ∀ j < (m.observedFactors.getD []).length, entry3 data.observedFactors t i j = entry3 data'.observedFactors t i' j) := by
  obtain ⟨meas, hm, _, _, _, hcell⟩ := C27_data_arrays hpm hd hclash hi hu hids hpers h
  obtain ⟨meas', hm', _, _, _, hcell'⟩ := C27_data_arrays hpm hd hclash hi' hu' hids' hpers' h'
  obtain ⟨hs1, hs2, hs⟩ := hs
  rw [hm, hm', Option.getD_some, Option.getD_some]
  refine ⟨fun k row hrow hT => ?_, fun t ht hT j hj => ?_, fun t ht hT j hj => ?_⟩
  · have hup : IsUpdate m row.period row.var := ((C01_update_info_exact hpm).2.1 _ _).mp ⟨row, List.mem_of_getElem? hrow, rfl, rfl⟩
    have ht := isUpdate_period hup
    obtain ⟨r, hr⟩ := exists_rowOf df ids pers row.period hs1
    obtain ⟨r', hr'⟩ := exists_rowOf df' ids' pers' row.period hs2
    have hsc := hs _ ht hT r r' hr hr'
    obtain ⟨v, hv⟩ := exists_valueIs m r row.var
    have hv' : ValueIs m r' row.var v := by
      refine (valueIs_same hsc ?_ v).mp hv
      rcases hup with ⟨f, hM⟩ | ⟨_, hA⟩
      · exact Or.inr (Or.inl (Or.inl ⟨_, f, hM⟩))
      · exact Or.inr (Or.inr hA)
    obtain ⟨w, h1, h2⟩ := (hcell i row.period r hs1 ht hr).1 k row v hrow rfl hv
    obtain ⟨w', h1', h2'⟩ := (hcell' i' row.period r' hs2 ht hr').1 k row v hrow rfl hv'
    rw [h1, h1', kept_same hsc h2 h2']
  · obtain ⟨r, hr⟩ := exists_rowOf df ids pers t hs1
    obtain ⟨r', hr'⟩ := exists_rowOf df' ids' pers' t hs2
    have hsc := hs _ ht hT r r' hr hr'
    have hj' : j < ("constant" :: m.controls.getD []).length := by simpa using hj
    have hc : ("constant" :: m.controls.getD [])[j]? = some ("constant" :: m.controls.getD [])[j] := List.getElem?_eq_getElem hj'
    generalize ("constant" :: m.controls.getD [])[j] = c at hc
    obtain ⟨v, hv⟩ := exists_valueIs m r c
    have hv' : ValueIs m r' c v := by
      refine (valueIs_same hsc ?_ v).mp hv
      rcases List.mem_cons.mp (List.mem_of_getElem? hc) with hc | hc
      · exact Or.inl hc
      · exact Or.inr (Or.inl (Or.inr (Or.inr (Or.inl hc))))
    obtain ⟨w, h1, h2⟩ := (hcell i t r hs1 ht hr).2.1 j c v hc hv
    obtain ⟨w', h1', h2'⟩ := (hcell' i' t r' hs2 ht hr').2.1 j c v hc hv'
    rw [h1, h1', kept_same hsc h2 h2']
  · obtain ⟨r, hr⟩ := exists_rowOf df ids pers t hs1
    obtain ⟨r', hr'⟩ := exists_rowOf df' ids' pers' t hs2
    have hsc := hs _ ht hT r r' hr hr'
    have hc : (m.observedFactors.getD [])[j]? = some (m.observedFactors.getD [])[j] := List.getElem?_eq_getElem hj
    generalize (m.observedFactors.getD [])[j] = c at hc
    obtain ⟨v, hv⟩ := exists_valueIs m r c
    have hv' : ValueIs m r' c v := (valueIs_same hsc (Or.inr (Or.inl (Or.inr (Or.inr (Or.inr (List.mem_of_getElem? hc)))))) v).mp hv
    obtain ⟨w, h1, h2⟩ := (hcell i t r hs1 ht hr).2.2 j c v hc hv
    obtain ⟨w', h1', h2'⟩ := (hcell' i' t r' hs2 ht hr').2.2 j c v hc hv'
    rw [h1, h1', kept_same hsc h2 h2']

/-- Two evaluations of the likelihood function with different numbers of individuals, and individuals with the same data up to period `T`. -/
theorem jax_upTo {γ γ' : Type} {post : (nObs nMix n : ℕ) → LoglikeResult nObs nMix n → Py γ} {post' : (nObs nMix n : ℕ) → LoglikeResult nObs nMix n → Py γ'} {qr : QR} {nObs nObs' nMix nT n nObserved nC : ℕ}
    {nan : ℝ} {fs : List String} {fns : Dict TransFn} {kappa : ℝ} {clip : ClipOptions} {u : List URow} {p : Parsed ℝ} {s : List (List ℝ)} {c : List (List (List ℝ))} {w : List ℝ}
    (hsort : u.Pairwise (fun r q => r.period ≤ q.period)) (hrange : ∀ r ∈ u, r.period < nT + 2) (h1 : p.states = List.replicate nObs s) (h2 : p.upperChols = List.replicate nObs c) (h3 : p.logWeights = List.replicate nObs w)
    {meas meas' : List (List (Option ℝ))} {con obs con' obs' : List (List (List (Option ℝ)))} {out : γ} {out' : γ'}
    (h : logLikelihoodJax post qr nObs nMix nT n nObserved nC nan fs fns kappa clip u p meas con obs = .ok out)
    (h' : logLikelihoodJax post' qr nObs' nMix nT n nObserved nC nan fs fns kappa clip u { p with states := List.replicate nObs' s, upperChols := List.replicate nObs' c, logWeights := List.replicate nObs' w }
      meas' con' obs' = .ok out') :
    con.length = nT + 2 ∧ obs.length = nT + 2 ∧ ∃ r r', post nObs nMix n r = .ok out ∧ post' nObs' nMix n r' = .ok out' ∧ r.outs.length = u.length ∧ r'.outs.length = u.length ∧
      (r.allContributions = r.outs.map (fun o => o.loglikes)) ∧ (r'.allContributions = r'.outs.map (fun o => o.loglikes)) ∧
      ∀ (T : ℕ) (i : Fin nObs) (i' : Fin nObs'), (∀ (k : ℕ) (row : URow), u[k]? = some row → row.period ≤ T → entry2 meas k i = entry2 meas' k i') → (∀ t < nT + 2, t ≤ T → ∀ j < nC, entry3 con t i j = entry3 con' t i' j) →
        (∀ t < nT + 2, t ≤ T → ∀ j < nObserved, entry3 obs t i j = entry3 obs' t i' j) →
        ∀ (k : ℕ) (row : URow), u[k]? = some row → row.period ≤ T → (r.outs[k]?).map (StepOut.select (fun _ : Fin 1 => i)) = (r'.outs[k]?).map (StepOut.select (fun _ : Fin 1 => i')) := by
  unfold logLikelihoodJax at h h'
  simp only [py_bind_ok] at h h'
  obtain ⟨fixed, a1, carry, a2, rows, a3, data, a4, _, _, r, a5, a6⟩ := h
  obtain ⟨fixed', b1, carry', b2, rows', b3, data', b4, _, _, r', b5, b6⟩ := h'
  have a3' : loopParams n nC u { p with states := List.replicate nObs' s, upperChols := List.replicate nObs' c, logWeights := List.replicate nObs' w } = .ok rows := a3
  obtain rfl := Except.ok.inj (a3'.symm.trans b3)
  have hcarry := initialCarry_same h1 h2 h3 a2 b2
  unfold scanInputs at a1 b1
  simp only [py_bind_ok, py_pure_ok] at a1 b1
  obtain ⟨cn, c1, ob, c2, tr, c3, sh, c4, sc, c5, cs, c6, rfl⟩ := a1
  obtain ⟨cn', d1, ob', d2, tr', d3, sh', d4, sc', d5, cs', d6, rfl⟩ := b1
  obtain rfl := Except.ok.inj (c3.symm.trans d3)
  obtain rfl := Except.ok.inj (c4.symm.trans d4)
  obtain rfl := Except.ok.inj (c5.symm.trans d5)
  obtain rfl := Except.ok.inj (c6.symm.trans d6)
  have hrl : rows.length = u.length := by
    unfold loopParams at a3
    simp only [py_bind_ok, py_pure_ok] at a3
    obtain ⟨_, _, _, _, _, _, rfl⟩ := a3
    rw [List.length_ofFn]
  have hrp : ∀ (k : ℕ) (row : URow), u[k]? = some row → ∃ q : UpdateParams n nC, rows[k]? = some q ∧ q.period = row.period := by
    intro k row hrow
    have hk := (List.getElem?_eq_some_iff.mp hrow).1
    unfold loopParams at a3
    simp only [py_bind_ok, py_pure_ok] at a3
    obtain ⟨_, _, _, _, _, _, rfl⟩ := a3
    refine ⟨_, by rw [List.getElem?_ofFn, dif_pos hk], ?_⟩
    exact congrArg URow.period (Option.some.inj ((List.getElem?_eq_getElem hk).symm.trans hrow))
  refine ⟨by have := (toArray3_ok c1).1; simpa [fillNaN] using this, by have := (toArray3_ok c2).1; simpa [fillNaN] using this, r, r', a6, b6, ?_, ?_, (logLikelihood_ok a5).2.1, (logLikelihood_ok b5).2.1,
    fun T i i' e1 e2 e3 k row hrow hT => ?_⟩
  · rw [(logLikelihood_ok a5).1, outs_length, loopArgs_length _ _ (by rw [List.length_ofFn, hrl]), hrl]
  · rw [(logLikelihood_ok b5).1, outs_length, loopArgs_length _ _ (by rw [List.length_ofFn, hrl]), hrl]
  rw [(logLikelihood_ok a5).1, (logLikelihood_ok b5).1, ← List.getElem?_map, ← List.getElem?_map, ← outs_select, ← outs_select, hcarry i i']
  -- the updates before update k belong to periods up to T
  have hper : ∀ j ≤ k, ∃ s, u[j]? = some s ∧ s.period ≤ T := by
    intro j hj
    have hk := (List.getElem?_eq_some_iff.mp hrow).1
    refine ⟨u[j], List.getElem?_eq_getElem (by omega), ?_⟩
    rcases Nat.lt_or_ge j k with hlt | hge
    · have := List.pairwise_iff_getElem.mp hsort j k (by omega) hk hlt
      rw [(List.getElem?_eq_some_iff.mp hrow).2] at this
      omega
    · obtain rfl : j = k := by omega
      rw [(List.getElem?_eq_some_iff.mp hrow).2]
      exact hT
  refine outs_upTo qr (k + 1) ?_ ?_ _ k (by omega)
  · intro j hj
    obtain ⟨s, hs, hsT⟩ := hper j (by omega)
    obtain ⟨q, hq, _⟩ := hrp j s hs
    have hju := (List.getElem?_eq_some_iff.mp hs).1
    have hdat : data ⟨j, hju⟩ i = data' ⟨j, hju⟩ i' := by
      have x := (toArray2_ok a4).2 ⟨j, hju⟩ i
      have y := (toArray2_ok b4).2 ⟨j, hju⟩ i'
      rw [e1 j s hs hsT, y] at x
      exact (Option.some.inj x).symm
    rw [List.getElem?_map, List.getElem?_map, loopArgs_get _ hq (by rw [List.getElem?_ofFn, dif_pos hju]), loopArgs_get _ hq (by rw [List.getElem?_ofFn, dif_pos hju])]
    simp only [Option.map_some, LoopArgs.select, hdat]
  · intro j hj a ha
    obtain ⟨s, hs, hsT⟩ := hper j (by omega)
    obtain ⟨q, hq, hqs⟩ := hrp j s hs
    have hju := (List.getElem?_eq_some_iff.mp hs).1
    have hst := hrange s (List.mem_of_getElem? hs)
    rw [List.getElem?_map, loopArgs_get _ hq (by rw [List.getElem?_ofFn, dif_pos hju]), Option.map_some] at ha
    have ha := Option.some.inj ha
    have hidx : jaxIndex (nT + 1) a.period = ⟨s.period, hst⟩ := by
      rw [← ha, ← jaxIndex_period hst]
      unfold periodIndex LoopArgs.select
      rw [hqs]
    refine ⟨?_, ?_⟩
    · rw [hidx]
      funext x j'
      have p1 := (toArray3_ok c1).2 ⟨s.period, hst⟩ i j'
      have p2 := (toArray3_ok d1).2 ⟨s.period, hst⟩ i' j'
      rw [entry3_fillNaN_eq] at p1 p2
      rw [e2 s.period hst hsT j' j'.isLt, p2] at p1
      exact (Option.some.inj p1).symm
    · rw [hidx]
      funext x j'
      have p1 := (toArray3_ok c2).2 ⟨s.period, hst⟩ i j'
      have p2 := (toArray3_ok d2).2 ⟨s.period, hst⟩ i' j'
      rw [entry3_fillNaN_eq] at p1 p2
      rw [e3 s.period hst hsT j' j'.isLt, p2] at p1
      exact (Option.some.inj p1).symm

/-- Two evaluations of the likelihood function for the same model and parameters and different datasets: what happens up to period `T` depends on the data up to period `T`. -/
theorem evaluate_upTo {m : ModelDict ℝ} (hd : DictKeys m) (hclash : NoNameClash m) {df df' : LongData ℝ} (hi : IndexOk df) (hi' : IndexOk df') (hu : NoUnusedPeriods df) (hu' : NoUnusedPeriods df')
    {ids pers ids' pers' : List Int} (hids : IdsOf df ids) (hpers : PeriodsOf df pers) (hids' : IdsOf df' ids') (hpers' : PeriodsOf df' pers') {inputs inputs' : MaximizationInputs}
    (hin : getMaximizationInputs m df = .ok inputs) (hin' : getMaximizationInputs m df' = .ok inputs') {γ γ' : Type} {post : (nObs nMix n : ℕ) → LoglikeResult nObs nMix n → Py γ}
    {post' : (nObs nMix n : ℕ) → LoglikeResult nObs nMix n → Py γ'} {qr : QR} {custom : String → CustomFn} {nan : ℝ} {params : List (Loc × ℝ)} {out : γ} {out' : γ'}
    (h : inputs.evaluate post qr custom nan m params = .ok out) (h' : inputs'.evaluate post' qr custom nan m params = .ok out') :
    ∃ (pm : Processed ℝ) (r : LoglikeResult ids.length pm.dimensions.nMixtures pm.dimensions.nLatentFactors) (r' : LoglikeResult ids'.length pm.dimensions.nMixtures pm.dimensions.nLatentFactors),
      processModel m = .ok pm ∧ inputs.model = pm ∧ inputs'.model = pm ∧ post ids.length _ _ r = .ok out ∧ post' ids'.length _ _ r' = .ok out' ∧ r.outs.length = pm.updateInfo.length ∧
      r'.outs.length = pm.updateInfo.length ∧ (r.allContributions = r.outs.map (fun o => o.loglikes)) ∧ (r'.allContributions = r'.outs.map (fun o => o.loglikes)) ∧
      ∀ (T : ℕ) (i : Fin ids.length) (i' : Fin ids'.length), SameHistoryUpTo m T df ids pers i df' ids' pers' i' →
        ∀ (k : ℕ) (row : URow), pm.updateInfo[k]? = some row → row.period ≤ T → (r.outs[k]?).map (StepOut.select (fun _ : Fin 1 => i)) = (r'.outs[k]?).map (StepOut.select (fun _ : Fin 1 => i')) := by
  unfold getMaximizationInputs at hin hin'
  simp only [py_bind_ok, py_pure_ok] at hin hin'
  obtain ⟨pm, hpm, info, hinfo, data, hdata, cs, hcs, rfl⟩ := hin
  obtain ⟨pm', hpm', info', hinfo', data', hdata', cs', hcs', rfl⟩ := hin'
  obtain rfl := Except.ok.inj (hpm.symm.trans hpm')
  obtain rfl := Except.ok.inj (hinfo.symm.trans hinfo')
  unfold MaximizationInputs.evaluate MaximizationInputs.evaluateVec at h h'
  simp only [py_bind_ok] at h h'
  obtain ⟨vec, hvec, p, hp, h⟩ := h
  obtain ⟨vec', hvec', p', hp', h'⟩ := h'
  obtain rfl := Except.ok.inj (hvec.symm.trans hvec')
  obtain ⟨s, c, w, e1, e2, e3, e4⟩ := parse_nObs hp
  obtain rfl := Except.ok.inj ((e4 _).symm.trans hp')
  have hN2 : ∀ s ∈ pm.updateInfo, s.period < pm.dimensions.nPeriods - 2 + 2 := by
    intro s hs
    have hp := (isPeriod_iff hpm s.period).mp (isUpdate_period (((C01_update_info_exact hpm).2.1 _ _).mp ⟨s, hs, rfl, rfl⟩))
    omega
  have hJ := jax_upTo (C01_update_info_exact hpm).2.2.1 hN2 e1 e2 e3 h h'
  obtain ⟨_, _, _, hcon, hobs, _⟩ := C27_data_arrays hpm hd hclash hi hu hids hpers hdata
  obtain ⟨_, _, _, hcon', _⟩ := C27_data_arrays hpm hd hclash hi' hu' hids' hpers' hdata'
  have hl : (data.controls.headD []).length = ids.length := data_length hpm hd hclash hi hu hids hpers hdata hJ.1
  have hl' : (data'.controls.headD []).length = ids'.length := by
    refine data_length hpm hd hclash hi' hu' hids' hpers' hdata' (k := pm.dimensions.nPeriods - 2 + 1) ?_
    rw [← IsNPeriods.unique hcon.1 hcon'.1]
    exact hJ.1
  obtain ⟨hlen, hlen2, r, r', j1, j2, j0, j0', j3, j4, j7⟩ := hJ
  have hsame := fun (T i i' : ℕ) (hs : SameHistoryUpTo m T df ids pers i df' ids' pers' i') => data_sameUpTo hpm hd hclash hi hi' hu hu' hids hpers hids' hpers' hdata hdata' hs
  obtain ⟨hd1, hd2, hd3⟩ := dims_of_ok hpm
  have key : ∀ (T : ℕ) (i : Fin (data.controls.headD []).length) (i' : Fin (data'.controls.headD []).length), SameHistoryUpTo m T df ids pers i df' ids' pers' i' →
        ∀ (k : ℕ) (row : URow), pm.updateInfo[k]? = some row → row.period ≤ T → (r.outs[k]?).map (StepOut.select (fun _ : Fin 1 => i)) = (r'.outs[k]?).map (StepOut.select (fun _ : Fin 1 => i')) := by
    intro T i i' hs
    obtain ⟨s1, s2, s3⟩ := hsame T i i' hs
    refine j7 T i i' s1 (fun t ht hT j hj => s2 t ⟨_, hcon.1, by rw [hlen]; exact ht⟩ hT j ?_) (fun t ht hT j hj => s3 t ⟨_, hobs.1, by rw [hlen2]; exact ht⟩ hT j ?_)
    · simpa [hd3] using hj
    · simpa [hd2] using hj
  rw [← hl, ← hl']
  exact ⟨pm, r, r', hpm, rfl, rfl, j1, j2, j0, j0', j3, j4, key⟩

end Skill
