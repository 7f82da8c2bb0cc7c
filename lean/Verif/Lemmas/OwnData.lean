import Verif.Spec.OwnData
import Verif.Lemmas.RenamedParsing
import Verif.Props.Pipeline2
/- Two evaluations of the likelihood function for datasets with different individuals. -/
namespace Skill
open Matrix Spec
variable {β : Type}

theorem parse_nObs [Zero β] [One β] {log : β → β} {vec : List β} {info : ParsingInfo} {d : Dimensions} {l : Labels} {n : ℕ} {p : Parsed β} (h : parseParams log vec info d l n = .ok p) :
    ∃ s c w, p.states = List.replicate n s ∧ p.upperChols = List.replicate n c ∧ p.logWeights = List.replicate n w ∧
      ∀ n', parseParams log vec info d l n' = .ok { p with states := List.replicate n' s, upperChols := List.replicate n' c, logWeights := List.replicate n' w } := by
  unfold parseParams at h
  simp only [py_bind_ok, py_pure_ok] at h
  obtain ⟨states, h1, chols, h2, weights, h3, con, h4, load, h5, sds, h6, shock, h7, tr, h8, sc, h9, cst, h10, rfl⟩ := h
  unfold getInitialStates at h1
  unfold getInitialUpperChols at h2
  unfold getInitialLogMixtureWeights at h3
  simp only [py_bind_ok, py_pure_ok] at h1 h2 h3
  obtain ⟨x1, a1, s, b1, rfl⟩ := h1
  obtain ⟨x2, a2, y2, b2, c, c2, rfl⟩ := h2
  obtain ⟨x3, a3, rfl⟩ := h3
  refine ⟨s, c, x3.map log, rfl, rfl, rfl, fun n' => ?_⟩
  unfold parseParams getInitialStates getInitialUpperChols getInitialLogMixtureWeights
  simp only [py_bind_ok, py_pure_ok]
  exact ⟨_, ⟨x1, a1, s, b1, rfl⟩, _, ⟨x2, a2, y2, b2, c, c2, rfl⟩, _, ⟨x3, a3, rfl⟩, con, h4, load, h5, sds, h6, shock, h7, tr, h8, sc, h9, cst, h10, rfl⟩

theorem entry2_replicate {k : ℕ} {s : List β} {i j : ℕ} (hi : i < k) : entry2 (List.replicate k s) i j = s[j]? := by
  unfold entry2
  rw [List.getElem?_replicate, if_pos hi, Option.bind_some]

theorem entry3_replicate {k : ℕ} {s : List (List β)} {i j a : ℕ} (hi : i < k) : entry3 (List.replicate k s) i j a = entry2 s j a := by
  unfold entry3
  rw [List.getElem?_replicate, if_pos hi, Option.bind_some]

/-- The states before the first update do not depend on the individual. -/
theorem initialCarry_same {nObs nObs' nMix n : ℕ} {p : Parsed ℝ} {s : List (List ℝ)} {c : List (List (List ℝ))} {w : List ℝ} {carry : Carry nObs nMix n} {carry' : Carry nObs' nMix n}
    (h1 : p.states = List.replicate nObs s) (h2 : p.upperChols = List.replicate nObs c) (h3 : p.logWeights = List.replicate nObs w) (h : initialCarry nObs nMix n p = .ok carry)
    (h' : initialCarry nObs' nMix n { p with states := List.replicate nObs' s, upperChols := List.replicate nObs' c, logWeights := List.replicate nObs' w } = .ok carry') (i : Fin nObs) (i' : Fin nObs') :
    carry.select (fun _ : Fin 1 => i) = carry'.select (fun _ : Fin 1 => i') := by
  unfold initialCarry at h h'
  simp only [py_bind_ok, py_pure_ok] at h h'
  obtain ⟨st, a1, ch, a2, lw, a3, rfl⟩ := h
  obtain ⟨st', b1, ch', b2, lw', b3, rfl⟩ := h'
  rw [h1] at a1
  rw [h2] at a2
  rw [h3] at a3
  have e1 : st i = st' i' := by
    funext e f
    have x := (toArray3_ok a1).2 i e f
    have y := (toArray3_ok b1).2 i' e f
    rw [entry3_replicate i.isLt] at x
    rw [entry3_replicate i'.isLt, x] at y
    exact Option.some.inj y
  have e2 : ch i = ch' i' := by
    funext e f g
    have x := (toArray4_ok a2).2 i e f g
    have y := (toArray4_ok b2).2 i' e f g
    rw [List.getElem?_replicate, if_pos i.isLt, Option.bind_some] at x
    rw [List.getElem?_replicate, if_pos i'.isLt, Option.bind_some, x] at y
    exact Option.some.inj y
  have e3 : lw i = lw' i' := by
    funext e
    have x := (toArray2_ok a3).2 i e
    have y := (toArray2_ok b3).2 i' e
    rw [entry2_replicate i.isLt] at x
    rw [entry2_replicate i'.isLt, x] at y
    exact Option.some.inj y
  unfold Carry.select
  simp only [e1, e2, e3]

/-- Values of the model's variables are the same in rows with the same cells. -/
theorem valueIs_same {m : ModelDict ℝ} {r r' : Option (LongRow ℝ)} (h : SameCells m r r') {c : String} (hc : c = "constant" ∨ UsedColumn m c ∨ ∃ f, Anchors m c f) (v : Option ℝ) :
    ValueIs m r c v ↔ ValueIs m r' c v := by
  have hb : ∀ c, c = "constant" ∨ UsedColumn m c → baseValue r c = baseValue r' c := by
    intro c hc
    unfold baseValue
    by_cases h0 : c = "constant"
    · rw [if_pos h0, if_pos h0]
    · rw [if_neg h0, if_neg h0]
      exact h c (hc.resolve_left h0)
  unfold ValueIs
  have h1 : (∃ f o, AnchoredIn m f o ∧ c = o ++ "_" ++ f ∧ v = baseValue r o) ↔ ∃ f o, AnchoredIn m f o ∧ c = o ++ "_" ++ f ∧ v = baseValue r' o := by
    refine exists_congr (fun f => exists_congr (fun o => and_congr_right (fun ho => and_congr_right (fun _ => ?_))))
    rw [hb o (Or.inr (Or.inr (Or.inl ⟨f, ho⟩)))]
  have h2 : ((¬∃ f, Anchors m c f) ∧ v = baseValue r c) ↔ ((¬∃ f, Anchors m c f) ∧ v = baseValue r' c) := by
    refine and_congr_right (fun hn => ?_)
    rw [hb c (by tauto)]
  rw [h1, h2]

theorem incomplete_same {m : ModelDict ℝ} {r r' : Option (LongRow ℝ)} (h : SameCells m r r') (t : ℕ) : IncompleteControls m r t ↔ IncompleteControls m r' t := by
  unfold IncompleteControls
  refine and_congr ?_ ?_
  · refine exists_congr (fun c => and_congr_right (fun hc => valueIs_same h ?_ _))
    rcases List.mem_cons.mp hc with hc | hc
    · exact Or.inl hc
    · exact Or.inr (Or.inl (Or.inr (Or.inr (Or.inl hc))))
  · refine exists_congr (fun w => exists_congr (fun y => and_congr_right (fun hw => valueIs_same h ?_ _)))
    rcases hw with ⟨f, hM⟩ | ⟨_, hA⟩
    · exact Or.inr (Or.inl (Or.inl ⟨t, f, hM⟩))
    · exact Or.inr (Or.inr hA)

theorem kept_same {m : ModelDict ℝ} {r r' : Option (LongRow ℝ)} (h : SameCells m r r') {t : ℕ} {v w w' : Option ℝ} (hw : Kept m r t v w) (hw' : Kept m r' t v w') : w = w' := by
  have hi := incomplete_same h t
  rcases hw with ⟨h1, rfl⟩ | ⟨h1, rfl⟩ <;> rcases hw' with ⟨h2, rfl⟩ | ⟨h2, rfl⟩
  · rfl
  · exact absurd (hi.mp h1) h2
  · exact absurd (hi.mpr h2) h1
  · rfl

/-- The data arrays have the same entries for individuals with the same data. -/
theorem data_same {m : ModelDict ℝ} {pm : Processed ℝ} (hpm : processModel m = .ok pm) (hd : DictKeys m) (hclash : NoNameClash m) {df df' : LongData ℝ} (hi : IndexOk df) (hi' : IndexOk df')
    (hu : NoUnusedPeriods df) (hu' : NoUnusedPeriods df') {ids pers ids' pers' : List Int} (hids : IdsOf df ids) (hpers : PeriodsOf df pers) (hids' : IdsOf df' ids') (hpers' : PeriodsOf df' pers')
    {data data' : ProcessedData ℝ} (h : processData df pm.labels pm.updateInfo pm.anchoring .estimation = .ok data) (h' : processData df' pm.labels pm.updateInfo pm.anchoring .estimation = .ok data')
    {i i' : ℕ} (hs : SameHistory m df ids pers i df' ids' pers' i') :
    (∀ k < pm.updateInfo.length, entry2 (data.measurements.getD []) k i = entry2 (data'.measurements.getD []) k i') ∧
    (∀ t, IsPeriod m t → ∀ j < (m.controls.getD []).length + 1, entry3 data.controls t i j = entry3 data'.controls t i' j) ∧
    (∀ t, IsPeriod m t → ∀ j < (m.observedFactors.getD []).length, entry3 data.observedFactors t i j = entry3 data'.observedFactors t i' j) := by
  obtain ⟨meas, hm, _, _, _, hcell⟩ := C27_data_arrays hpm hd hclash hi hu hids hpers h
  obtain ⟨meas', hm', _, _, _, hcell'⟩ := C27_data_arrays hpm hd hclash hi' hu' hids' hpers' h'
  obtain ⟨hs1, hs2, hs⟩ := hs
  rw [hm, hm', Option.getD_some, Option.getD_some]
  refine ⟨fun k hk => ?_, fun t ht j hj => ?_, fun t ht j hj => ?_⟩
  · have hrow : pm.updateInfo[k]? = some pm.updateInfo[k] := List.getElem?_eq_getElem hk
    generalize pm.updateInfo[k] = row at hrow
    have hup : IsUpdate m row.period row.var := ((C01_update_info_exact hpm).2.1 _ _).mp ⟨row, List.mem_of_getElem? hrow, rfl, rfl⟩
    have ht := isUpdate_period hup
    obtain ⟨r, hr⟩ := exists_rowOf df ids pers row.period hs1
    obtain ⟨r', hr'⟩ := exists_rowOf df' ids' pers' row.period hs2
    have hsc := hs _ ht r r' hr hr'
    obtain ⟨v, hv⟩ := exists_valueIs m r row.var
    have hv' : ValueIs m r' row.var v := by
      refine (valueIs_same hsc ?_ v).mp hv
      rcases hup with ⟨f, hM⟩ | ⟨_, hA⟩
      · exact Or.inr (Or.inl (Or.inl ⟨_, f, hM⟩))
      · exact Or.inr (Or.inr hA)
    obtain ⟨w, h1, h2⟩ := (hcell i row.period r hs1 ht hr).1 k row v hrow rfl hv
    obtain ⟨w', h1', h2'⟩ := (hcell' i' row.period r' hs2 ht hr').1 k row v hrow rfl hv'
    rw [h1, h1', kept_same hsc h2 h2']
  · obtain ⟨r, hr⟩ := exists_rowOf df ids pers t hs1
    obtain ⟨r', hr'⟩ := exists_rowOf df' ids' pers' t hs2
    have hsc := hs _ ht r r' hr hr'
    have hj' : j < ("constant" :: m.controls.getD []).length := by simpa using hj
    have hc : ("constant" :: m.controls.getD [])[j]? = some ("constant" :: m.controls.getD [])[j] := List.getElem?_eq_getElem hj'
    generalize ("constant" :: m.controls.getD [])[j] = c at hc
    obtain ⟨v, hv⟩ := exists_valueIs m r c
    have hv' : ValueIs m r' c v := by
      refine (valueIs_same hsc ?_ v).mp hv
      rcases List.mem_cons.mp (List.mem_of_getElem? hc) with hc | hc
      · exact Or.inl hc
      · exact Or.inr (Or.inl (Or.inr (Or.inr (Or.inl hc))))
    obtain ⟨w, h1, h2⟩ := (hcell i t r hs1 ht hr).2.1 j c v hc hv
    obtain ⟨w', h1', h2'⟩ := (hcell' i' t r' hs2 ht hr').2.1 j c v hc hv'
    rw [h1, h1', kept_same hsc h2 h2']
  · obtain ⟨r, hr⟩ := exists_rowOf df ids pers t hs1
    obtain ⟨r', hr'⟩ := exists_rowOf df' ids' pers' t hs2
    have hsc := hs _ ht r r' hr hr'
    have hc : (m.observedFactors.getD [])[j]? = some (m.observedFactors.getD [])[j] := List.getElem?_eq_getElem hj
    generalize (m.observedFactors.getD [])[j] = c at hc
    obtain ⟨v, hv⟩ := exists_valueIs m r c
    have hv' : ValueIs m r' c v := (valueIs_same hsc (Or.inr (Or.inl (Or.inr (Or.inr (Or.inr (List.mem_of_getElem? hc)))))) v).mp hv
    obtain ⟨w, h1, h2⟩ := (hcell i t r hs1 ht hr).2.2 j c v hc hv
    obtain ⟨w', h1', h2'⟩ := (hcell' i' t r' hs2 ht hr').2.2 j c v hc hv'
    rw [h1, h1', kept_same hsc h2 h2']

/-- The number of individuals. -/
theorem data_length {m : ModelDict ℝ} {pm : Processed ℝ} (hpm : processModel m = .ok pm) (hd : DictKeys m) (hclash : NoNameClash m) {df : LongData ℝ} (hi : IndexOk df) (hu : NoUnusedPeriods df)
    {ids pers : List Int} (hids : IdsOf df ids) (hpers : PeriodsOf df pers) {data : ProcessedData ℝ} (h : processData df pm.labels pm.updateInfo pm.anchoring .estimation = .ok data) {k : ℕ}
    (hk : data.controls.length = k + 1) : (data.controls.headD []).length = ids.length := by
  obtain ⟨_, _, _, hcon, _⟩ := C27_data_arrays hpm hd hclash hi hu hids hpers h
  cases hc : data.controls with
  | nil => rw [hc] at hk; cases hk
  | cons x xs => exact (hcon.2 x (by rw [hc]; exact List.mem_cons_self)).1

theorem entry3_fillNaN_eq (nan : ℝ) (xs : List (List (List (Option ℝ)))) (i j k : ℕ) : entry3 (fillNaN nan xs) i j k = (entry3 xs i j k).map (fun c => c.getD nan) := by
  unfold entry3 entry2 fillNaN
  rw [List.getElem?_map]
  cases xs[i]? with
  | none => rfl
  | some a =>
    simp only [Option.map_some, Option.bind_some, List.getElem?_map]
    cases a[j]? with
    | none => rfl
    | some b => simp only [Option.map_some, Option.bind_some, List.getElem?_map]

theorem loopArgs_select {nObs nObs' n nC : ℕ} {lastPeriod : ℕ} {rows : List (UpdateParams n nC)} {u : ℕ} {data : Fin u → Fin nObs → Option ℝ} {data' : Fin u → Fin nObs' → Option ℝ} {i : Fin nObs} {i' : Fin nObs'}
    (h : ∀ k, data k i = data' k i') :
    (loopArgs lastPeriod rows (List.ofFn data)).map (LoopArgs.select (fun _ : Fin 1 => i)) = (loopArgs lastPeriod rows (List.ofFn data')).map (LoopArgs.select (fun _ : Fin 1 => i')) := by
  unfold loopArgs
  rw [List.map_map, List.map_map]
  refine List.ext_getElem (by simp) (fun k h1 h2 => ?_)
  simp only [List.length_map, List.length_zip, List.length_ofFn] at h1
  simp [LoopArgs.select, h]

/-- Two evaluations of the likelihood function with different numbers of individuals, and individuals with the same data. -/
theorem jax_own {γ γ' : Type} {post : (nObs nMix n : ℕ) → LoglikeResult nObs nMix n → Py γ} {post' : (nObs nMix n : ℕ) → LoglikeResult nObs nMix n → Py γ'} {qr : QR} {nObs nObs' nMix nT n nObserved nC : ℕ}
    {nan : ℝ} {fs : List String} {fns : Dict TransFn} {kappa : ℝ} {clip : ClipOptions} {u : List URow} {p : Parsed ℝ} {s : List (List ℝ)} {c : List (List (List ℝ))} {w : List ℝ}
    (h1 : p.states = List.replicate nObs s) (h2 : p.upperChols = List.replicate nObs c) (h3 : p.logWeights = List.replicate nObs w)
    {meas meas' : List (List (Option ℝ))} {con obs con' obs' : List (List (List (Option ℝ)))} {out : γ} {out' : γ'}
    (h : logLikelihoodJax post qr nObs nMix nT n nObserved nC nan fs fns kappa clip u p meas con obs = .ok out)
    (h' : logLikelihoodJax post' qr nObs' nMix nT n nObserved nC nan fs fns kappa clip u { p with states := List.replicate nObs' s, upperChols := List.replicate nObs' c, logWeights := List.replicate nObs' w }
      meas' con' obs' = .ok out') :
    con.length = nT + 2 ∧ obs.length = nT + 2 ∧ ∃ r r', post nObs nMix n r = .ok out ∧ post' nObs' nMix n r' = .ok out' ∧ r.outs.length = r'.outs.length ∧
      (r.allContributions = r.outs.map (fun o => o.loglikes)) ∧ (r'.allContributions = r'.outs.map (fun o => o.loglikes)) ∧ r.value = ∑ i, r.contributions i ∧ r'.value = ∑ i, r'.contributions i ∧
      ∀ (i : Fin nObs) (i' : Fin nObs'), (∀ k < u.length, entry2 meas k i = entry2 meas' k i') → (∀ t < nT + 2, ∀ j < nC, entry3 con t i j = entry3 con' t i' j) →
        (∀ t < nT + 2, ∀ j < nObserved, entry3 obs t i j = entry3 obs' t i' j) →
        r.contributions i = r'.contributions i' ∧ r.outs.map (StepOut.select (fun _ : Fin 1 => i)) = r'.outs.map (StepOut.select (fun _ : Fin 1 => i')) := by
  unfold logLikelihoodJax at h h'
  simp only [py_bind_ok] at h h'
  obtain ⟨fixed, a1, carry, a2, rows, a3, data, a4, _, _, r, a5, a6⟩ := h
  obtain ⟨fixed', b1, carry', b2, rows', b3, data', b4, _, _, r', b5, b6⟩ := h'
  have a3' : loopParams n nC u { p with states := List.replicate nObs' s, upperChols := List.replicate nObs' c, logWeights := List.replicate nObs' w } = .ok rows := a3
  obtain rfl := Except.ok.inj (a3'.symm.trans b3)
  have hcarry := initialCarry_same h1 h2 h3 a2 b2
  unfold scanInputs at a1 b1
  simp only [py_bind_ok, py_pure_ok] at a1 b1
  obtain ⟨cn, c1, ob, c2, tr, c3, sh, c4, sc, c5, cs, c6, rfl⟩ := a1
  obtain ⟨cn', d1, ob', d2, tr', d3, sh', d4, sc', d5, cs', d6, rfl⟩ := b1
  obtain rfl := Except.ok.inj (c3.symm.trans d3)
  obtain rfl := Except.ok.inj (c4.symm.trans d4)
  obtain rfl := Except.ok.inj (c5.symm.trans d5)
  obtain rfl := Except.ok.inj (c6.symm.trans d6)
  refine ⟨by have := (toArray3_ok c1).1; simpa [fillNaN] using this, by have := (toArray3_ok c2).1; simpa [fillNaN] using this, r, r', a6, b6, ?_, (logLikelihood_ok a5).2.1, (logLikelihood_ok b5).2.1,
    (C40_value_is_sum a5).1, (C40_value_is_sum b5).1, fun i i' e1 e2 e3 => ?_⟩
  · rw [(logLikelihood_ok a5).1, (logLikelihood_ok b5).1, outs_length, outs_length]
    simp [loopArgs]
  obtain ⟨q, hq1, hq2, hq3⟩ := C39_individuals_independent (fun _ : Fin 1 => i) a5
  obtain ⟨q', hq1', hq2', hq3'⟩ := C39_individuals_independent (fun _ : Fin 1 => i') b5
  have hdata : ∀ k, data k i = data' k i' := by
    intro k
    have x := (toArray2_ok a4).2 k i
    have y := (toArray2_ok b4).2 k i'
    rw [e1 k k.isLt, y] at x
    exact (Option.some.inj x).symm
  have hcon : ∀ t, cn t i = cn' t i' := by
    intro t
    funext j
    have x := (toArray3_ok c1).2 t i j
    have y := (toArray3_ok d1).2 t i' j
    rw [entry3_fillNaN_eq] at x y
    rw [e2 t t.isLt j j.isLt, y] at x
    exact (Option.some.inj x).symm
  have hobs : ∀ t, ob t i = ob' t i' := by
    intro t
    funext j
    have x := (toArray3_ok c2).2 t i j
    have y := (toArray3_ok d2).2 t i' j
    rw [entry3_fillNaN_eq] at x y
    rw [e3 t t.isLt j j.isLt, y] at x
    exact (Option.some.inj x).symm
  rw [loopArgs_select hdata, hcarry i i'] at hq1
  have hq : q = q' := by
    refine Except.ok.inj (hq1.symm.trans (Eq.trans ?_ hq1'))
    unfold ScanFixed.select
    simp only [hcon, hobs]
  subst hq
  exact ⟨(hq2 0).symm.trans (hq2' 0), hq3.symm.trans hq3'⟩

/-- Two evaluations of the likelihood function for the same model and parameters and different datasets. -/
theorem evaluate_own {m : ModelDict ℝ} (hd : DictKeys m) (hclash : NoNameClash m) {df df' : LongData ℝ} (hi : IndexOk df) (hi' : IndexOk df') (hu : NoUnusedPeriods df) (hu' : NoUnusedPeriods df')
    {ids pers ids' pers' : List Int} (hids : IdsOf df ids) (hpers : PeriodsOf df pers) (hids' : IdsOf df' ids') (hpers' : PeriodsOf df' pers') {inputs inputs' : MaximizationInputs}
    (hin : getMaximizationInputs m df = .ok inputs) (hin' : getMaximizationInputs m df' = .ok inputs') {γ γ' : Type} {post : (nObs nMix n : ℕ) → LoglikeResult nObs nMix n → Py γ}
    {post' : (nObs nMix n : ℕ) → LoglikeResult nObs nMix n → Py γ'} {qr : QR} {custom : String → CustomFn} {nan : ℝ} {params : List (Loc × ℝ)} {out : γ} {out' : γ'}
    (h : inputs.evaluate post qr custom nan m params = .ok out) (h' : inputs'.evaluate post' qr custom nan m params = .ok out') :
    ∃ (nMix n : ℕ) (r : LoglikeResult ids.length nMix n) (r' : LoglikeResult ids'.length nMix n), n = m.factors.length ∧ post ids.length nMix n r = .ok out ∧ post' ids'.length nMix n r' = .ok out' ∧ r.outs.length = r'.outs.length ∧
      (r.allContributions = r.outs.map (fun o => o.loglikes)) ∧ (r'.allContributions = r'.outs.map (fun o => o.loglikes)) ∧ r.value = ∑ i, r.contributions i ∧ r'.value = ∑ i, r'.contributions i ∧
      ∀ (i : Fin ids.length) (i' : Fin ids'.length), SameHistory m df ids pers i df' ids' pers' i' →
        r.contributions i = r'.contributions i' ∧ r.outs.map (StepOut.select (fun _ : Fin 1 => i)) = r'.outs.map (StepOut.select (fun _ : Fin 1 => i')) := by
  unfold getMaximizationInputs at hin hin'
  simp only [py_bind_ok, py_pure_ok] at hin hin'
  obtain ⟨pm, hpm, info, hinfo, data, hdata, cs, hcs, rfl⟩ := hin
  obtain ⟨pm', hpm', info', hinfo', data', hdata', cs', hcs', rfl⟩ := hin'
  obtain rfl := Except.ok.inj (hpm.symm.trans hpm')
  obtain rfl := Except.ok.inj (hinfo.symm.trans hinfo')
  unfold MaximizationInputs.evaluate MaximizationInputs.evaluateVec at h h'
  simp only [py_bind_ok] at h h'
  obtain ⟨vec, hvec, p, hp, h⟩ := h
  obtain ⟨vec', hvec', p', hp', h'⟩ := h'
  obtain rfl := Except.ok.inj (hvec.symm.trans hvec')
  obtain ⟨s, c, w, e1, e2, e3, e4⟩ := parse_nObs hp
  obtain rfl := Except.ok.inj ((e4 _).symm.trans hp')
  have hJ := jax_own e1 e2 e3 h h'
  obtain ⟨_, _, _, hcon, hobs, _⟩ := C27_data_arrays hpm hd hclash hi hu hids hpers hdata
  obtain ⟨_, _, _, hcon', _⟩ := C27_data_arrays hpm hd hclash hi' hu' hids' hpers' hdata'
  have hl : (data.controls.headD []).length = ids.length := data_length hpm hd hclash hi hu hids hpers hdata hJ.1
  have hl' : (data'.controls.headD []).length = ids'.length := by
    refine data_length hpm hd hclash hi' hu' hids' hpers' hdata' (k := pm.dimensions.nPeriods - 2 + 1) ?_
    rw [← IsNPeriods.unique hcon.1 hcon'.1]
    exact hJ.1
  obtain ⟨hlen, hlen2, r, r', j1, j2, j0, j3, j4, j5, j6, j7⟩ := hJ
  have hsame := fun (i i' : ℕ) (hs : SameHistory m df ids pers i df' ids' pers' i') => data_same hpm hd hclash hi hi' hu hu' hids hpers hids' hpers' hdata hdata' hs
  obtain ⟨hd1, hd2, hd3⟩ := dims_of_ok hpm
  have key : ∀ (i : Fin (data.controls.headD []).length) (i' : Fin (data'.controls.headD []).length), SameHistory m df ids pers i df' ids' pers' i' →
        r.contributions i = r'.contributions i' ∧ r.outs.map (StepOut.select (fun _ : Fin 1 => i)) = r'.outs.map (StepOut.select (fun _ : Fin 1 => i')) := by
    intro i i' hs
    obtain ⟨s1, s2, s3⟩ := hsame i i' hs
    refine j7 i i' s1 (fun t ht j hj => s2 t ⟨_, hcon.1, by rw [hlen]; exact ht⟩ j ?_) (fun t ht j hj => s3 t ⟨_, hobs.1, by rw [hlen2]; exact ht⟩ j ?_)
    · simpa [hd3] using hj
    · simpa [hd2] using hj
  rw [← hl, ← hl']
  exact ⟨_, _, r, r', by rw [hd1, List.length_map], j1, j2, j0, j3, j4, j5, j6, key⟩

theorem replicate_array {β' γ' : Type} {f : β' → Py γ'} {k k' : ℕ} (hk : 0 < k) {s : β'} {g : Fin k → γ'} (h : ((List.replicate k s).mapM f >>= toArray1 k) = .ok g) :
    ∃ g', ((List.replicate k' s).mapM f >>= toArray1 k') = .ok g' := by
  obtain ⟨rows, h1, _⟩ := py_bind_ok.mp h
  obtain ⟨y, _, hy⟩ := forall₂_mem ((mapM_ok_iff _ _ _).mp h1) (List.mem_replicate.mpr ⟨by omega, rfl⟩ : s ∈ List.replicate k s)
  obtain ⟨rows', hr⟩ := mapM_exists (f := f) (xs := List.replicate k' s) (fun x hx => ⟨y, by rw [(List.mem_replicate.mp hx).2]; exact hy⟩)
  have hlen : rows'.length = k' := by rw [← ((mapM_ok_iff _ _ _).mp hr).length_eq, List.length_replicate]
  exact ⟨_, py_bind_ok.mpr ⟨rows', hr, dif_pos hlen⟩⟩

/-- Whether the likelihood function can be evaluated does not depend on the data. -/
theorem jax_other {γ γ' : Type} {post : (nObs nMix n : ℕ) → LoglikeResult nObs nMix n → Py γ} {post' : (nObs nMix n : ℕ) → LoglikeResult nObs nMix n → Py γ'} (hpost : ∀ nObs nMix n r, ∃ x, post' nObs nMix n r = .ok x)
    {qr : QR} {nObs nObs' nMix nT n nObserved nC : ℕ} (hpos : 0 < nObs)
    {nan : ℝ} {fs : List String} {fns : Dict TransFn} {kappa : ℝ} {clip : ClipOptions} {u : List URow} {p : Parsed ℝ} {s : List (List ℝ)} {c : List (List (List ℝ))} {w : List ℝ}
    (h1 : p.states = List.replicate nObs s) (h2 : p.upperChols = List.replicate nObs c) (h3 : p.logWeights = List.replicate nObs w)
    {meas meas' : List (List (Option ℝ))} {con obs con' obs' : List (List (List (Option ℝ)))} {out : γ}
    (h : logLikelihoodJax post qr nObs nMix nT n nObserved nC nan fs fns kappa clip u p meas con obs = .ok out)
    (hm : meas'.length = u.length ∧ ∀ x ∈ meas', x.length = nObs') (hc : con'.length = con.length ∧ ∀ x ∈ con', x.length = nObs' ∧ ∀ y ∈ x, y.length = nC)
    (ho : obs'.length = obs.length ∧ ∀ x ∈ obs', x.length = nObs' ∧ ∀ y ∈ x, y.length = nObserved) :
    ∃ out', logLikelihoodJax post' qr nObs' nMix nT n nObserved nC nan fs fns kappa clip u { p with states := List.replicate nObs' s, upperChols := List.replicate nObs' c, logWeights := List.replicate nObs' w }
      meas' con' obs' = .ok out' := by
  unfold logLikelihoodJax at h
  simp only [py_bind_ok] at h
  obtain ⟨fixed, a1, carry, a2, rows, a3, data, a4, tr0, atr, r, a5, a6⟩ := h
  unfold scanInputs at a1
  simp only [py_bind_ok, py_pure_ok] at a1
  obtain ⟨cn, c1, ob, c2, tr, c3, sh, c4, sc, c5, cs, c6, rfl⟩ := a1
  obtain ⟨cn', d1⟩ := fillNaN_shape (nan := nan) (hc.1.trans (by simpa [fillNaN] using (toArray3_ok c1).1)) hc.2
  obtain ⟨ob', d2⟩ := fillNaN_shape (nan := nan) (ho.1.trans (by simpa [fillNaN] using (toArray3_ok c2).1)) ho.2
  unfold initialCarry at a2
  simp only [py_bind_ok, py_pure_ok] at a2
  obtain ⟨st, e1, ch, e2, lw, e3, rfl⟩ := a2
  rw [h1] at e1
  rw [h2] at e2
  rw [h3] at e3
  obtain ⟨st', f1⟩ := replicate_array (k' := nObs') hpos e1
  obtain ⟨ch', f2⟩ := replicate_array (k' := nObs') hpos e2
  obtain ⟨lw', f3⟩ := replicate_array (k' := nObs') hpos e3
  obtain ⟨data', b4⟩ := toArray2_exists hm.1 hm.2
  have hl : ∃ r', logLikelihood qr ({ controls := cn', observed := ob', transition := fun t => tr.map (fun fa => (fa.1, fa.2 t)), shockSds := sh
                                      scaling := sc, constants := cs, sigmaScalingFactor := sigmaScalingFactor n kappa, sigmaWeights := sigmaWeights n kappa
                                      func := fun params states => transitionValues n fs fns params states } : ScanFixed nObs' nT n nObserved nC (Dict (List ℝ))) clip
      ({ states := st', upperChols := fun i e => Matrix.of (ch' i e), logWeights := lw' } : Carry nObs' nMix n) (loopArgs (nT + 1) rows (List.ofFn data')) = .ok r' := by
    rw [logLikelihood_ok_iff]
    rcases logLikelihood_ok_iff.mp ⟨r, a5⟩ with h | h | h | h
    · left
      have : (loopArgs (nT + 1) rows (List.ofFn data')).length = (loopArgs (nT + 1) rows (List.ofFn data)).length := by simp [loopArgs]
      rw [h] at this
      exact List.length_eq_zero_iff.mp this
    · exact Or.inr (Or.inl h)
    · exact Or.inr (Or.inr (Or.inl h))
    · omega
  obtain ⟨r', hr'⟩ := hl
  obtain ⟨x, hx⟩ := hpost nObs' nMix n r'
  refine ⟨x, ?_⟩
  unfold logLikelihoodJax scanInputs initialCarry
  simp only [py_bind_ok, py_pure_ok]
  exact ⟨_, ⟨cn', d1, ob', d2, tr, c3, sh, c4, sc, c5, cs, c6, rfl⟩, _, ⟨st', f1, ch', f2, lw', f3, rfl⟩, rows, a3, data', b4, tr0, atr, r', hr', hx⟩

theorem ids_pos {m : ModelDict ℝ} (hper : IsPeriod m 0) {df : LongData ℝ} {ids pers : List Int} (h : DataOk m df ids pers) : 0 < ids.length := by
  obtain ⟨_, i, _, hi, _⟩ := h.controls 0 hper "constant" List.mem_cons_self
  omega

/-- Whether the likelihood function can be evaluated does not depend on the data, given that process_data accepts the data. -/
theorem loglike_other {m : ModelDict ℝ} (hd : DictKeys m) (hclash : NoNameClash m) {df df' : LongData ℝ} (hi : IndexOk df) (hi' : IndexOk df') (hu : NoUnusedPeriods df) (hu' : NoUnusedPeriods df')
    {ids pers ids' pers' : List Int} (hids : IdsOf df ids) (hpers : PeriodsOf df pers) (hids' : IdsOf df' ids') (hpers' : PeriodsOf df' pers') {inputs inputs' : MaximizationInputs}
    (hin : getMaximizationInputs m df = .ok inputs) (hin' : getMaximizationInputs m df' = .ok inputs') {qr : QR} {custom : String → CustomFn} {nan : ℝ} {params : List (Loc × ℝ)} {out : LoglikeOutput}
    (h : inputs.loglike qr custom nan m params = .ok out) : ∃ out', inputs'.loglike qr custom nan m params = .ok out' := by
  unfold getMaximizationInputs at hin hin'
  simp only [py_bind_ok, py_pure_ok] at hin hin'
  obtain ⟨pm, hpm, info, hinfo, data, hdata, cs, hcs, rfl⟩ := hin
  obtain ⟨pm', hpm', info', hinfo', data', hdata', cs', hcs', rfl⟩ := hin'
  obtain rfl := Except.ok.inj (hpm.symm.trans hpm')
  obtain rfl := Except.ok.inj (hinfo.symm.trans hinfo')
  unfold MaximizationInputs.loglike MaximizationInputs.evaluate MaximizationInputs.evaluateVec at h ⊢
  simp only [py_bind_ok] at h ⊢
  obtain ⟨vec, hvec, p, hp, h⟩ := h
  obtain ⟨s, c, w, e1, e2, e3, e4⟩ := parse_nObs hp
  obtain ⟨_, _, _, hcon, hobs, _⟩ := C27_data_arrays hpm hd hclash hi hu hids hpers hdata
  obtain ⟨meas', hmeas', hm', hcon', hobs', _⟩ := C27_data_arrays hpm hd hclash hi' hu' hids' hpers' hdata'
  obtain ⟨hd1, hd2, hd3⟩ := dims_of_ok hpm
  have hk : data.controls.length = pm.dimensions.nPeriods - 2 + 1 + 1 := by
    have := h
    unfold logLikelihoodJax scanInputs at this
    simp only [py_bind_ok] at this
    obtain ⟨_, ⟨_, c1, _⟩, _⟩ := this
    simpa [fillNaN] using (toArray3_ok c1).1
  have hl := data_length hpm hd hclash hi hu hids hpers hdata hk
  have hl' := data_length hpm hd hclash hi' hu' hids' hpers' hdata' (by rw [← IsNPeriods.unique hcon.1 hcon'.1]; exact hk)
  have hpos : 0 < (data.controls.headD []).length := by rw [hl]; exact ids_pos ⟨_, hcon.1, by omega⟩ ((C66_accepts_iff hpm hd hclash hi hu hids hpers).mp ⟨data, hdata⟩)
  obtain ⟨out', ho⟩ := jax_other (nObs' := (data'.controls.headD []).length) (post' := fun nObs nMix n r => .ok (LoglikeResult.output nObs nMix n r)) (fun _ _ _ _ => ⟨_, rfl⟩) hpos e1 e2 e3 h (meas' := data'.measurements.getD [])
    (con' := data'.controls) (obs' := data'.observedFactors) (by rw [hmeas', hl']; exact hm') ⟨IsNPeriods.unique hcon'.1 hcon.1, by rw [hl', hd3]; exact hcon'.2⟩ ⟨IsNPeriods.unique hobs'.1 hobs.1, by rw [hl', hd2]; exact hobs'.2⟩
  exact ⟨out', vec, hvec, _, e4 _, ho⟩

end Skill
