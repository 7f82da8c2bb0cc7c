import Verif.Model.FilteredStates
import Verif.Lemmas.FilterOuts
import Verif.Lemmas.FilterLabel
import Verif.Lemmas.TransitionPlots
import Verif.Props.DebugData
import Verif.Props.Pipeline2
/-
C85, C86: get_filtered_states, from the inputs of the user.
-/
namespace Skill
open Matrix MeasureTheory ProbabilityTheory Spec

/-! ### the parts of get_filtered_states -/

theorem locParams_ok {β : Type} {params : List (Loc × β)} (hn : (params.map Prod.fst).Nodup) {labels : List Loc} {out : List (Loc × β)} (h : locParams params labels = .ok out) :
    out.map Prod.fst = labels ∧ ∀ lx ∈ out, lx ∈ params := by
  unfold locParams at h
  rw [mapM_ok_iff] at h
  induction h with
  | nil => simp
  | @cons l lx ls out h1 _ ih =>
    split at h1
    · next x hx =>
      obtain rfl := Except.ok.inj h1
      refine ⟨by simp [ih.1], ?_⟩
      intro a ha
      rcases List.mem_cons.mp ha with rfl | ha
      · exact lookup_mem hx
      · exact ih.2 a ha
    · cases h1

theorem filteredFrame_row {n : ℕ} {factors : List String} {rows : List (FilteredRow n)} {j : ℕ} {r : FilteredRow n} (h : rows[j]? = some r) :
    ∃ cells, (filteredFrame factors rows).rows[j]? = some (r.period, cells) ∧ cells "period" = r.period ∧ cells "id" = r.id ∧
      ∀ col, col ≠ "period" → col ≠ "id" → cells col = (List.ofFn r.values).getD (factors.idxOf col) 0 := by
  refine ⟨_, by unfold filteredFrame; rw [List.getElem?_map, h]; rfl, ?_, ?_, ?_⟩
  · simp
  · simp
  · intro col h1 h2
    simp [h1, h2]

theorem processDebugData_ok {u : List URow} {factors : List String} {nObs nMix n : ℕ} {r : LoglikeResult nObs nMix n} {d : DebugData} (h : processDebugData u factors nObs nMix n r = .ok d) :
    ∃ rows, createFilteredStates r.outs u = .ok rows ∧ d.filteredStates = filteredFrame factors rows ∧ d.stateRanges = createStateRanges (filteredFrame factors rows) factors := by
  unfold processDebugData at h
  simp only [py_bind_ok, py_pure_ok] at h
  obtain ⟨_, _, rows, hrows, _, _, _, _, _, _, rfl⟩ := h
  exact ⟨rows, hrows, rfl, rfl⟩

/-- The average over the mixture elements that the filter computes. -/
theorem aggregate_eq {nObs nMix n nT nObserved nC : ℕ} {θ : Type} {qr : QR} (hqr : ValidQR qr) {fixed : ScanFixed nObs nT n nObserved nC θ} {kappa : ℝ} (hk : SigmaOptions fixed kappa)
    (hlin : AffineTransitions fixed) (h : nMix = 1 ∨ nObserved = 0) (i : Fin nObs) {args : List (LoopArgs nObs n nC)}
    (hsd : ∀ a ∈ args, a.measSd ≠ 0) (hm : ∀ a ∈ args, a.isMeasurement = true) {c : Carry nObs nMix n} (hw : WeightsOk c.logWeights) {k : ℕ} {o : StepOut nObs nMix n} (ho : (outs qr fixed c args)[k]? = some o) (f : Fin n) :
    ∑ e, o.states i e f * Real.exp (o.logWeights i e) =
      (∑ e, Real.exp (c.logWeights i e) * kalmanDensity ((args.take (k + 1)).map (stepOf fixed i)) (c.states i e) ((c.upperChols i e)ᵀ * c.upperChols i e) (dataOf fixed i (args.take (k + 1))) *
        filterMean ((args.take (k + 1)).map (stepOf fixed i)) (c.states i e) ((c.upperChols i e)ᵀ * c.upperChols i e) (dataOf fixed i (args.take (k + 1))) f) /
      ∑ e, Real.exp (c.logWeights i e) * kalmanDensity ((args.take (k + 1)).map (stepOf fixed i)) (c.states i e) ((c.upperChols i e)ᵀ * c.upperChols i e) (dataOf fixed i (args.take (k + 1))) := by
  have hf := filter_out hqr hk hlin h i hsd hm hw ho
  set S := ∑ e, Real.exp (c.logWeights i e) * kalmanDensity ((args.take (k + 1)).map (stepOf fixed i)) (c.states i e) ((c.upperChols i e)ᵀ * c.upperChols i e) (dataOf fixed i (args.take (k + 1))) with hS
  have hsds : ∀ s ∈ (args.take (k + 1)).map (stepOf fixed i), s.sd ≠ 0 := by
    intro s hs
    obtain ⟨a, ha, rfl⟩ := List.mem_map.mp hs
    exact hsd a (List.mem_of_mem_take ha)
  have hne : Nonempty (Fin nMix) := by
    by_contra hn
    rw [not_nonempty_iff] at hn
    have := hw i
    rw [Finset.univ_eq_empty, Finset.sum_empty] at this
    exact zero_ne_one this
  have hpos : 0 < S := Finset.sum_pos (fun e _ => mul_pos (Real.exp_pos _) (kalmanDensity_pos hsds _ (posSemidef_conjTranspose_mul_self _) _)) Finset.univ_nonempty
  rw [Finset.sum_div]
  refine Finset.sum_congr rfl (fun e _ => ?_)
  obtain ⟨h1, h2⟩ := hf e
  rw [eq_div_iff hpos.ne', ← h2, h1]
  ring

section
variable {qr : QR} (hqr : ValidQR qr) {m : ModelDict ℝ} {pm : Processed ℝ} (hpm : processModel m = .ok pm) {k : ℕ} (hm : LinearModel m k) (hg : GoodNames m)
    (hkappa : ∀ o x, m.estimationOptions = some o → o.sigmaPointsScale = some x → 0 ≤ x) {val : Loc → ℝ} (hv : ProperValues m k val) (custom : String → CustomFn) (nan : ℝ)
include hqr hpm hm hg hkappa hv

/-- The filtered state of an individual of a dataset. -/
theorem filtered_label (hanch : m.anchoring = none ∨ k = 1) {nT : ℕ} (hT : pm.dimensions.nPeriods = nT + 2) {df : LongData ℝ} {ids pers : List Int} (hi : IndexOk df) (hu : NoUnusedPeriods df) (hids : IdsOf df ids) (hpers : PeriodsOf df pers)
    {pd : ProcessedData ℝ} (hdata : processData df pm.labels pm.updateInfo pm.anchoring .estimation = .ok pd) {con : Fin (nT + 2) → Fin ids.length → Fin (nCon m) → ℝ}
    {obs : Fin (nT + 2) → Fin ids.length → Fin (nObsd m) → ℝ} {data : Fin pm.updateInfo.length → Fin ids.length → Option ℝ}
    (hcon : ∀ (t : Fin (nT + 2)) (i : Fin ids.length) (j : Fin (nCon m)), ∃ w, entry3 pd.controls t i j = some w ∧ con t i j = w.getD nan)
    (hobs : ∀ (t : Fin (nT + 2)) (i : Fin ids.length) (j : Fin (nObsd m)), ∃ w, entry3 pd.observedFactors t i j = some w ∧ obs t i j = w.getD nan)
    (hmeas : ∀ (k : Fin pm.updateInfo.length) (i : Fin ids.length), entry2 (pd.measurements.getD []) k i = some (data k i))
    {i : ℕ} {cov : Covariates} {y : Nat → String → ℝ} (hil : i < ids.length) (hdesc : Describes m df ids pers i cov y) {t j : ℕ} (hj : LastMeasurement pm.updateInfo t j)
    {o : StepOut ids.length pm.dimensions.nMixtures (nLat m)}
    (ho : (outs qr (labelFixed custom m pm val ids.length nT con obs) (labelCarry m val ids.length pm.dimensions.nMixtures) (loopArgs (nT + 1) (pm.updateInfo.map (labelRow m val)) (List.ofFn data)))[j]? = some o)
    (f : Fin (nLat m)) :
    ∑ e, o.states ⟨i, hil⟩ e f * Real.exp (o.logWeights ⟨i, hil⟩ e) =
      covMean custom m pm val nT (cov.only (fun s v => s ≤ t ∧ IsMeasurement m s v)) (j + 1) (observedData (pm.updateInfo.map (fun r => (r.period, r.var))) (cov.only (fun s v => s ≤ t ∧ IsMeasurement m s v)) y) f := by
  have hk : pm.dimensions.nMixtures = k := ((hasNMixtures_of_ok hpm k).mp hm.mixture).symm
  subst hk
  obtain ⟨hsame, hdat⟩ := individual_masked hm hg hpm hT custom nan val hi hu hids hpers hdata hcon hobs hmeas hil hdesc (fun s v => s ≤ t ∧ IsMeasurement m s v)
  have hsds := rows_sd hv hpm (L := nT + 1) (data := List.ofFn data) (by simp)
  have hflag : pm.dimensions.nMixtures = 1 ∨ ∀ a ∈ loopArgs (nT + 1) (pm.updateInfo.map (labelRow m val)) (List.ofFn data), a.isMeasurement = true :=
    hanch.symm.imp id (fun h => rows_measurement h hpm (by simp))
  have hw : ∀ i : Fin ids.length, ∑ e, Real.exp ((labelCarry m val ids.length pm.dimensions.nMixtures).logWeights i e) = 1 := fun i => by
    rw [Finset.sum_congr rfl (fun e _ => weights_label hv ids.length i e)]; exact hv.sum
  set fixed := labelFixed custom m pm val ids.length nT con obs with hfixed
  have hget := fun (j : ℕ) (a) (ha : (loopArgs (nT + 1) (pm.updateInfo.map (labelRow m val)) (List.ofFn data))[j]? = some a) => rows_get val (L := nT + 1) (data := List.ofFn data) (by simp) ha
  have hlen : (loopArgs (nT + 1) (pm.updateInfo.map (labelRow m val)) (List.ofFn data)).length = pm.updateInfo.length := by rw [loopArgs_length _ _ (by simp), List.length_map]
  set args := loopArgs (nT + 1) (pm.updateInfo.map (labelRow m val)) (List.ofFn data) with hargsdef
  set cov' := (cov.only (fun s v => s ≤ t ∧ IsMeasurement m s v)) with hcov'
  obtain ⟨o', ho', hs', hw', _⟩ := outs_keep qr fixed hflag (labelCarry m val ids.length pm.dimensions.nMixtures) ho
  rw [← hs', ← hw', aggregate_eq (fixed := fixed) hqr (sigma_label hpm hkappa custom val ids.length nT con obs) (affine_label hm hpm hg custom val ids.length nT con obs) (hm.single.imp id (fun h => by simp [h])) ⟨i, hil⟩
    (fun a ha => by
      obtain ⟨a', ha', rfl⟩ := List.mem_map.mp ha
      exact hsds a' ha')
    (fun a ha => by
      obtain ⟨a', _, rfl⟩ := List.mem_map.mp ha
      rfl) hw ho']
  set kept := List.zipWith LoopArgs.keep args (pm.updateInfo.map (fun r => @decide (r.period ≤ t ∧ IsMeasurement m r.period r.var) (Classical.dec _))) with hkept
  have hkl : kept.length = pm.updateInfo.length := by rw [hkept, List.length_zipWith, hlen, List.length_map, Nat.min_self]
  obtain ⟨q, hq, hqt, hqm, _⟩ := hj
  have hper : ∀ (a : ℕ) (r : URow), pm.updateInfo[a]? = some r → a ≤ j → r.period ≤ t := by
    intro a r hr ha
    obtain ⟨_, _, hsorted, _⟩ := C01_update_info_exact hpm
    rw [List.pairwise_iff_getElem] at hsorted
    obtain ⟨h1, rfl⟩ := List.getElem?_eq_some_iff.mp hr
    obtain ⟨h2, rfl⟩ := List.getElem?_eq_some_iff.mp hq
    rcases ha.lt_or_eq with h | rfl
    · exact hqt ▸ hsorted a j h1 h2 h
    · exact hqt.le
  have htake : (args.map (fun a => a.keep a.isMeasurement)).take (j + 1) = kept.take (j + 1) := by
    refine List.ext_getElem (by rw [List.length_take, List.length_take, List.length_map, hkl, hlen]) (fun a h1 h2 => ?_)
    have ha : a < j + 1 ∧ a < pm.updateInfo.length := by rw [List.length_take, hkl] at h2; omega
    rw [List.getElem_take, List.getElem_take, List.getElem_map, List.getElem_zipWith]
    obtain ⟨r, hr, _, hr2⟩ := hget a args[a] (List.getElem?_eq_getElem (by omega))
    rw [List.getElem?_eq_getElem ha.2] at hr
    obtain rfl := Option.some.inj hr
    congr 1
    rw [hr2, List.getElem_map, decide_eq_decide, purpose_iff hpm hm.anchoring.1 (List.getElem_mem ha.2)]
    exact ⟨fun h => ⟨hper a _ (List.getElem?_eq_getElem ha.2) (by omega), h⟩, fun h => h.2⟩
  have hS : List.Forall₂ SameStep ((kept.take (j + 1)).map (stepOf fixed ⟨i, hil⟩)) ((covSteps custom m pm val nT cov').take (j + 1)) := by
    rw [List.map_take]
    exact List.forall₂_take _ hsame
  have hY : ∀ (a : ℕ) (h : a < ((kept.take (j + 1)).map (stepOf fixed ⟨i, hil⟩)).length) (h' : a < ((covSteps custom m pm val nT cov').take (j + 1)).length),
      dataOf fixed ⟨i, hil⟩ (kept.take (j + 1)) ⟨a, h⟩ = observedData (pm.updateInfo.map (fun r => (r.period, r.var))) cov' y (takePos custom m pm val nT cov' (j + 1) ⟨a, h'⟩) := by
    intro a h h'
    have ha : a < j + 1 ∧ a < kept.length := by simpa [List.length_take] using h
    have hau : a < pm.updateInfo.length := hkl ▸ ha.2
    have hget : kept[a]? = some kept[a] := List.getElem?_eq_getElem ha.2
    rw [dataOf_get fixed ⟨i, hil⟩ h (a := kept[a]) (by rw [List.getElem?_take_of_lt ha.1, hget]),
      ← dataOf_get fixed ⟨i, hil⟩ (args := kept) (by simpa using ha.2) hget, hdat a _ (by simpa using hau)]
    rfl
  rw [htake]
  unfold covMean covWeight
  have e1 : ∀ e, kalmanDensity ((kept.take (j + 1)).map (stepOf fixed ⟨i, hil⟩)) ((labelCarry m val ids.length pm.dimensions.nMixtures).states ⟨i, hil⟩ e)
      (((labelCarry m val ids.length pm.dimensions.nMixtures).upperChols ⟨i, hil⟩ e)ᵀ * (labelCarry m val ids.length pm.dimensions.nMixtures).upperChols ⟨i, hil⟩ e) (dataOf fixed ⟨i, hil⟩ (kept.take (j + 1))) =
      kalmanDensity ((covSteps custom m pm val nT cov').take (j + 1)) ((labelCarry m val 1 pm.dimensions.nMixtures).states 0 e)
        (((labelCarry m val 1 pm.dimensions.nMixtures).upperChols 0 e)ᵀ * (labelCarry m val 1 pm.dimensions.nMixtures).upperChols 0 e)
        (fun a => observedData (pm.updateInfo.map (fun r => (r.period, r.var))) cov' y (takePos custom m pm val nT cov' (j + 1) a)) := fun e => kalmanDensity_congr hS _ _ hY
  have e2 : ∀ e, filterMean ((kept.take (j + 1)).map (stepOf fixed ⟨i, hil⟩)) ((labelCarry m val ids.length pm.dimensions.nMixtures).states ⟨i, hil⟩ e)
      (((labelCarry m val ids.length pm.dimensions.nMixtures).upperChols ⟨i, hil⟩ e)ᵀ * (labelCarry m val ids.length pm.dimensions.nMixtures).upperChols ⟨i, hil⟩ e) (dataOf fixed ⟨i, hil⟩ (kept.take (j + 1))) =
      filterMean ((covSteps custom m pm val nT cov').take (j + 1)) ((labelCarry m val 1 pm.dimensions.nMixtures).states 0 e)
        (((labelCarry m val 1 pm.dimensions.nMixtures).upperChols 0 e)ᵀ * (labelCarry m val 1 pm.dimensions.nMixtures).upperChols 0 e)
        (fun a => observedData (pm.updateInfo.map (fun r => (r.period, r.var))) cov' y (takePos custom m pm val nT cov' (j + 1) a)) := fun e => filterMean_congr hS _ _ hY
  simp only [e1, e2, weights_label hv]

end

theorem latentStates_only (m : ModelDict ℝ) (val : Loc → ℝ) (cov : Covariates) (p : Nat → String → Prop) (e : ℕ) (z : Noise → ℝ) (t : ℕ) (f : String) :
    latentStates m val (cov.only p) e z t f = latentStates m val cov e z t f := by
  induction t generalizing f with
  | zero => rfl
  | succ t ih =>
    simp only [latentStates]
    rw [show latentStates m val (cov.only p) e z t = latentStates m val cov e z t from funext ih]
    rfl

theorem measurementValue_only (m : ModelDict ℝ) (val : Loc → ℝ) (cov : Covariates) (p : Nat → String → Prop) (e : ℕ) (z : Noise → ℝ) : measurementValue m val (cov.only p) e z = measurementValue m val cov e z := by
  funext t v
  unfold measurementValue
  simp only [latentStates_only]
  rfl

/-- The position of the last measurement of a period. -/
theorem lastMeasurement_exists {m : ModelDict ℝ} {pm : Processed ℝ} (hpm : processModel m = .ok pm) {k : ℕ} (hm : LinearModel m k) {t : ℕ} (ht : IsPeriod m t) : ∃ j, LastMeasurement pm.updateInfo t j := by
  obtain ⟨_, _, _, h, _⟩ := C51_filtered_states_partial (nObs := 0) (nMix := 0) (n := 0) hpm (fun t ht => by
    obtain ⟨v, f, h⟩ := hm.measured t ht
    exact ⟨v, f, h, fun ⟨g, hg⟩ => hm.anchoring.1.notMeasured v g t f hg h⟩) (outs := List.replicate pm.updateInfo.length ⟨fun i => i.elim0, fun i => i.elim0, fun i => i.elim0, fun i => i.elim0, fun i => i.elim0⟩) (by simp)
  exact h t ht

/-- **C85**: consider a model with linear and constant transitions that has one mixture element or no anchoring. The filtered states returned by get_filtered_states are conditional expectations: there is one
function `mean` of the covariates of an individual, of a period, of the measurements of the individual and of the name of a factor such that

* `mean` is continuous in the measurements;
* for each random experiment with the noise of the model, `mean`, evaluated at the measurements that are observed up to period t, is the conditional expectation of the latent factor in period t
  given these measurements (`data`; anchoring outcomes, measurements of later periods and missing measurements are constants there);
* the DataFrames of states have one row for each period and individual. The row of individual i in period t contains `mean` at the measurements of that individual up to period t in the DataFrame of unanchored states,
  and the same number in the units of the anchoring outcome in the DataFrame of anchored states. -/
theorem C85_filtered_states {qr : QR} (hqr : ValidQR qr) {m : ModelDict ℝ} {pm : Processed ℝ} (hpm : processModel m = .ok pm) {k : ℕ} (hm : LinearModel m k) (hanch : m.anchoring = none ∨ k = 1) (hg : GoodNames m)
    (hnames : ∀ f, IsLatent m f → f ≠ "period" ∧ f ≠ "id") (hkappa : ∀ o x, m.estimationOptions = some o → o.sigmaPointsScale = some x → 0 ≤ x) {val : Loc → ℝ} (hv : ProperValues m k val)
    (custom : String → CustomFn) (nan : ℝ) :
    ∃ updates, Enumerates m updates ∧ ∃ mean : Covariates → Nat → (Fin updates.length → ℝ) → String → ℝ, (∀ cov t f, IsPeriod m t → Continuous (fun y => mean cov t y f)) ∧
      (∀ (cov : Covariates) (t : Nat) (f : String), IsPeriod m t → IsLatent m f →
        ∀ {Ω : Type} [MeasurableSpace Ω] (P : Measure Ω) [IsProbabilityMeasure P] (E : Ω → Fin k) (Z : Noise → Ω → ℝ), RandomNoise P val E Z →
          let data := fun ω => observedData updates (cov.only (fun s v => s ≤ t ∧ IsMeasurement m s v)) (measurementValue m val cov (E ω) (fun a => Z a ω))
          let factor := fun ω => latentStates m val cov (E ω) (fun a => Z a ω) t f
          Integrable factor P ∧ Measurable data ∧ P[factor | MeasurableSpace.comap data inferInstance] =ᵐ[P] fun ω => mean cov t (data ω) f) ∧
      ∀ (df : LongData ℝ) (ids pers : List Int) (params : List (Loc × ℝ)) (out : FilteredStates), IndexOk df → NoUnusedPeriods df → IdsOf df ids → PeriodsOf df pers →
        (params.map Prod.fst).Nodup → (∀ l x, (l, x) ∈ params → x = val l) → getFilteredStates qr custom nan m df params = .ok out →
        (∀ N, IsNPeriods m N → out.unanchored.states.rows.length = N * ids.length ∧ out.anchored.states.rows.length = N * ids.length) ∧
        ∀ (t i : Nat) (cov : Covariates) (y : Nat → String → ℝ), IsPeriod m t → i < ids.length → Describes m df ids pers i cov y →
          let data := observedData updates (cov.only (fun s v => s ≤ t ∧ IsMeasurement m s v)) y
          (∃ cells, out.unanchored.states.rows[t * ids.length + i]? = some (t, cells) ∧ cells "period" = t ∧ cells "id" = i ∧ ∀ f, IsLatent m f → cells f = mean cov t data f) ∧
          ∃ cells, out.anchored.states.rows[t * ids.length + i]? = some (t, cells) ∧ cells "period" = t ∧ cells "id" = i ∧ ∀ f, IsLatent m f → cells f = anchoredValue m val t f (mean cov t data f) := by
  classical
  obtain ⟨nT, hT⟩ : ∃ nT, pm.dimensions.nPeriods = nT + 2 := ⟨pm.dimensions.nPeriods - 2, by have := (isPeriod_iff hpm 1).mp hm.periods; omega⟩
  obtain ⟨hu1, hu2, _⟩ := C01_update_info_exact hpm
  have hlast : ∀ t, IsPeriod m t → ∃ j, LastMeasurement pm.updateInfo t j := fun t ht => lastMeasurement_exists hpm hm ht
  choose! pos hpos using hlast
  have hlat : ∀ f, IsLatent m f → ∃ a : Fin (nLat m), latName m a = f ∧ (m.factors.map Prod.fst).idxOf f = a := by
    rintro f ⟨spec, hf⟩
    have hmem : f ∈ m.factors.map Prod.fst := List.mem_map.mpr ⟨_, hf, rfl⟩
    have hlt := List.idxOf_lt_length_of_mem hmem
    refine ⟨⟨(m.factors.map Prod.fst).idxOf f, by simpa using hlt⟩, ?_, rfl⟩
    have h1 := latName_get (m := m) ⟨(m.factors.map Prod.fst).idxOf f, by simpa using hlt⟩
    rw [List.getElem?_eq_getElem hlt, List.getElem_idxOf] at h1
    exact (Option.some.inj h1).symm
  have later : ∀ t, IsPeriod m t → ∀ (cov : Covariates) (a : ℕ) (r : URow), pm.updateInfo[a]? = some r → pos t < a → (cov.only (fun s v => s ≤ t ∧ IsMeasurement m s v)).isObserved r.period r.var = false := by
    intro t ht cov a r hr ha
    obtain ⟨q, hq, hqt, hqm, hqlast⟩ := hpos t ht
    have hp : ¬(r.period ≤ t ∧ IsMeasurement m r.period r.var) := by
      rintro ⟨h1, h2⟩
      obtain ⟨_, _, hsorted, _⟩ := C01_update_info_exact hpm
      rw [List.pairwise_iff_getElem] at hsorted
      obtain ⟨ha', rfl⟩ := List.getElem?_eq_some_iff.mp hr
      obtain ⟨hq', rfl⟩ := List.getElem?_eq_some_iff.mp hq
      have := hqlast a _ hr (le_antisymm h1 (hqt ▸ hsorted (pos t) a hq' ha' ha)) ((purpose_iff hpm hm.anchoring.1 (List.getElem_mem ha')).mpr h2)
      omega
    show (@decide _ (Classical.dec _) && _) = false
    rw [@decide_eq_false _ (Classical.dec _) hp, Bool.false_and]
  have hgetD : ∀ (x : Fin (nLat m) → ℝ) (a : Fin (nLat m)), (List.ofFn x).getD a.val 0 = x a := fun x a => by
    rw [List.getD_eq_getElem?_getD, List.getElem?_ofFn, dif_pos a.isLt, Option.getD_some]
  refine ⟨pm.updateInfo.map (fun r => (r.period, r.var)), ⟨hu1, fun t v => by rw [← hu2]; simp [List.mem_map]⟩,
    fun cov t y f => (List.ofFn (covMean custom m pm val nT (cov.only (fun s v => s ≤ t ∧ IsMeasurement m s v)) (pos t + 1) y)).getD ((m.factors.map Prod.fst).idxOf f) 0, ?_, ?_, ?_⟩
  · intro cov t f _
    by_cases hf : (m.factors.map Prod.fst).idxOf f < nLat m
    · have : ∀ y, (List.ofFn (covMean custom m pm val nT (cov.only (fun s v => s ≤ t ∧ IsMeasurement m s v)) (pos t + 1) y)).getD ((m.factors.map Prod.fst).idxOf f) 0 = covMean custom m pm val nT (cov.only (fun s v => s ≤ t ∧ IsMeasurement m s v)) (pos t + 1) y ⟨_, hf⟩ := fun y => hgetD _ ⟨_, hf⟩
      simp only [this]
      exact (continuous_apply _).comp (continuous_covMean hm hg hv hpm custom _ (pos t + 1))
    · have : ∀ y, (List.ofFn (covMean custom m pm val nT (cov.only (fun s v => s ≤ t ∧ IsMeasurement m s v)) (pos t + 1) y)).getD ((m.factors.map Prod.fst).idxOf f) 0 = 0 := fun y => by
        rw [List.getD_eq_getElem?_getD, List.getElem?_ofFn, dif_neg hf, Option.getD_none]
      simp only [this]
      exact continuous_const
  · intro cov t f ht hf Ω _ P _ E Z hZ
    obtain ⟨a, rfl, ha⟩ := hlat f hf
    obtain ⟨h1, h2, h3⟩ := label_condExp hm hg hv hpm custom (cov.only (fun s v => s ≤ t ∧ IsMeasurement m s v)) hT (t := t) (j := pos t) ((hpos t ht).imp (fun r h => ⟨h.1, h.2.1⟩)) (later t ht cov) hZ a
    simp only [latentStates_only, measurementValue_only] at h1 h2 h3
    refine ⟨h1, h2, ?_⟩
    simp only [ha, hgetD]
    exact h3
  intro df ids pers params out hi hu hids hpers hn hval hout
  unfold getFilteredStates at hout
  simp only [py_bind_ok, py_pure_ok] at hout
  obtain ⟨inputs, hin, params', hloc, debug, hdebug, pm', hpm', anchored, hanchored, rfl⟩ := hout
  obtain rfl := Except.ok.inj (hpm.symm.trans hpm')
  obtain ⟨hl1, hl2⟩ := locParams_ok hn hloc
  have hin' := hin
  unfold getMaximizationInputs at hin'
  simp only [py_bind_ok, py_pure_ok] at hin'
  obtain ⟨pm', hpm', info, hinfo, dat, hdat, cs, hcs, hinp⟩ := hin'
  obtain rfl := Except.ok.inj (hpm.symm.trans hpm')
  have htemplate : params'.map Prod.fst = pm.paramsIndex := by
    rw [hl1, ← hinp]
    simp [Processed.paramsTemplate, addBounds, Function.comp_def]
  have hn' : (params'.map Prod.fst).Nodup := by
    rw [htemplate]
    exact C06_index_unique_partial hpm hg
  have hval' : ∀ l x, (l, x) ∈ params' → x = val l := fun l x h => hval l x (hl2 _ h)
  have hObs := length_controls hpm hm hg hi hu hids hpers hin
  obtain ⟨pm', nT', con, obs, data, r, hpm', hT', hdata, hcon, hobs, hmeas, hr, hpost⟩ := evaluate_explicit hg hm.anchoring.1 hm.anchoring.2.1 hin hn' hval' hdebug hObs
  obtain rfl := Except.ok.inj (hpm.symm.trans hpm')
  obtain rfl : nT = nT' := by omega
  rw [← hinp] at hpost
  dsimp only at hpost
  obtain ⟨rows, hrows, hframe, hrange⟩ := processDebugData_ok hpost
  obtain ⟨ho, _⟩ := logLikelihood_ok hr
  have hlenargs : r.outs.length = pm.updateInfo.length := by rw [ho, outs_length, loopArgs_length _ _ (by simp), List.length_map]
  obtain ⟨rows', hrows', hlen, _, hcell⟩ := C51_filtered_states_partial hpm (fun t ht => by
    obtain ⟨v, f, h⟩ := hm.measured t ht
    exact ⟨v, f, h, fun ⟨g, hg⟩ => hm.anchoring.1.notMeasured v g t f hg h⟩) hlenargs
  obtain rfl := Except.ok.inj (hrows.symm.trans hrows')
  have hN : ∀ N, IsNPeriods m N → N = pm.dimensions.nPeriods := fun N h => IsNPeriods.unique h (isNPeriods_of_ok hpm)
  have hlabels : pm.labels.latentFactors = m.factors.map Prod.fst := (labels_of_ok hpm).1
  -- the states that are not anchored
  have main : ∀ (t i : Nat) (cov : Covariates) (y : Nat → String → ℝ), IsPeriod m t → i < ids.length → Describes m df ids pers i cov y →
      ∃ cells, debug.filteredStates.rows[t * ids.length + i]? = some (t, cells) ∧ cells "period" = t ∧ cells "id" = i ∧
        ∀ f, IsLatent m f → cells f = (List.ofFn (covMean custom m pm val nT (cov.only (fun s v => s ≤ t ∧ IsMeasurement m s v)) (pos t + 1) (observedData (pm.updateInfo.map (fun r => (r.period, r.var))) (cov.only (fun s v => s ≤ t ∧ IsMeasurement m s v)) y))).getD ((m.factors.map Prod.fst).idxOf f) 0 := by
    intro t i cov y ht hil hdesc
    have hj := hpos t ht
    have hlt : pos t < r.outs.length := by
      obtain ⟨u, hu, _⟩ := hj
      rw [hlenargs]
      exact (List.getElem?_eq_some_iff.mp hu).1
    have hget := List.getElem?_eq_getElem hlt
    obtain ⟨cells, hc1, hc2, hc3, hc4⟩ := filteredFrame_row (factors := pm.labels.latentFactors) (hcell t (pos t) _ ⟨i, hil⟩ hj hget)
    refine ⟨cells, by rw [hframe]; exact hc1, hc2, hc3, fun f hf => ?_⟩
    obtain ⟨a, rfl, ha⟩ := hlat f hf
    rw [hc4 _ (hnames _ hf).1 (hnames _ hf).2, hlabels, ha, hgetD, hgetD]
    exact filtered_label hqr hpm hm hg hkappa hv custom nan hanch hT hi hu hids hpers hdata hcon hobs hmeas hil hdesc hj (by rw [← ho]; exact hget) a
  obtain ⟨values, p, hvl, hvg, hparse, hcols, hrl, hrow⟩ := C54_affine hpm hg.keys hanchored
  have hvalues : values = pm.paramsIndex.map val := by
    refine List.ext_getElem (by simp [hvl]) (fun a h1 h2 => ?_)
    have ha : a < pm.paramsIndex.length := by simpa using h2
    have := hvg a _ (List.getElem?_eq_getElem ha)
    rw [List.getElem?_eq_getElem h1] at this
    rw [List.getElem_map]
    exact hval' _ _ (lookup_mem this.symm)
  refine ⟨fun N h => ?_, fun t i cov y ht hil hdesc => ⟨main t i cov y ht hil hdesc, ?_⟩⟩
  · dsimp only
    rw [hrl, hframe, filteredFrame, List.length_map, hlen, hN N h]
    exact ⟨rfl, rfl⟩
  obtain ⟨cells, hc1, hc2, hc3, hc4⟩ := main t i cov y ht hil hdesc
  obtain ⟨cells', hd1, hd2, hd3⟩ := hrow _ t cells hc1
  refine ⟨cells', hd1, ?_, ?_, fun f hf => ?_⟩
  · rw [hd2 _ (fun h => (hnames _ h).1 rfl), hc2]
  · rw [hd2 _ (fun h => (hnames _ h).2 rfl), hc3]
  · refine Eq.trans ?_ (congrArg (anchoredValue m val t f) (hc4 f hf))
    obtain ⟨a, rfl, ha⟩ := hlat f hf
    obtain ⟨s, c, hs, hc, he⟩ := hd3 a _ (latName_get a)
    obtain ⟨hA, hB, hC⟩ := C08_anchoring_params_partial hpm hg hm.anchoring.1 hm.anchoring.2.1 hvalues hparse t a (latName m a) ht (by
      unfold allFactors
      rw [List.getElem?_append_left (by simp), latName_get])
    have hsc : s = anchorScale m val t (latName m a) ∧ c = anchorConstant m val t (latName m a) := by
      by_cases hanc : ∃ o, AnchoredIn m (latName m a) o
      · obtain ⟨o, hao⟩ := hanc
        obtain ⟨h1, h2⟩ := hA o hao
        obtain ⟨a1, a2, a3⟩ := anchor_some hg.keys hao val t
        rw [h1] at hs
        refine ⟨(Option.some.inj hs).symm.trans a1.symm, ?_⟩
        by_cases hig : AnchorFlag m AnchoringSpec.ignoreConstant
        · rw [hC hig] at hc
          exact (Option.some.inj hc).symm.trans (a2 hig).symm
        · rw [h2 hig] at hc
          exact (Option.some.inj hc).symm.trans (a3 hig).symm
      · obtain ⟨h1, h2⟩ := hB hanc
        obtain ⟨a1, a2⟩ := anchor_none hg.keys (fun o h => hanc ⟨o, h⟩) val t
        rw [h1] at hs
        rw [h2] at hc
        exact ⟨(Option.some.inj hs).symm.trans a1.symm, (Option.some.inj hc).symm.trans a2.symm⟩
    rw [he, hsc.1, hsc.2, anchoredValue]
    ring

/-! ### C86 -/

theorem createStateRanges_spec (frame : StatesFrame ℝ) (factors : List String) : RangesOf factors frame.rows (createStateRanges frame factors) := by
  have key : ∀ f range, (f, range) ∈ createStateRanges frame factors → range = createStateRange (frame.rows.map (fun r => (r.1, r.2 f))) := by
    intro f range h
    unfold createStateRanges at h
    obtain ⟨f', _, he⟩ := List.mem_map.mp h
    obtain ⟨rfl, rfl⟩ := Prod.mk.inj he
    rfl
  have hmem : ∀ (f : String) (t : ℕ) (x : ℝ), (t, x) ∈ frame.rows.map (fun r => (r.1, r.2 f)) ↔ ∃ cells, (t, cells) ∈ frame.rows ∧ cells f = x := by
    intro f t x
    rw [List.mem_map]
    constructor
    · rintro ⟨⟨t', cells⟩, h, he⟩
      obtain ⟨rfl, rfl⟩ := Prod.mk.inj he
      exact ⟨cells, h, rfl⟩
    · rintro ⟨cells, h, rfl⟩
      exact ⟨(t, cells), h, rfl⟩
  refine ⟨by simp [createStateRanges, Function.comp_def], fun f range h => ?_, fun f range h t => ?_, fun f range t lo hi cells h hr hc => ?_, fun f range t lo hi h hr => ?_⟩
  · rw [key f range h]
    exact (C53_state_ranges _).1
  · rw [key f range h, (C53_state_ranges _).2.1 t]
    constructor
    · rintro ⟨x, hx⟩
      obtain ⟨cells, hc, _⟩ := (hmem f t x).mp hx
      exact ⟨cells, hc⟩
    · rintro ⟨cells, hc⟩
      exact ⟨cells f, (hmem f t _).mpr ⟨cells, hc, rfl⟩⟩
  · rw [key f range h] at hr
    exact ((C53_state_ranges _).2.2 t lo hi hr).1 _ ((hmem f t _).mpr ⟨cells, hc, rfl⟩)
  · rw [key f range h] at hr
    obtain ⟨_, h1, h2⟩ := (C53_state_ranges _).2.2 t lo hi hr
    exact ⟨(hmem f t lo).mp h1, (hmem f t hi).mp h2⟩

theorem processDebugData_succeeds {u : List URow} (hu : u ≠ []) (factors : List String) {nObs nMix n : ℕ} {r : LoglikeResult nObs nMix n} (hlen : r.outs.length = u.length)
    (hc : r.allContributions.length = u.length) {rows : List (FilteredRow n)} (h : createFilteredStates r.outs u = .ok rows) :
    ∃ d, processDebugData u factors nObs nMix n r = .ok d ∧ d.filteredStates = filteredFrame factors rows ∧ d.stateRanges = createStateRanges (filteredFrame factors rows) factors := by
  have hzip : ∀ {γ δ : Type} (f : URow × γ → δ) (xs : List γ), xs.length = u.length → (u.zip xs).map f ≠ [] := by
    intro γ δ f xs hxs h0
    have := congrArg List.length h0
    rw [List.length_map, List.length_zip, hxs, Nat.min_self] at this
    exact hu (List.length_eq_zero_iff.mp this)
  have hne : ∀ {γ : Type} (xs : List γ), xs.length = u.length → xs ≠ [] := by
    rintro γ xs hxs rfl
    exact hu (List.length_eq_zero_iff.mp hxs.symm)
  unfold processDebugData createPostUpdateStates processResiduals processAllContributions
  simp only [if_neg (hzip _ (r.outs.map (fun o => o.states)) (by simp [hlen])), if_neg (hzip _ (r.outs.map (fun o => o.residuals)) (by simp [hlen])),
    if_neg (hzip _ (r.outs.map (fun o => o.residualSds)) (by simp [hlen])), if_neg (hzip _ r.allContributions hc), h, if_neg (hne (r.outs.map (fun o => o.residuals)) (by simp [hlen])),
    if_neg (hne (r.outs.map (fun o => o.residualSds)) (by simp [hlen]))]
  exact ⟨_, rfl, rfl, rfl⟩

/-- `params.loc[labels]` succeeds if every label is in the DataFrame. -/
theorem locParams_succeeds {β : Type} {params : List (Loc × β)} {labels : List Loc} (h : ∀ l ∈ labels, l ∈ params.map Prod.fst) : ∃ out, locParams params labels = .ok out := by
  unfold locParams
  refine mapM_exists (fun l hl => ?_)
  cases hx : params.lookup l with
  | some x => exact ⟨_, rfl⟩
  | none =>
    obtain ⟨⟨l', x⟩, hm, rfl⟩ := List.mem_map.mp (h l hl)
    exact absurd (List.lookup_eq_none_iff.mp hx _ hm) (by simp)

/-- **C86**: get_filtered_states succeeds if the model and the data are as in C70, each period has a measurement that is not an anchoring outcome, and the DataFrame of parameters has
a row for each parameter (it may have more rows). Both DataFrames of states have a column for each latent factor and the columns period and id, and one row for each period and individual. The
anchored states are the unanchored ones, times the loading of the anchoring outcome, plus its constant (unless constants are ignored). The ranges are those of the respective states. -/
theorem C86_get_filtered_states (qr : QR) {m : ModelDict ℝ} {pm : Processed ℝ} (hpm : processModel m = .ok pm) (hg : GoodNames m) (hc : CleanAnchoring m) (ho : SameOrder m) (hclash : NoNameClash m)
    (hq : ∀ f, IsLatent m f → querySafe f) (hnames : ∀ f, IsLatent m f → f ≠ "period" ∧ f ≠ "id") (hper : IsPeriod m 1) (hmeas : ∀ t, IsPeriod m t → ∃ v f, Measures m t v f ∧ ¬ ∃ g, Anchors m v g)
    {k : ℕ} (hmix : HasNMixtures m k) (hk : k = 1 ∨ k ≠ 0 ∧ m.observedFactors.getD [] = [])
    {df : LongData ℝ} (hi : IndexOk df) (hu : NoUnusedPeriods df) {ids pers : List Int} (hids : IdsOf df ids) (hpers : PeriodsOf df pers) (hdata : DataOk m df ids pers)
    (custom : String → CustomFn) (nan : ℝ) {params : List (Loc × ℝ)} {val : Loc → ℝ} (hn : (params.map Prod.fst).Nodup) (hlab : ∀ l, IsParam m l → l ∈ params.map Prod.fst) (hval : ∀ l x, (l, x) ∈ params → x = val l)
    (husable : ∀ fs ∈ m.factors, TransFn.Usable (allFactors m) (fun name => val ⟨.transition, 0, fs.1, name⟩) (transFnOf (custom fs.1) fs.2.transition)) :
    ∃ out, getFilteredStates qr custom nan m df params = .ok out ∧
      out.unanchored.states.columns = latents m ++ ["period", "id"] ∧ out.anchored.states.columns = latents m ++ ["period", "id"] ∧
      (∀ N, IsNPeriods m N → out.unanchored.states.rows.length = N * ids.length ∧ out.anchored.states.rows.length = N * ids.length) ∧
      (∀ t i, IsPeriod m t → i < ids.length → ∃ cells cells', out.unanchored.states.rows[t * ids.length + i]? = some (t, cells) ∧ out.anchored.states.rows[t * ids.length + i]? = some (t, cells') ∧
        cells "period" = t ∧ cells' "period" = t ∧ cells "id" = i ∧ cells' "id" = i ∧
        (∀ f, IsLatent m f → ¬ (∃ o, AnchoredIn m f o) → cells' f = cells f) ∧
        (∀ f o, AnchoredIn m f o → ¬ AnchorFlag m AnchoringSpec.ignoreConstant →
          cells' f = val ⟨.controls, t, o ++ "_" ++ f, "constant"⟩ + cells f * val ⟨.loadings, t, o ++ "_" ++ f, f⟩) ∧
        (∀ f o, AnchoredIn m f o → AnchorFlag m AnchoringSpec.ignoreConstant → cells' f = cells f * val ⟨.loadings, t, o ++ "_" ++ f, f⟩)) ∧
      RangesOf (latents m) out.unanchored.states.rows out.unanchored.stateRanges ∧ RangesOf (latents m) out.anchored.states.rows out.anchored.stateRanges := by
  obtain ⟨inputs, hin, hmodel, hindex, htemplate, hev⟩ := evaluate_succeeds qr hpm hg hc ho hclash hq hper hmix hk hi hu hids hpers hdata
  have hlabels : pm.labels.latentFactors = latents m := (labels_of_ok hpm).1
  have htl : inputs.template.map Prod.fst = pm.paramsIndex := by
    rw [htemplate]
    simp [Processed.paramsTemplate, addBounds, Function.comp_def]
  obtain ⟨params', hloc⟩ := locParams_succeeds (params := params) (labels := inputs.template.map Prod.fst) (fun l hl => hlab l ((mem_paramsIndex_iff hpm l).mp (htl ▸ hl)))
  obtain ⟨hl1, hl2⟩ := locParams_ok hn hloc
  rw [htl] at hl1
  have hn' : (params'.map Prod.fst).Nodup := by
    rw [hl1]
    exact C06_index_unique_partial hpm hg
  have hval' : ∀ l x, (l, x) ∈ params' → x = val l := fun l x h => hval l x (hl2 _ h)
  obtain ⟨r, nT, fixed, carry, args, hargs, hr, hpost⟩ := hev custom nan params' val hn' (fun l => by rw [hl1, hindex]) hval' husable
  obtain ⟨h1, h2, _⟩ := logLikelihood_ok hr
  have hlen : r.outs.length = pm.updateInfo.length := by rw [h1, outs_length, hargs]
  obtain ⟨rows, hrows, hrl, hlast, hcell⟩ := C51_filtered_states_partial hpm hmeas hlen
  have hne : pm.updateInfo ≠ [] := by
    obtain ⟨j, u, hu, _⟩ := hlast 1 hper
    rintro h0
    rw [h0] at hu
    cases hu
  obtain ⟨d, hd, hframe, hranges⟩ := processDebugData_succeeds hne pm.labels.latentFactors hlen (by rw [h2, List.length_map, hlen]) hrows
  have hmix0 : ¬HasNMixtures m 0 := fun h0 => by
    have e1 := (hasNMixtures_of_ok hpm 0).mp h0
    have e2 := (hasNMixtures_of_ok hpm k).mp hmix
    rcases hk with h | h <;> omega
  have hlookup : ∀ l, IsParam m l → params'.lookup l = some (val l) := by
    intro l hl
    have : l ∈ params'.map Prod.fst := by
      rw [hl1]
      exact (mem_paramsIndex_iff hpm l).mpr hl
    obtain ⟨⟨l', x⟩, hx, rfl⟩ := List.mem_map.mp this
    rw [← hval' _ _ hx]
    exact lookup_of_mem hn' hx
  have hlt : ∀ rw ∈ rows, rw.period < pm.dimensions.nPeriods := by
    intro w hw
    obtain ⟨a, ha, rfl⟩ := List.getElem_of_mem hw
    have hpos : 0 < ids.length := Nat.pos_of_ne_zero (fun h0 => by rw [hrl, h0] at ha; omega)
    have hti : a / ids.length < pm.dimensions.nPeriods := Nat.div_lt_of_lt_mul (by rw [Nat.mul_comm, ← hrl]; exact ha)
    obtain ⟨j, hj⟩ := hlast _ ((isPeriod_iff hpm _).mpr hti)
    have hjl : j < r.outs.length := by
      obtain ⟨u, hu, _⟩ := hj
      rw [hlen]
      exact (List.getElem?_eq_some_iff.mp hu).1
    have := hcell _ j _ ⟨a % ids.length, Nat.mod_lt _ hpos⟩ hj (List.getElem?_eq_getElem hjl)
    dsimp only at this
    rw [Nat.div_add_mod', List.getElem?_eq_getElem ha] at this
    rw [Option.some.inj this]
    exact hti
  obtain ⟨anchored, hanch, hac, har, harow⟩ := C54_anchored_states hpm hg hc ho hq hper hmix0 Real.log (df := d.filteredStates) hlookup
    (fun f hf => by
      rw [hframe]
      obtain ⟨spec, hf⟩ := hf
      exact List.mem_append_left _ (hlabels ▸ List.mem_map.mpr ⟨_, hf, rfl⟩))
    (fun w hw => by
      rw [hframe] at hw
      obtain ⟨w', hw', rfl⟩ := List.mem_map.mp hw
      exact (isPeriod_iff hpm _).mpr (hlt w' hw'))
  refine ⟨_, by
    unfold getFilteredStates
    simp only [py_bind_ok, py_pure_ok]
    refine ⟨inputs, hin, params', hloc, d, ?_, pm, hpm, anchored, hanch, rfl⟩
    unfold MaximizationInputs.debugLoglike
    rw [hpost, hmodel]
    exact hd, ?_, ?_, ?_, ?_, ?_, ?_⟩
  · dsimp only
    rw [hframe, ← hlabels]
    rfl
  · dsimp only
    rw [hac, hframe, ← hlabels]
    rfl
  · intro N h
    dsimp only
    rw [har, hframe, filteredFrame, List.length_map, hrl, IsNPeriods.unique h (isNPeriods_of_ok hpm)]
    exact ⟨rfl, rfl⟩
  · intro t i ht hil
    obtain ⟨j, hj⟩ := hlast t ht
    have hjl : j < r.outs.length := by
      obtain ⟨u, hu, _⟩ := hj
      rw [hlen]
      exact (List.getElem?_eq_some_iff.mp hu).1
    obtain ⟨cells, hc1, hc2, hc3, hc4⟩ := filteredFrame_row (factors := pm.labels.latentFactors) (hcell t j _ ⟨i, hil⟩ hj (List.getElem?_eq_getElem hjl))
    rw [← hframe] at hc1
    obtain ⟨cells', hd1, hd2, hd3, hd4⟩ := harow _ t cells hc1
    have hnot : ∀ c, (c = "period" ∨ c = "id") → ¬∃ o, AnchoredIn m c o := by
      rintro c hcc ⟨o, hco⟩
      have := hnames c (hc.latent c o hco)
      tauto
    refine ⟨cells, cells', hc1, hd1, hc2, ?_, hc3, ?_, fun f _ hf => hd2 f hf, hd3, hd4⟩
    · rw [hd2 _ (hnot _ (Or.inl rfl)), hc2]
    · rw [hd2 _ (hnot _ (Or.inr rfl)), hc3]
  · dsimp only
    rw [hranges, hframe, ← hlabels]
    exact createStateRanges_spec _ _
  · dsimp only
    rw [← hlabels]
    exact createStateRanges_spec _ _

end Skill
