import Verif.Lemmas.ElementNoise
import Verif.Spec.Contributions
import Verif.Props.FilteredStates
import Verif.Props.Contributions
/-
C127: the entries of post_update_states are conditional expectations.
-/
namespace Skill
open MeasureTheory ProbabilityTheory Matrix Spec

theorem processDebugData_postUpdate {nObs nMix n : ℕ} {factors : List String} {r : LoglikeResult nObs nMix n} {u : List URow} {out : DebugData} (h : processDebugData u factors nObs nMix n r = .ok out) :
    ∃ post, createPostUpdateStates (r.outs.map (fun o => o.states)) u = .ok post ∧
      out.postUpdateStates = post.map (fun d => { value := List.ofFn d.value, mixture := d.mixture, period := d.period, id := d.id, measurement := d.measurement }) := by
  unfold processDebugData at h
  simp only [py_bind_ok, py_pure_ok] at h
  obtain ⟨post, hp, _, _, _, _, _, _, c, hc, rfl⟩ := h
  exact ⟨post, hp, rfl⟩

/-- The mean of a factor in a mixture element, given the data up to an update. -/
noncomputable def elementMean (custom : String → CustomFn) (m : ModelDict ℝ) (pm : Processed ℝ) (val : Loc → ℝ) (nT : ℕ) (cov : Covariates) (e : Fin pm.dimensions.nMixtures) (k : ℕ)
    (y : Fin (pm.updateInfo.map (fun r => (r.period, r.var))).length → ℝ) : Fin (nLat m) → ℝ :=
  filterMean ((covSteps custom m pm val nT cov).take k) ((labelCarry m val 1 pm.dimensions.nMixtures).states 0 e)
    (((labelCarry m val 1 pm.dimensions.nMixtures).upperChols 0 e)ᵀ * (labelCarry m val 1 pm.dimensions.nMixtures).upperChols 0 e) (fun j => y (takePos custom m pm val nT cov k j))

section
variable {m : ModelDict ℝ} {pm : Processed ℝ} (hpm : processModel m = .ok pm) {k : ℕ} (hm : LinearModel m k) (hg : GoodNames m) {val : Loc → ℝ} (hv : ProperValues m k val) (custom : String → CustomFn)
include hpm hm hg hv

theorem continuous_elementMean {nT : ℕ} (cov : Covariates) (e : Fin pm.dimensions.nMixtures) (j : ℕ) : Continuous (elementMean custom m pm val nT cov e j) :=
  (continuous_filterMean (fun s hs => covSteps_affine hm hg hpm custom cov s (List.mem_of_mem_take hs)) _).comp
    (continuous_const.prodMk (continuous_pi (fun a => continuous_apply (takePos custom m pm val nT cov j a))))

theorem weightsMean_element {nT : ℕ} (cov : Covariates) (e : Fin pm.dimensions.nMixtures) (j : ℕ) (y) (f : Fin (nLat m)) :
    weightsMean custom m pm val nT cov (fun e' => elementVal e ⟨.mixtureWeights, 0, Spec.mixtureName e', "-"⟩) j y f = elementMean custom m pm val nT cov e j y f := by
  unfold weightsMean elementMean
  have h : ∀ F : Fin pm.dimensions.nMixtures → ℝ, ∑ e' : Fin pm.dimensions.nMixtures, elementVal e ⟨.mixtureWeights, 0, Spec.mixtureName e', "-"⟩ * F e' = F e := by
    intro F
    rw [Finset.sum_eq_single e]
    · rw [elementVal_weights, if_pos rfl, one_mul]
    · intro e' _ he
      rw [elementVal_weights, if_neg (fun h => he (Fin.ext h)), zero_mul]
    · simp
  simp only [mul_assoc, h]
  refine mul_div_cancel_left₀ _ (ne_of_gt ?_)
  exact kalmanDensity_pos (fun s hs => covSteps_sd hv hpm custom cov s (List.mem_of_mem_take hs)) _ (posSemidef_conjTranspose_mul_self _) _

/-- The state of an individual of a dataset after an update. -/
theorem postUpdate_label {qr : QR} (hqr : ValidQR qr) (hkappa : ∀ o x, m.estimationOptions = some o → o.sigmaPointsScale = some x → 0 ≤ x) (nan : ℝ) {nT : ℕ} (hT : pm.dimensions.nPeriods = nT + 2)
    {df : LongData ℝ} {ids pers : List Int} (hi : IndexOk df) (hu : NoUnusedPeriods df) (hids : IdsOf df ids) (hpers : PeriodsOf df pers)
    {pd : ProcessedData ℝ} (hdata : processData df pm.labels pm.updateInfo pm.anchoring .estimation = .ok pd) {con : Fin (nT + 2) → Fin ids.length → Fin (nCon m) → ℝ}
    {obs : Fin (nT + 2) → Fin ids.length → Fin (nObsd m) → ℝ} {data : Fin pm.updateInfo.length → Fin ids.length → Option ℝ}
    (hcon : ∀ (t : Fin (nT + 2)) (i : Fin ids.length) (j : Fin (nCon m)), ∃ w, entry3 pd.controls t i j = some w ∧ con t i j = w.getD nan)
    (hobs : ∀ (t : Fin (nT + 2)) (i : Fin ids.length) (j : Fin (nObsd m)), ∃ w, entry3 pd.observedFactors t i j = some w ∧ obs t i j = w.getD nan)
    (hmeas : ∀ (k : Fin pm.updateInfo.length) (i : Fin ids.length), entry2 (pd.measurements.getD []) k i = some (data k i))
    {i : ℕ} {cov : Covariates} {y : Nat → String → ℝ} (hil : i < ids.length) (hdesc : Describes m df ids pers i cov y) (j : Fin (updateList pm).length)
    {o : StepOut ids.length pm.dimensions.nMixtures (nLat m)}
    (ho : (outs qr (labelFixed custom m pm val ids.length nT con obs) (labelCarry m val ids.length pm.dimensions.nMixtures) (loopArgs (nT + 1) (pm.updateInfo.map (labelRow m val)) (List.ofFn data)))[j.val]? = some o)
    (e : Fin pm.dimensions.nMixtures) :
    o.states ⟨i, hil⟩ e = elementMean custom m pm val nT (cov.only (MeasuredUpTo m (updateList pm) j)) e (j + 1) (observedData (updateList pm) (cov.only (MeasuredUpTo m (updateList pm) j)) y) := by
  have hk : pm.dimensions.nMixtures = k := ((hasNMixtures_of_ok hpm k).mp hm.mixture).symm
  subst hk
  obtain ⟨hsame, hdat⟩ := individual_masked hm hg hpm hT custom nan val hi hu hids hpers hdata hcon hobs hmeas hil hdesc (MeasuredUpTo m (updateList pm) j)
  have hsds := rows_sd hv hpm (L := nT + 1) (data := List.ofFn data) (by simp)
  have hw : ∀ i : Fin ids.length, ∑ e, Real.exp ((labelCarry m val ids.length pm.dimensions.nMixtures).logWeights i e) = 1 := fun i => by
    rw [Finset.sum_congr rfl (fun e _ => weights_label hv ids.length i e)]; exact hv.sum
  have hget := fun (j : ℕ) (a) (ha : (loopArgs (nT + 1) (pm.updateInfo.map (labelRow m val)) (List.ofFn data))[j]? = some a) => rows_get val (L := nT + 1) (data := List.ofFn data) (by simp) ha
  have hlen : (loopArgs (nT + 1) (pm.updateInfo.map (labelRow m val)) (List.ofFn data)).length = pm.updateInfo.length := by rw [loopArgs_length _ _ (by simp), List.length_map]
  have hju : j.val < pm.updateInfo.length := by simpa using j.isLt
  obtain ⟨o', ho', hs'⟩ := outs_keep_states qr (labelFixed custom m pm val ids.length nT con obs) (c' := labelCarry m val ids.length pm.dimensions.nMixtures) rfl rfl ho
  rw [← hs', (filter_out (fixed := labelFixed custom m pm val ids.length nT con obs) hqr (sigma_label hpm hkappa custom val ids.length nT con obs) (affine_label hm hpm hg custom val ids.length nT con obs)
    (hm.single.imp id (fun h => by simp [h])) ⟨i, hil⟩
    (fun a ha => by
      obtain ⟨a', ha', rfl⟩ := List.mem_map.mp ha
      exact hsds a' ha')
    (fun a ha => by
      obtain ⟨a', _, rfl⟩ := List.mem_map.mp ha
      rfl) hw ho' e).1]
  set fixed := labelFixed custom m pm val ids.length nT con obs with hfixed
  set args := loopArgs (nT + 1) (pm.updateInfo.map (labelRow m val)) (List.ofFn data) with hargsdef
  set kept := List.zipWith LoopArgs.keep args (pm.updateInfo.map (fun r => @decide (MeasuredUpTo m (updateList pm) j r.period r.var) (Classical.dec _))) with hkept
  have hkl : kept.length = pm.updateInfo.length := by rw [hkept, List.length_zipWith, hlen, List.length_map, Nat.min_self]
  have htake : (args.map (fun a => a.keep a.isMeasurement)).take (j.val + 1) = kept.take (j.val + 1) := by
    have e1 : (args.map (fun a => a.keep a.isMeasurement)).length = pm.updateInfo.length := (List.length_map _).trans hlen
    refine List.ext_getElem (by rw [List.length_take, List.length_take, e1, hkl]) (fun a h1 h2 => ?_)
    have ha : a < j.val + 1 ∧ a < pm.updateInfo.length := by rw [List.length_take, hkl] at h2; omega
    rw [List.getElem_take, List.getElem_take, List.getElem_map, List.getElem_zipWith]
    obtain ⟨r, hr, _, hr2⟩ := hget a args[a] (List.getElem?_eq_getElem (by omega))
    rw [List.getElem?_eq_getElem ha.2] at hr
    obtain rfl := Option.some.inj hr
    congr 1
    rw [hr2, List.getElem_map, decide_eq_decide, purpose_iff hpm hm.anchoring.1 (List.getElem_mem ha.2)]
    exact ⟨fun h => ⟨h, ⟨a, by rw [List.length_map]; exact ha.2⟩, Fin.mk_le_of_le_val (by omega), List.getElem_map _⟩, fun h => h.1⟩
  have hS : List.Forall₂ SameStep ((kept.take (j.val + 1)).map (stepOf fixed ⟨i, hil⟩)) ((covSteps custom m pm val nT (cov.only (MeasuredUpTo m (updateList pm) j))).take (j.val + 1)) := by
    rw [List.map_take]
    exact List.forall₂_take _ hsame
  have hY : ∀ (a : ℕ) (h : a < ((kept.take (j.val + 1)).map (stepOf fixed ⟨i, hil⟩)).length) (h' : a < ((covSteps custom m pm val nT (cov.only (MeasuredUpTo m (updateList pm) j))).take (j.val + 1)).length),
      dataOf fixed ⟨i, hil⟩ (kept.take (j.val + 1)) ⟨a, h⟩ = observedData (updateList pm) (cov.only (MeasuredUpTo m (updateList pm) j)) y (takePos custom m pm val nT (cov.only (MeasuredUpTo m (updateList pm) j)) (j.val + 1) ⟨a, h'⟩) := by
    intro a h h'
    have ha : a < j.val + 1 ∧ a < kept.length := by simpa [List.length_take] using h
    have hau : a < pm.updateInfo.length := hkl ▸ ha.2
    have hget : kept[a]? = some kept[a] := List.getElem?_eq_getElem ha.2
    rw [dataOf_get fixed ⟨i, hil⟩ h (a := kept[a]) (by rw [List.getElem?_take_of_lt ha.1, hget]),
      ← dataOf_get fixed ⟨i, hil⟩ (args := kept) (by simpa using ha.2) hget, hdat a _ (by simpa using hau)]
    rfl
  rw [htake]
  exact filterMean_congr hS _ _ hY

end

/-- **C127**: consider a model with linear and constant transitions (with any number of mixture elements, with or without anchoring). There is a function `mean` of the covariates of an individual, a mixture element, an update, the
measurements of the individual and the name of a factor such that

* `mean` is continuous in the measurements;
* in each random experiment with the noise of the model, among those individuals that belong to mixture element e, `mean` is the conditional expectation of the latent factor in the period of update j, given the measurements that are
  observed up to (and including) update j (not anchoring outcomes);
* the DataFrame post_update_states in the output of debug_loglike has one row for each update, individual and mixture element, next to the mixture element, the period and the name of the variable. The row has a column for each latent
  factor, with `mean` at the data of the individual. (The column id counts pairs of an individual and a mixture element, see C52.) -/
theorem C127_post_update_states {qr : QR} (hqr : ValidQR qr) {m : ModelDict ℝ} {k : ℕ} (hm : LinearModel m k) (hg : GoodNames m)
    (hkappa : ∀ o x, m.estimationOptions = some o → o.sigmaPointsScale = some x → 0 ≤ x) {val : Loc → ℝ} (hv : ProperValues m k val) (hok : ∃ pm, processModel m = .ok pm) (custom : String → CustomFn) (nan : ℝ) :
    ∃ updates, Enumerates m updates ∧ (updates.map Prod.fst).Pairwise (· ≤ ·) ∧
      ∃ mean : Covariates → Fin k → (j : Fin updates.length) → (Fin updates.length → ℝ) → String → ℝ,
      (∀ cov e j f, Continuous (fun y => mean cov e j y f)) ∧
      (∀ (cov : Covariates) (e : Fin k) (j : Fin updates.length) (f : String), IsLatent m f →
        ∀ {Ω : Type} [MeasurableSpace Ω] (P : Measure Ω) [IsProbabilityMeasure P] (E : Ω → Fin k) (Z : Noise → Ω → ℝ), RandomNoise P val E Z →
          let data := fun ω => observedData updates (cov.only (MeasuredUpTo m updates j)) (measurementValue m val cov (E ω) (fun a => Z a ω))
          let factor := fun ω => latentStates m val cov (E ω) (fun a => Z a ω) (updates.get j).1 f
          let members := cond P {ω | E ω = e}
          Integrable factor members ∧ Measurable data ∧ members[factor | MeasurableSpace.comap data inferInstance] =ᵐ[members] fun ω => mean cov e j (data ω) f) ∧
      ∀ (df : LongData ℝ) (ids pers : List Int) (params : List (Loc × ℝ)) (inputs : MaximizationInputs) (out : DebugData), IndexOk df → NoUnusedPeriods df → IdsOf df ids → PeriodsOf df pers →
        (params.map Prod.fst).Nodup → (∀ l x, (l, x) ∈ params → x = val l) → getMaximizationInputs m df = .ok inputs → inputs.debugLoglike qr custom nan m params = .ok out →
        out.postUpdateStates.length = updates.length * (ids.length * k) ∧
        ∀ (j : Fin updates.length) (i : Nat) (e : Fin k) (cov : Covariates) (y : Nat → String → ℝ), i < ids.length → Describes m df ids pers i cov y →
          out.postUpdateStates[j * (ids.length * k) + (i * k + e)]? =
            some { value := (Spec.latents m).map (mean cov e j (observedData updates (cov.only (MeasuredUpTo m updates j)) y)), mixture := e, period := (updates.get j).1, id := i * k + e, measurement := (updates.get j).2 } := by
  classical
  obtain ⟨pm, hpm⟩ := hok
  have hk : pm.dimensions.nMixtures = k := ((hasNMixtures_of_ok hpm k).mp hm.mixture).symm
  subst hk
  obtain ⟨nT, hT⟩ : ∃ nT, pm.dimensions.nPeriods = nT + 2 := ⟨pm.dimensions.nPeriods - 2, by have := (isPeriod_iff hpm 1).mp hm.periods; omega⟩
  obtain ⟨hu1, hu2, hsorted, _⟩ := C01_update_info_exact hpm
  have hen := updateList_enumerates hpm
  have hgetD : ∀ (x : Fin (nLat m) → ℝ) (a : Fin (nLat m)), (List.ofFn x).getD a.val 0 = x a := fun x a => by
    rw [List.getD_eq_getElem?_getD, List.getElem?_ofFn, dif_pos a.isLt, Option.getD_some]
  have hlat : ∀ f, IsLatent m f → ∃ a : Fin (nLat m), latName m a = f ∧ (m.factors.map Prod.fst).idxOf f = a := by
    rintro f ⟨spec, hf⟩
    have hmem : f ∈ m.factors.map Prod.fst := List.mem_map.mpr ⟨_, hf, rfl⟩
    have hlt := List.idxOf_lt_length_of_mem hmem
    refine ⟨⟨(m.factors.map Prod.fst).idxOf f, by simpa using hlt⟩, ?_, rfl⟩
    have h1 := latName_get (m := m) ⟨(m.factors.map Prod.fst).idxOf f, by simpa using hlt⟩
    rw [List.getElem?_eq_getElem hlt, List.getElem_idxOf] at h1
    exact (Option.some.inj h1).symm
  refine ⟨updateList pm, hen, ?_, fun cov e j y f => (List.ofFn (elementMean custom m pm val nT (cov.only (MeasuredUpTo m (updateList pm) j)) e (j + 1) y)).getD ((m.factors.map Prod.fst).idxOf f) 0, ?_, ?_, ?_⟩
  · rw [List.map_map]
    exact List.pairwise_map.mpr hsorted
  · intro cov e j f
    by_cases hf : (m.factors.map Prod.fst).idxOf f < nLat m
    · have : ∀ y, (List.ofFn (elementMean custom m pm val nT (cov.only (MeasuredUpTo m (updateList pm) j)) e (j + 1) y)).getD ((m.factors.map Prod.fst).idxOf f) 0 =
          elementMean custom m pm val nT (cov.only (MeasuredUpTo m (updateList pm) j)) e (j + 1) y ⟨_, hf⟩ := fun y => hgetD _ ⟨_, hf⟩
      simp only [this]
      exact (continuous_apply _).comp (continuous_elementMean hpm hm hg hv custom _ e (j + 1))
    · have : ∀ y, (List.ofFn (elementMean custom m pm val nT (cov.only (MeasuredUpTo m (updateList pm) j)) e (j + 1) y)).getD ((m.factors.map Prod.fst).idxOf f) 0 = 0 := fun y => by
        rw [List.getD_eq_getElem?_getD, List.getElem?_ofFn, dif_neg hf, Option.getD_none]
      simp only [this]
      exact continuous_const
  · intro cov e j f hf Ω _ P _ E Z hZ data factor members
    obtain ⟨a, rfl, ha⟩ := hlat f hf
    obtain ⟨hprob, hZe⟩ := randomNoise_element hZ (hv.positive e e.isLt)
    have hju : j.val < pm.updateInfo.length := by simpa using j.isLt
    have hgetj : (updateList pm).get j = (pm.updateInfo[j.val].period, pm.updateInfo[j.val].var) := by
      rw [List.get_eq_getElem, List.getElem_map]
    obtain ⟨h1, h2, h3⟩ := weights_condExp hm hg hv hpm custom (cov.only (MeasuredUpTo m (updateList pm) j)) hT (t := ((updateList pm).get j).1) (j := j.val) ⟨_, List.getElem?_eq_getElem hju, by rw [hgetj]⟩ (by
      intro b r hr hb
      obtain ⟨hb', rfl⟩ := List.getElem?_eq_some_iff.mp hr
      rw [← Bool.not_eq_true, only_observed]
      rintro ⟨⟨_, c, hc, hc'⟩, _⟩
      have : c = ⟨b, by rw [List.length_map]; exact hb'⟩ := (List.nodup_iff_injective_get.mp hen.nodup) (hc'.trans (by rw [List.get_eq_getElem, List.getElem_map]))
      rw [this] at hc
      exact absurd hb (not_lt.mpr hc)) hZe
      (fun e' => by rw [elementVal_weights]; split_ifs <;> norm_num) ⟨e, by rw [elementVal_weights, if_pos rfl]; exact one_pos⟩ a
    simp only [latentStates_only, measurementValue_only, weightsMean_element hpm hm hg hv] at h1 h2 h3
    refine ⟨h1, h2, ?_⟩
    simp only [ha, hgetD]
    exact h3
  · intro df ids pers params inputs out hi hu hids hpers hn hval hin hdebug
    have hin' := hin
    unfold getMaximizationInputs at hin'
    simp only [py_bind_ok, py_pure_ok] at hin'
    obtain ⟨pm', hpm', info, hinfo, dat, hdat, cs, hcs, hinp⟩ := hin'
    obtain rfl := Except.ok.inj (hpm.symm.trans hpm')
    have hObs := length_controls hpm hm hg hi hu hids hpers hin
    obtain ⟨pm', nT', con, obs, data, r, hpm', hT', hdata, hcon, hobs, hmeas, hr, hpost⟩ := evaluate_explicit hg hm.anchoring.1 hm.anchoring.2.1 hin hn hval hdebug hObs
    obtain rfl := Except.ok.inj (hpm.symm.trans hpm')
    obtain rfl : nT = nT' := by omega
    rw [← hinp] at hpost
    dsimp only at hpost
    obtain ⟨ho, _⟩ := logLikelihood_ok hr
    have hlenargs : r.outs.length = pm.updateInfo.length := by rw [ho, outs_length, loopArgs_length _ _ (by simp), List.length_map]
    obtain ⟨post, hpost1, hpost2⟩ := processDebugData_postUpdate hpost
    unfold createPostUpdateStates at hpost1
    dsimp only at hpost1
    split_ifs at hpost1
    obtain ⟨hlen, hcell⟩ := debugRows (by rw [List.length_map, hlenargs]) (Except.ok.inj hpost1).symm
    refine ⟨by rw [hpost2, List.length_map, hlen, List.length_map], fun j i e cov y hil hdesc => ?_⟩
    have hju : j.val < pm.updateInfo.length := by simpa using j.isLt
    have hjo : j.val < r.outs.length := by omega
    have hoj := List.getElem?_eq_getElem hjo
    have h1 := hcell j.val _ (r.outs[j.val]'hjo).states ⟨i, hil⟩ e (List.getElem?_eq_getElem hju) (by rw [List.getElem?_map, hoj]; rfl)
    rw [postUpdate_label hpm hm hg hv custom hqr hkappa nan hT hi hu hids hpers hdata hcon hobs hmeas hil hdesc j (by rw [← ho]; exact hoj) e] at h1
    have hgetj : (updateList pm).get j = (pm.updateInfo[j.val].period, pm.updateInfo[j.val].var) := by
      rw [List.get_eq_getElem, List.getElem_map]
    rw [hpost2, List.getElem?_map, h1, hgetj]
    simp only [Option.map_some, Option.some.injEq, DebugRow.mk.injEq, and_true]
    refine List.ext_getElem? (fun a => ?_)
    rw [List.getElem?_map]
    by_cases ha : a < nLat m
    · have h2 : (Spec.latents m)[a]? = some (latName m (⟨a, ha⟩ : Fin (nLat m))) := latName_get ⟨a, ha⟩
      have h3 : (m.factors.map Prod.fst).idxOf (latName m (⟨a, ha⟩ : Fin (nLat m))) = a := by
        have hlt : a < (m.factors.map Prod.fst).length := by simpa using ha
        have h4 : (m.factors.map Prod.fst)[a] = latName m (⟨a, ha⟩ : Fin (nLat m)) := Option.some.inj ((List.getElem?_eq_getElem hlt).symm.trans h2)
        rw [← h4]
        exact hg.keys.factors.idxOf_getElem a hlt
      rw [h2, List.getElem?_ofFn, dif_pos ha, Option.map_some, h3, hgetD _ ⟨a, ha⟩]
    · have h2 : (Spec.latents m)[a]? = none := List.getElem?_eq_none (by simpa [Spec.latents] using not_lt.mp ha)
      rw [h2, List.getElem?_ofFn, dif_neg ha, Option.map_none]

end Skill
