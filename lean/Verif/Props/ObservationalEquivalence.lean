import Verif.Props.PipelineExamples
import Verif.Lemmas.DataMoments
import Verif.Spec.Rescaling
import Mathlib.MeasureTheory.Function.AEEqOfLIntegral
/-
C102: the log likelihood only depends on the distribution of the data that parameters imply.
-/
namespace Skill
open Matrix MeasureTheory ProbabilityTheory Spec

/-- Two continuous functions that are equal almost everywhere are equal at all points where missing values are recorded as 0. -/
theorem eq_of_ae {N : ℕ} (o : Fin N → Bool) {d d' : (Fin N → ℝ) → ℝ} (hd : Continuous d) (hd' : Continuous d') (h : d =ᵐ[Measure.pi (fun j => if o j then volume else Measure.dirac (0 : ℝ))] d') {y : Fin N → ℝ}
    (hy : ∀ j, o j = false → y j = 0) : d y = d' y := by
  by_contra hne
  have hopen : IsOpen {y | d y ≠ d' y} := isOpen_ne_fun hd hd'
  obtain ⟨r, hr, hball⟩ := Metric.isOpen_iff.mp hopen y hne
  have hsf : ∀ j, SigmaFinite (if o j then volume else Measure.dirac (0 : ℝ)) := by
    intro j
    split <;> infer_instance
  have hzero : Measure.pi (fun j => if o j then volume else Measure.dirac (0 : ℝ)) (Metric.ball y r) = 0 := measure_mono_null hball h
  rw [ball_pi y hr, Measure.pi_pi, Finset.prod_eq_zero_iff] at hzero
  obtain ⟨j, _, hj⟩ := hzero
  cases ho : o j with
  | true =>
    rw [ho, if_pos rfl] at hj
    exact (Metric.measure_ball_pos volume (y j) hr).ne' hj
  | false =>
    rw [ho, if_neg (by simp), hy j ho, Measure.dirac_apply' _ Metric.isOpen_ball.measurableSet, Set.indicator_of_mem (Metric.mem_ball_self hr)] at hj
    exact one_ne_zero hj

/-- Two enumerations of the same updates. -/
noncomputable def reindex {a b : List (Nat × String)} (ha : a.Nodup) (hb : b.Nodup) (h : ∀ x, x ∈ a ↔ x ∈ b) : Fin a.length ≃ Fin b.length :=
  (List.Nodup.getEquiv a ha).trans ((Equiv.subtypeEquivRight h).trans (List.Nodup.getEquiv b hb).symm)

theorem reindex_get {a b : List (Nat × String)} (ha : a.Nodup) (hb : b.Nodup) (h : ∀ x, x ∈ a ↔ x ∈ b) (j : Fin a.length) : b.get (reindex ha hb h j) = a.get j := by
  have := congrArg Subtype.val ((List.Nodup.getEquiv b hb).apply_symm_apply ((Equiv.subtypeEquivRight h) (List.Nodup.getEquiv a ha j)))
  exact this

/-- The data of an individual, listed in a different order. -/
theorem exists_reorder {a b : List (Nat × String)} (ha : a.Nodup) (hb : b.Nodup) (h : ∀ x, x ∈ a ↔ x ∈ b) (cov : Covariates) : ∃ T : (Fin a.length → ℝ) ≃ᵐ (Fin b.length → ℝ),
    Continuous T ∧ MeasurePreserving T (referenceMeasure a cov) (referenceMeasure b cov) ∧ ∀ y, T (observedData a cov y) = observedData b cov y := by
  set π := reindex ha hb h with hπ
  have hget : ∀ j, b.get (π j) = a.get j := reindex_get ha hb h
  have hsf : ∀ j, SigmaFinite (if cov.isObserved (a.get j).1 (a.get j).2 then volume else Measure.dirac (0 : ℝ)) := by
    intro j
    split <;> infer_instance
  have hsf' : ∀ j, SigmaFinite (if cov.isObserved (b.get j).1 (b.get j).2 then volume else Measure.dirac (0 : ℝ)) := by
    intro j
    split <;> infer_instance
  let T : (Fin a.length → ℝ) ≃ᵐ (Fin b.length → ℝ) := MeasurableEquiv.piCongrLeft (fun _ => ℝ) π
  have hT : ∀ y j, T y j = y (π.symm j) := by
    intro y j
    obtain ⟨i, rfl⟩ := π.surjective j
    rw [Equiv.symm_apply_apply]
    exact Equiv.piCongrLeft_apply_apply (fun _ => ℝ) π y i
  have hmp : MeasurePreserving T (referenceMeasure a cov) (referenceMeasure b cov) := by
    have := measurePreserving_piCongrLeft (fun j : Fin b.length => if cov.isObserved (b.get j).1 (b.get j).2 then volume else Measure.dirac (0 : ℝ)) π
    simp only [hget] at this
    exact this
  have hTo : ∀ y, T (observedData a cov y) = observedData b cov y := by
    intro y
    funext j
    rw [hT]
    obtain ⟨i, rfl⟩ := π.surjective j
    rw [Equiv.symm_apply_apply]
    unfold observedData
    rw [hget]
  have hTc : Continuous T := by
    refine continuous_pi (fun j => ?_)
    simp only [hT]
    exact continuous_apply _
  exact ⟨T, hTc, hmp, hTo⟩

theorem sigmaFinite_reference (a : List (Nat × String)) (cov : Covariates) : SigmaFinite (referenceMeasure a cov) := by
  have hsf : ∀ j : Fin a.length, SigmaFinite (if cov.isObserved (a.get j).1 (a.get j).2 then volume else Measure.dirac (0 : ℝ)) := by
    intro j
    split <;> infer_instance
  unfold referenceMeasure
  infer_instance

/-- The density of the data, listed in a different order. -/
theorem law_reorder {Ω : Type} [MeasurableSpace Ω] {P : Measure Ω} {a b : List (Nat × String)} {cov : Covariates} {T : (Fin a.length → ℝ) ≃ᵐ (Fin b.length → ℝ)}
    (hmp : MeasurePreserving T (referenceMeasure a cov) (referenceMeasure b cov)) (hTo : ∀ y, T (observedData a cov y) = observedData b cov y) {Y : Ω → Nat → String → ℝ}
    (hY : Measurable (fun ω => observedData a cov (Y ω))) (hY' : Measurable (fun ω => observedData b cov (Y ω))) {d' : (Fin b.length → ℝ) → ℝ} (hd' : Continuous d')
    (hl' : P.map (fun ω => observedData b cov (Y ω)) = (referenceMeasure b cov).withDensity (fun y => ENNReal.ofReal (d' y))) :
    P.map (fun ω => observedData a cov (Y ω)) = (referenceMeasure a cov).withDensity (fun y => ENNReal.ofReal (d' (T y))) := by
  have hmd' : Measurable (fun y => ENNReal.ofReal (d' y)) := ENNReal.measurable_ofReal.comp hd'.measurable
  refine Measure.ext (fun A hA => ?_)
  have hB : MeasurableSet (T.symm ⁻¹' A) := T.symm.measurable hA
  have hpre : T ⁻¹' (T.symm ⁻¹' A) = A := by
    ext y
    simp
  rw [withDensity_apply _ hA, Measure.map_apply hY hA]
  have h1 : (fun ω => observedData a cov (Y ω)) ⁻¹' A = (fun ω => observedData b cov (Y ω)) ⁻¹' (T.symm ⁻¹' A) := by
    ext ω
    simp only [Set.mem_preimage, ← hTo, MeasurableEquiv.symm_apply_apply]
  rw [h1, ← Measure.map_apply hY' hB, hl', withDensity_apply _ hB, ← hmp.setLIntegral_comp_preimage hB hmd', hpre]

/-- Densities of the same random variables, listed in a different order. -/
theorem density_reindex {Ω : Type} [MeasurableSpace Ω] {P : Measure Ω} {a b : List (Nat × String)} (ha : a.Nodup) (hb : b.Nodup) (h : ∀ x, x ∈ a ↔ x ∈ b) (cov : Covariates) {Y : Ω → Nat → String → ℝ}
    (hY : Measurable (fun ω => observedData a cov (Y ω))) (hY' : Measurable (fun ω => observedData b cov (Y ω))) {d : (Fin a.length → ℝ) → ℝ} {d' : (Fin b.length → ℝ) → ℝ} (hd : Continuous d) (hd' : Continuous d')
    (hpos : ∀ y, 0 < d y) (hpos' : ∀ y, 0 < d' y) (hl : P.map (fun ω => observedData a cov (Y ω)) = (referenceMeasure a cov).withDensity (fun y => ENNReal.ofReal (d y)))
    (hl' : P.map (fun ω => observedData b cov (Y ω)) = (referenceMeasure b cov).withDensity (fun y => ENNReal.ofReal (d' y))) (y : Nat → String → ℝ) :
    d (observedData a cov y) = d' (observedData b cov y) := by
  obtain ⟨T, hTc, hmp, hTo⟩ := exists_reorder ha hb h cov
  have hmd : Measurable (fun y => ENNReal.ofReal (d y)) := ENNReal.measurable_ofReal.comp hd.measurable
  have hmd' : Measurable (fun y => ENNReal.ofReal (d' y)) := ENNReal.measurable_ofReal.comp hd'.measurable
  have heq : (referenceMeasure a cov).withDensity (fun y => ENNReal.ofReal (d y)) = (referenceMeasure a cov).withDensity (fun y => ENNReal.ofReal (d' (T y))) := by
    rw [← hl]
    exact law_reorder hmp hTo hY hY' hd' hl'
  have hsfa := sigmaFinite_reference a cov
  have hae := (withDensity_eq_iff_of_sigmaFinite hmd.aemeasurable (hmd'.comp T.measurable).aemeasurable).mp heq
  have hae' : d =ᵐ[referenceMeasure a cov] fun y => d' (T y) := by
    filter_upwards [hae] with y hy
    have := congrArg ENNReal.toReal hy
    rwa [ENNReal.toReal_ofReal (hpos y).le, Function.comp_apply, ENNReal.toReal_ofReal (hpos' _).le] at this
  rw [eq_of_ae (fun j => cov.isObserved (a.get j).1 (a.get j).2) hd (hd'.comp hTc) hae' (y := observedData a cov y), Function.comp_apply, hTo]
  intro j hj
  unfold observedData
  rw [hj]
  simp

section
variable {m m' : ModelDict ℝ}

theorem period_of_measures {n : ℕ} (hn : IsNPeriods m n) {t : ℕ} {v f : String} (h : Measures m t v f) : IsPeriod m t := by
  obtain ⟨spec, hmem, ms, hms, _⟩ := h
  exact ⟨n, hn, lt_of_lt_of_le (List.getElem?_eq_some_iff.mp hms).1 (hn.2 f spec hmem)⟩

theorem Spec.SameVariables.anchors (h : SameVariables m m') (v f : String) : Anchors m v f ↔ Anchors m' v f := by
  unfold Anchors
  exact exists_congr (fun o => by rw [h.anchored])

theorem Spec.SameVariables.isUpdate (h : SameVariables m m') (t : ℕ) (v : String) : IsUpdate m t v ↔ IsUpdate m' t v := by
  unfold IsUpdate
  rw [h.periods]
  exact or_congr (h.measurements t v) (and_congr_right (fun _ => exists_congr (h.anchors v)))

theorem Spec.SameVariables.valueIs (h : SameVariables m m') (r : Option (LongRow ℝ)) (c : String) (a : Option ℝ) : ValueIs m r c a ↔ ValueIs m' r c a := by
  unfold ValueIs
  simp only [h.anchored, h.anchors]

theorem Spec.SameVariables.incomplete (h : SameVariables m m') (r : Option (LongRow ℝ)) (t : ℕ) : IncompleteControls m r t ↔ IncompleteControls m' r t := by
  unfold IncompleteControls
  simp only [h.valueIs, h.isUpdate, List.mem_cons, h.controls]

theorem Spec.SameVariables.describes (h : SameVariables m m') {df : LongData ℝ} {ids pers : List Int} {i : ℕ} {cov : Covariates} {y : Nat → String → ℝ} (hd : Describes m df ids pers i cov y) :
    Describes m' df ids pers i cov y := by
  intro t ht
  obtain ⟨r, hr, h1, h2, h3⟩ := hd t ((h.periods t).mpr ht)
  refine ⟨r, hr, ?_, ?_, ?_⟩
  · intro v hv
    obtain ⟨a, w, ha, hw, ho⟩ := h1 v ((h.isUpdate t v).mpr hv)
    refine ⟨a, w, (h.valueIs r v a).mp ha, ?_, ho⟩
    unfold Kept at hw ⊢
    rwa [← h.incomplete]
  · intro hinc c hc a ha
    refine h2 (fun hi => hinc ((h.incomplete r t).mp hi)) c ?_ a ((h.valueIs r c _).mpr ha)
    rw [List.mem_cons] at hc ⊢
    rwa [h.controls]
  · intro f hf
    obtain ⟨h4, h5⟩ := h3 f ((h.observed f).mpr hf)
    exact ⟨fun hi => h4 ((h.incomplete r t).mpr hi), (h.valueIs r f _).mp h5⟩

/-- The constant is one if the controls are complete. -/
theorem constant_of_describes {df : LongData ℝ} {ids pers : List Int} {i : ℕ} {cov : Covariates} {y : Nat → String → ℝ} (hper : ∀ t v, IsUpdate m t v → IsPeriod m t) (hd : Describes m df ids pers i cov y) : ConstantIsOne m cov := by
  intro t v hu ho
  obtain ⟨r, hr, h1, h2, h3⟩ := hd t (hper t v hu)
  obtain ⟨a, w, ha, hw, hobs, _⟩ := h1 v hu
  rw [ho] at hobs
  have hinc : ¬IncompleteControls m r t := by
    rcases hw with ⟨_, hw⟩ | ⟨h, _⟩
    · rw [hw] at hobs
      cases hobs
    · exact h
  refine h2 hinc "constant" List.mem_cons_self 1 (Or.inr ⟨?_, rfl⟩)
  rintro ⟨f, o, _, hname⟩
  have h := congrArg String.toList hname
  have hmem : '_' ∈ (o ++ "_" ++ f).toList := by simp
  rw [← h] at hmem
  revert hmem
  decide

theorem constant_only {cov : Covariates} (h : ConstantIsOne m cov) (p : Nat → String → Prop) : ConstantIsOne m (cov.only p) := by
  intro t v hu ho
  refine h t v hu ?_
  unfold Covariates.only at ho
  simp only [Bool.and_eq_true] at ho
  exact ho.2

variable {Ω Ω' : Type} [MeasurableSpace Ω] [MeasurableSpace Ω'] {P : Measure Ω} {P' : Measure Ω'} [IsProbabilityMeasure P] [IsProbabilityMeasure P'] {k k' : ℕ} {E : Ω → Fin k} {E' : Ω' → Fin k'} {Z : Noise → Ω → ℝ} {Z' : Noise → Ω' → ℝ}

/-- The densities of the same data. -/
theorem density_same (h : SameVariables m m') {val val' : Loc → ℝ} (hZ : RandomNoise P val E Z) (hZ' : RandomNoise P' val' E' Z') (hlaw : SameDistribution P E Z P' E' Z' m val m' val') {a b : List (Nat × String)} (ha : Enumerates m a)
    (hb : Enumerates m' b) {cov : Covariates} (hone : ConstantIsOne m cov) {d : (Fin a.length → ℝ) → ℝ} {d' : (Fin b.length → ℝ) → ℝ} (hd : Continuous d) (hd' : Continuous d') (hpos : ∀ y, 0 < d y) (hpos' : ∀ y, 0 < d' y)
    (hl : ∀ {Ω : Type} [MeasurableSpace Ω] (P : Measure Ω) [IsProbabilityMeasure P] (E : Ω → Fin k) (Z : Noise → Ω → ℝ), RandomNoise P val E Z →
      P.map (fun ω => observedData a cov (measurementValue m val cov (E ω) (fun j => Z j ω))) = (referenceMeasure a cov).withDensity (fun y => ENNReal.ofReal (d y)))
    (hl' : ∀ {Ω : Type} [MeasurableSpace Ω] (P : Measure Ω) [IsProbabilityMeasure P] (E : Ω → Fin k') (Z : Noise → Ω → ℝ), RandomNoise P val' E Z →
      P.map (fun ω => observedData b cov (measurementValue m' val' cov (E ω) (fun j => Z j ω))) = (referenceMeasure b cov).withDensity (fun y => ENNReal.ofReal (d' y))) (y : Nat → String → ℝ) :
    d (observedData a cov y) = d' (observedData b cov y) := by
  have hmeas : ∀ u, Measurable (fun ω => observedData u cov (measurementValue m val cov (E ω) (fun j => Z j ω))) := fun u =>
    (measurable_observed m val cov u).comp (hZ.measurable_element.prodMk (measurable_pi_iff.mpr hZ.measurable))
  refine density_reindex ha.nodup hb.nodup (fun x => ?_) cov (hmeas a) (hmeas b) hd hd' hpos hpos' (hl P E Z hZ) ?_ y
  · rw [ha.all x.1 x.2, hb.all x.1 x.2, h.isUpdate]
  · rw [hlaw b ⟨hb.nodup, fun t v => by rw [hb.all, h.isUpdate]⟩ cov hone]
    exact hl' P' _ Z' hZ'
end

/-- Equal contributions of each individual: the sum of all contributions of measurements and, without clipping, the contribution of the individual. -/
def SameContributions (ids pers : List Int) (df : LongData ℝ) (m m' : ModelDict ℝ) (out out' : LoglikeOutput) : Prop :=
  ∀ (i : Nat) (cov : Covariates) (y : Nat → String → ℝ), i < ids.length → Describes m df ids pers i cov y →
    (out'.allContributions.map (fun row => row.getD i 0)).sum = (out.allContributions.map (fun row => row.getD i 0)).sum ∧
    (NoClipping m → NoClipping m' → out'.contributions.getD i 0 = out.contributions.getD i 0)

section
variable {qr qr' : QR} {m m' : ModelDict ℝ} {pm pm' : Processed ℝ} {k k' : ℕ} {val val' : Loc → ℝ} {df : LongData ℝ} {ids pers : List Int} {inputs inputs' : MaximizationInputs} {params params' : List (Loc × ℝ)} {out out' : LoglikeOutput}
  {Ω Ω' : Type} [MeasurableSpace Ω] [MeasurableSpace Ω'] {P : Measure Ω} {P' : Measure Ω'} [IsProbabilityMeasure P] [IsProbabilityMeasure P'] {E : Ω → Fin k} {E' : Ω' → Fin k'} {Z : Noise → Ω → ℝ} {Z' : Noise → Ω' → ℝ}

theorem update_period {k : ℕ} (hm : LinearModel m k) (t : ℕ) (v : String) (h : IsUpdate m t v) : IsPeriod m t := by
  rcases h with ⟨f, hf⟩ | ⟨h, _⟩
  · obtain ⟨n, hn, _⟩ := hm.periods
    exact period_of_measures hn hf
  · exact h

theorem contributions_same_of_none (hqr : ValidQR qr) (hqr' : ValidQR qr') (hpm : processModel m = .ok pm) (hpm' : processModel m' = .ok pm') (hm : LinearModel m k)
    (hm' : LinearModel m' k') (hna : m.anchoring = none) (hna' : m'.anchoring = none) (hg : GoodNames m) (hg' : GoodNames m') (hkappa : ∀ o x, m.estimationOptions = some o → o.sigmaPointsScale = some x → 0 ≤ x)
    (hkappa' : ∀ o x, m'.estimationOptions = some o → o.sigmaPointsScale = some x → 0 ≤ x) (hsame : SameVariables m m') (hv : ProperValues m k val) (hv' : ProperValues m' k' val') (hZ : RandomNoise P val E Z) (hZ' : RandomNoise P' val' E' Z')
    (hlaw : SameDistribution P E Z P' E' Z' m val m' val') (custom custom' : String → CustomFn) (nan nan' : ℝ) (hi : IndexOk df) (hu : NoUnusedPeriods df)
    (hids : IdsOf df ids) (hpers : PeriodsOf df pers) (hn : (params.map Prod.fst).Nodup) (hn' : (params'.map Prod.fst).Nodup) (hval : ∀ l x, (l, x) ∈ params → x = val l) (hval' : ∀ l x, (l, x) ∈ params' → x = val' l)
    (hin : getMaximizationInputs m df = .ok inputs) (hin' : getMaximizationInputs m' df = .ok inputs') (hout : inputs.loglike qr custom nan m params = .ok out) (hout' : inputs'.loglike qr' custom' nan' m' params' = .ok out') :
    SameContributions ids pers df m m' out out' := by
  obtain ⟨a, ha, d, hd⟩ := density_of_values hqr hpm hm hna hg hkappa custom nan
  obtain ⟨b, hb, d', hd'⟩ := density_of_values hqr' hpm' hm' hna' hg' hkappa' custom' nan'
  have hd := hd val hv
  have hd' := hd' val' hv'
  have heq := fun cov (hone : ConstantIsOne m cov) y => density_same hsame hZ hZ' hlaw ha hb hone (hd.continuous cov) (hd'.continuous cov) (hd.pos cov) (hd'.pos cov) (hd.law cov) (hd'.law cov) y
  intro i cov y hil hdesc
  obtain ⟨h2, h3⟩ := hd.loglike df ids pers inputs params out hi hu hids hpers hn hval hin hout i cov y hil hdesc
  obtain ⟨h2', h3'⟩ := hd'.loglike df ids pers inputs' params' out' hi hu hids hpers hn' hval' hin' hout' i cov y hil (hsame.describes hdesc)
  have heq := heq cov (constant_of_describes (update_period hm) hdesc) y
  exact ⟨by rw [h2, h2', heq], fun hc hc' => by rw [h3 hc, h3' hc', heq]⟩

theorem contributions_same_of_anchored {E : Ω → Fin 1} {E' : Ω' → Fin 1} (hqr : ValidQR qr) (hqr' : ValidQR qr') (hpm : processModel m = .ok pm) (hpm' : processModel m' = .ok pm') (hm : LinearModel m 1)
    (hm' : LinearModel m' 1) (hg : GoodNames m) (hg' : GoodNames m') (hkappa : ∀ o x, m.estimationOptions = some o → o.sigmaPointsScale = some x → 0 ≤ x)
    (hkappa' : ∀ o x, m'.estimationOptions = some o → o.sigmaPointsScale = some x → 0 ≤ x) (hsame : SameVariables m m') (hv : ProperValues m 1 val) (hv' : ProperValues m' 1 val') (hZ : RandomNoise P val E Z) (hZ' : RandomNoise P' val' E' Z')
    (hlaw : SameDistribution P E Z P' E' Z' m val m' val') (custom custom' : String → CustomFn) (nan nan' : ℝ) (hi : IndexOk df) (hu : NoUnusedPeriods df)
    (hids : IdsOf df ids) (hpers : PeriodsOf df pers) (hn : (params.map Prod.fst).Nodup) (hn' : (params'.map Prod.fst).Nodup) (hval : ∀ l x, (l, x) ∈ params → x = val l) (hval' : ∀ l x, (l, x) ∈ params' → x = val' l)
    (hin : getMaximizationInputs m df = .ok inputs) (hin' : getMaximizationInputs m' df = .ok inputs') (hout : inputs.loglike qr custom nan m params = .ok out) (hout' : inputs'.loglike qr' custom' nan' m' params' = .ok out') :
    SameContributions ids pers df m m' out out' := by
  classical
  obtain ⟨a, ha, d, hd, hlaw1, hlog⟩ := C87_anchored_likelihood hqr hpm hm hg hkappa hv custom nan
  obtain ⟨b, hb, d', hd', hlaw1', hlog'⟩ := C87_anchored_likelihood hqr' hpm' hm' hg' hkappa' hv' custom' nan'
  have heq := fun cov (hone : ConstantIsOne m cov) y => density_same hsame hZ hZ' hlaw ha hb hone (hd cov).1 (hd' cov).1 (hd cov).2 (hd' cov).2 (hlaw1 cov) (hlaw1' cov) y
  obtain ⟨hl, hc⟩ := hlog df ids pers inputs params out hi hu hids hpers hn hval hin hout
  obtain ⟨hl', hc'⟩ := hlog' df ids pers inputs' params' out' hi hu hids hpers hn' hval' hin' hout'
  have hM : IsMeasurement m' = IsMeasurement m := by
    funext t v
    exact propext (hsame.measurements t v).symm
  rw [hM] at hc'
  have hmem : ∀ x, x ∈ a ↔ x ∈ b := fun x => by rw [ha.all x.1 x.2, hb.all x.1 x.2, hsame.isUpdate]
  set π := reindex ha.nodup hb.nodup hmem
  have hget : ∀ j, b.get (π j) = a.get j := reindex_get ha.nodup hb.nodup hmem
  intro i cov y hil hdesc
  obtain ⟨h1, h2, h3⟩ := hc i cov y hil hdesc
  obtain ⟨h1', h2', h3'⟩ := hc' i cov y hil (hsame.describes hdesc)
  have heq := fun p => heq (cov.only p) (constant_only (constant_of_describes (update_period hm) hdesc) p) y
  have hsum : ∑ j : Fin b.length, (out'.allContributions.getD j []).getD i 0 = ∑ j : Fin a.length, (out.allContributions.getD j []).getD i 0 := by
    have hsplit : ∀ {n : ℕ} (c : Fin n → ℝ) (p : Fin n → Prop), ∑ j, c j = (∑ j, if p j then c j else 0) + ∑ j, if p j then 0 else c j := by
      intro n c p
      rw [← Finset.sum_add_distrib]
      refine Finset.sum_congr rfl (fun j _ => ?_)
      split_ifs <;> simp
    rw [hsplit _ (fun j : Fin b.length => IsMeasurement m (b.get j).1 (b.get j).2), hsplit _ (fun j : Fin a.length => IsMeasurement m (a.get j).1 (a.get j).2), h1, h1']
    dsimp only
    rw [heq]
    congr 1
    rw [← Equiv.sum_comp π]
    refine Finset.sum_congr rfl (fun j _ => ?_)
    rw [hget]
    split_ifs with hj
    · rfl
    · have e := h2 j (a.get j).1 (a.get j).2 rfl hj
      have e' := h2' (π j) (a.get j).1 (a.get j).2 (hget j) hj
      dsimp only at e e'
      rw [e, e', heq, heq]
  have e : (out'.allContributions.map (fun row => row.getD i 0)).sum = (out.allContributions.map (fun row => row.getD i 0)).sum := by
    rw [sum_getD _ i hl, sum_getD _ i hl', hsum]
  exact ⟨e, fun hcl hcl' => by rw [h3 hcl, h3' hcl']; exact hsum⟩

/-- **C102.** Consider two model dictionaries about the same variables with linear or constant transition functions (with one mixture element if there is anchoring) and values of their parameters. If the data have the same distribution in the
statistical models that the user wrote down (for all values of the controls and observed factors and all patterns of missing values), then for every dataset the contributions of all measurements have the same sum for each
individual, and without clipping the contributions of all individuals and the values of the log likelihood are the same. So the log likelihood depends on models and parameters only through the distribution of the data, for any QR decompositions. -/
theorem C102_observational_equivalence (hqr : ValidQR qr) (hqr' : ValidQR qr') (hpm : processModel m = .ok pm) (hpm' : processModel m' = .ok pm') (hm : LinearModel m k)
    (hm' : LinearModel m' k') (hanch : (m.anchoring = none ∧ m'.anchoring = none) ∨ (k = 1 ∧ k' = 1)) (hg : GoodNames m) (hg' : GoodNames m') (hkappa : ∀ o x, m.estimationOptions = some o → o.sigmaPointsScale = some x → 0 ≤ x)
    (hkappa' : ∀ o x, m'.estimationOptions = some o → o.sigmaPointsScale = some x → 0 ≤ x) (hsame : SameVariables m m') (hv : ProperValues m k val) (hv' : ProperValues m' k' val') (hZ : RandomNoise P val E Z) (hZ' : RandomNoise P' val' E' Z')
    (hlaw : SameDistribution P E Z P' E' Z' m val m' val') (custom custom' : String → CustomFn) (nan nan' : ℝ) (hi : IndexOk df) (hu : NoUnusedPeriods df)
    (hids : IdsOf df ids) (hpers : PeriodsOf df pers) (hn : (params.map Prod.fst).Nodup) (hn' : (params'.map Prod.fst).Nodup) (hval : ∀ l x, (l, x) ∈ params → x = val l) (hval' : ∀ l x, (l, x) ∈ params' → x = val' l)
    (hin : getMaximizationInputs m df = .ok inputs) (hin' : getMaximizationInputs m' df = .ok inputs') (hout : inputs.loglike qr custom nan m params = .ok out) (hout' : inputs'.loglike qr' custom' nan' m' params' = .ok out') :
    (∀ (i : Nat) (cov : Covariates) (y : Nat → String → ℝ), i < ids.length → Describes m df ids pers i cov y →
      (out'.allContributions.map (fun row => row.getD i 0)).sum = (out.allContributions.map (fun row => row.getD i 0)).sum ∧
      (NoClipping m → NoClipping m' → out'.contributions.getD i 0 = out.contributions.getD i 0)) ∧
    (NoClipping m → NoClipping m' → (∀ i < ids.length, ∃ cov y, Describes m df ids pers i cov y) → out'.contributions = out.contributions ∧ out'.value = out.value) := by
  have h1 : SameContributions ids pers df m m' out out' := by
    rcases hanch with ⟨hna, hna'⟩ | ⟨rfl, rfl⟩
    · exact contributions_same_of_none hqr hqr' hpm hpm' hm hm' hna hna' hg hg' hkappa hkappa' hsame hv hv' hZ hZ' hlaw custom custom' nan nan' hi hu hids hpers hn hn' hval hval' hin hin' hout hout'
    · exact contributions_same_of_anchored hqr hqr' hpm hpm' hm hm' hg hg' hkappa hkappa' hsame hv hv' hZ hZ' hlaw custom custom' nan nan' hi hu hids hpers hn hn' hval hval' hin hin' hout hout'
  refine ⟨h1, fun hc hc' hall => ?_⟩
  have hT : ∀ {m : ModelDict ℝ} {pm : Processed ℝ} {k : ℕ}, processModel m = .ok pm → LinearModel m k → ∃ nT, pm.dimensions.nPeriods = nT + 2 := by
    intro m pm k hpm hm
    exact ⟨pm.dimensions.nPeriods - 2, by have := (isPeriod_iff hpm 1).mp hm.periods; omega⟩
  obtain ⟨nT, hnT⟩ := hT hpm hm
  obtain ⟨nT', hnT'⟩ := hT hpm' hm'
  obtain ⟨_, ⟨h4, h5⟩, _⟩ := loglike_contributions hqr hpm hm hg hkappa hv (hanch.imp And.left And.left) hnT custom nan hi hu hids hpers hn hval hin hout
  obtain ⟨_, ⟨h4', h5'⟩, _⟩ := loglike_contributions hqr' hpm' hm' hg' hkappa' hv' (hanch.imp And.right And.right) hnT' custom' nan' hi hu hids hpers hn' hval' hin' hout'
  have h6 : out'.contributions = out.contributions := by
    refine List.ext_getElem (by rw [h4, h4']) (fun i hi1 hi2 => ?_)
    obtain ⟨cov, y, hdesc⟩ := hall i (by omega)
    have := (h1 i cov y (by omega) hdesc).2 hc hc'
    rwa [List.getD_eq_getElem?_getD, List.getD_eq_getElem?_getD, List.getElem?_eq_getElem hi1, List.getElem?_eq_getElem hi2, Option.getD_some, Option.getD_some] at this
  exact ⟨h6, by rw [h5, h5', h6]⟩

/-- The shape of the output of `loglike`, and the clipping of contributions. -/
theorem output_shape (hpm : processModel m = .ok pm) (hm : LinearModel m k) (hg : GoodNames m) (custom : String → CustomFn) (nan : ℝ) (hi : IndexOk df) (hu : NoUnusedPeriods df) (hids : IdsOf df ids) (hpers : PeriodsOf df pers)
    (hn : (params.map Prod.fst).Nodup) (hval : ∀ l x, (l, x) ∈ params → x = val l) (hin : getMaximizationInputs m df = .ok inputs) (hout : inputs.loglike qr custom nan m params = .ok out) :
    out.allContributions.length = pm.updateInfo.length ∧ (∀ row ∈ out.allContributions, row.length = ids.length) ∧ out.contributions.length = ids.length ∧ out.value = out.contributions.sum ∧
      ∃ o, m.estimationOptions = some o ∧ ∀ i < ids.length, out.contributions.getD i 0 = (out.allContributions.map (fun row => clippedContribution o (row.getD i 0))).sum := by
  have hObs := length_controls hpm hm hg hi hu hids hpers hin
  obtain ⟨pm', nT', con, obs, data, r, hpm', hT', hdata, hcon, hobs, hmeas, hr, hpost⟩ := evaluate_explicit hg hm.anchoring.1 hm.anchoring.2.1 hin hn hval hout hObs
  obtain rfl := Except.ok.inj (hpm.symm.trans hpm')
  obtain rfl := Except.ok.inj hpost
  obtain ⟨h1, h2, h3⟩ := C40_value_is_sum hr
  obtain ⟨o, ho, _⟩ := C04_options hpm
  unfold LoglikeResult.output
  dsimp only
  refine ⟨by rw [List.length_map, h2, loopArgs_length _ _ (by simp), List.length_map], fun row hrow => ?_, by simp, by rw [h1, List.sum_ofFn], o, ho, fun i hi => ?_⟩
  · obtain ⟨x, _, rfl⟩ := List.mem_map.mp hrow
    simp
  · rw [List.getD_eq_getElem?_getD, List.getElem?_eq_getElem (by simpa using hi), Option.getD_some, List.getElem_ofFn, h3, List.map_map]
    congr 1
    refine List.map_congr_left (fun row _ => ?_)
    simp only [Function.comp_apply]
    rw [softClipping_user hpm ho, List.getD_eq_getElem?_getD, List.getElem?_eq_getElem (by simpa using hi), Option.getD_some, List.getElem_ofFn]

/-- The contribution of a single measurement is a difference of logarithms of densities. -/
theorem contribution_difference {updates : List (Nat × String)} (hnd : updates.Nodup) (c : Fin updates.length → ℝ) (J : Fin updates.length) (p1 p2 : Nat → String → Prop) [∀ t v, Decidable (p1 t v)] [∀ t v, Decidable (p2 t v)]
    (h1 : p1 (updates.get J).1 (updates.get J).2) (h2 : ¬p2 (updates.get J).1 (updates.get J).2) (h : ∀ j, j ≠ J → (p1 (updates.get j).1 (updates.get j).2 ↔ p2 (updates.get j).1 (updates.get j).2)) :
    c J = (∑ j, if p1 (updates.get j).1 (updates.get j).2 then c j else 0) - ∑ j, if p2 (updates.get j).1 (updates.get j).2 then c j else 0 := by
  rw [← Finset.sum_sub_distrib, Finset.sum_eq_single J]
  · rw [if_pos h1, if_neg h2, sub_zero]
  · intro j _ hj
    by_cases hp : p1 (updates.get j).1 (updates.get j).2
    · rw [if_pos hp, if_pos ((h j hj).mp hp), sub_self]
    · rw [if_neg hp, if_neg (fun h' => hp ((h j hj).mpr h')), sub_self]
  · simp

/-- The contribution of every single measurement is the same for all parameters that imply the same distribution of the data. -/
theorem contribution_same (hqr : ValidQR qr) (hqr' : ValidQR qr') (hpm : processModel m = .ok pm) (hm : LinearModel m k) (hanch : m.anchoring = none ∨ k = 1) (hg : GoodNames m)
    (hkappa : ∀ o x, m.estimationOptions = some o → o.sigmaPointsScale = some x → 0 ≤ x) {E' : Ω' → Fin k} (hv : ProperValues m k val) (hv' : ProperValues m k val') (hZ : RandomNoise P val E Z) (hZ' : RandomNoise P' val' E' Z')
    (hlaw : SameDistribution P E Z P' E' Z' m val m val') (custom custom' : String → CustomFn) (nan nan' : ℝ) (hi : IndexOk df) (hu : NoUnusedPeriods df)
    (hids : IdsOf df ids) (hpers : PeriodsOf df pers) (hn : (params.map Prod.fst).Nodup) (hn' : (params'.map Prod.fst).Nodup) (hval : ∀ l x, (l, x) ∈ params → x = val l) (hval' : ∀ l x, (l, x) ∈ params' → x = val' l)
    (hin : getMaximizationInputs m df = .ok inputs) (hout : inputs.loglike qr custom nan m params = .ok out) (hout' : inputs.loglike qr' custom' nan' m params' = .ok out') (i : Nat) (cov : Covariates) (y : Nat → String → ℝ) (hil : i < ids.length)
    (hdesc : Describes m df ids pers i cov y) (j : ℕ) (hj : j < pm.updateInfo.length) : (out'.allContributions.getD j []).getD i 0 = (out.allContributions.getD j []).getD i 0 := by
  classical
  obtain ⟨nT, hT⟩ : ∃ nT, pm.dimensions.nPeriods = nT + 2 := ⟨pm.dimensions.nPeriods - 2, by have := (isPeriod_iff hpm 1).mp hm.periods; omega⟩
  obtain ⟨hu1, hu2, _⟩ := C01_update_info_exact hpm
  set updates := pm.updateInfo.map (fun r => (r.period, r.var)) with hupd
  have hlen : ∀ custom val cov, (covSteps custom m pm val nT cov).length = updates.length := fun custom val cov => by rw [covSteps_length, hupd, List.length_map]
  have hen : Enumerates m updates := ⟨hu1, fun t v => by rw [← hu2]; simp [hupd, List.mem_map]⟩
  have hsame : SameVariables m m := ⟨fun _ => Iff.rfl, fun _ _ => Iff.rfl, fun _ _ => Iff.rfl, fun _ => Iff.rfl, fun _ => Iff.rfl⟩
  have hcont : ∀ custom val cov, Continuous (fun y : Fin updates.length → ℝ => covDensity custom m pm val nT cov (fun j => y (Fin.cast (hlen custom val cov) j))) := fun custom val cov =>
    (continuous_covDensity hm hg hpm nT custom cov).comp (continuous_pi (fun j => continuous_apply (Fin.cast (hlen custom val cov) j)))
  have heq : ∀ cov, ConstantIsOne m cov → covDensity custom m pm val nT cov (fun j => observedData updates cov y (Fin.cast (hlen custom val cov) j)) =
      covDensity custom' m pm val' nT cov (fun j => observedData updates cov y (Fin.cast (hlen custom' val' cov) j)) := fun cov hone =>
    density_same hsame hZ hZ' hlaw hen hen hone (hcont custom val cov) (hcont custom' val' cov) (fun y => covDensity_pos hm hv hpm nT custom cov _) (fun y => covDensity_pos hm hv' hpm nT custom' cov _)
      (fun P _ E Z hZ => label_law hm hg hv hpm hT custom cov rfl (hlen custom val cov) hZ) (fun P _ E Z hZ => label_law hm hg hv' hpm hT custom' cov rfl (hlen custom' val' cov) hZ) y
  have hone := constant_of_describes (update_period hm) hdesc
  obtain ⟨h1, _⟩ := (loglike_contributions hqr hpm hm hg hkappa hv hanch hT custom nan hi hu hids hpers hn hval hin hout).2.2 i cov y hil hdesc
  obtain ⟨h1', _⟩ := (loglike_contributions hqr' hpm hm hg hkappa hv' hanch hT custom' nan' hi hu hids hpers hn' hval' hin hout').2.2 i cov y hil hdesc
  have hjl : j < updates.length := by rw [hupd, List.length_map]; exact hj
  let p2 : Nat → String → Prop := fun s w => ∃ a < j, updates[a]? = some (s, w) ∧ IsMeasurement m s w
  let p1 : Nat → String → Prop := fun s w => p2 s w ∨ updates[j]? = some (s, w)
  have hrow : ∀ {a : ℕ} {r : URow}, pm.updateInfo[a]? = some r → updates[a]? = some (r.period, r.var) := by
    intro a r hr
    rw [hupd, List.getElem?_map, hr]
    rfl
  have hinj : ∀ {a b : ℕ} {x : Nat × String}, updates[a]? = some x → updates[b]? = some x → a = b := by
    intro a b x ha hb
    obtain ⟨ha', ha⟩ := List.getElem?_eq_some_iff.mp ha
    obtain ⟨hb', hb⟩ := List.getElem?_eq_some_iff.mp hb
    exact (List.getElem_inj hu1).mp (ha.trans hb.symm)
  have hp2 : ∀ a r, pm.updateInfo[a]? = some r → (a < j → (p2 r.period r.var ↔ IsMeasurement m r.period r.var)) ∧ (j < a → ¬p2 r.period r.var) := by
    intro a r hr
    refine ⟨fun ha => ⟨fun ⟨_, _, _, h⟩ => h, fun h => ⟨a, ha, hrow hr, h⟩⟩, ?_⟩
    rintro ha ⟨b, hb, hb', _⟩
    have := hinj hb' (hrow hr)
    omega
  have hp1 : ∀ a r, pm.updateInfo[a]? = some r → (a < j → (p1 r.period r.var ↔ IsMeasurement m r.period r.var)) ∧ (j < a → ¬p1 r.period r.var) := by
    intro a r hr
    obtain ⟨b1, b2⟩ := hp2 a r hr
    refine ⟨fun ha => ⟨fun h => h.elim (b1 ha).mp (fun h => ?_), fun h => Or.inl ((b1 ha).mpr h)⟩, fun ha h => h.elim (b2 ha) (fun h => ?_)⟩
    · have := hinj h (hrow hr)
      omega
    · have := hinj h (hrow hr)
      omega
  have hget : ∀ a : Fin updates.length, updates[a.val]? = some ((updates.get a).1, (updates.get a).2) := fun a => by simp
  have hdiff := fun (out : LoglikeOutput) => contribution_difference hu1 (fun a : Fin updates.length => (out.allContributions.getD a []).getD i 0) ⟨j, hjl⟩ p1 p2 (Or.inr (hget ⟨j, hjl⟩))
    (by
      rintro ⟨a, ha, ha', _⟩
      have : a = j := hinj ha' (hget ⟨j, hjl⟩)
      omega)
    (by
      intro a ha
      refine ⟨fun h => h.elim id (fun h => ?_), Or.inl⟩
      exact absurd (Fin.ext (hinj (hget a) h)) ha)
  have e : ∀ out : LoglikeOutput, (out.allContributions.getD j []).getD i 0 = _ := hdiff
  rw [e out, e out', h1 p1 j hp1 _ (hlen custom val _), h1 p2 j hp2 _ (hlen custom val _), h1' p1 j hp1 _ (hlen custom' val' _), h1' p2 j hp2 _ (hlen custom' val' _),
    heq _ (constant_only hone p1), heq _ (constant_only hone p2)]

/-- **C102, same model.** If two sets of values of the parameters of the same model imply the same distribution of the data then `loglike` returns the same results for both, for every dataset, with and without clipping: the
contribution of each single measurement, the (clipped) contribution of each individual and the value are the same. -/
theorem C102_same_model (hqr : ValidQR qr) (hqr' : ValidQR qr') (hpm : processModel m = .ok pm) (hm : LinearModel m k) (hanch : m.anchoring = none ∨ k = 1) (hg : GoodNames m)
    (hkappa : ∀ o x, m.estimationOptions = some o → o.sigmaPointsScale = some x → 0 ≤ x) {E' : Ω' → Fin k} (hv : ProperValues m k val) (hv' : ProperValues m k val') (hZ : RandomNoise P val E Z) (hZ' : RandomNoise P' val' E' Z')
    (hlaw : SameDistribution P E Z P' E' Z' m val m val') (custom custom' : String → CustomFn) (nan nan' : ℝ) (hi : IndexOk df) (hu : NoUnusedPeriods df)
    (hids : IdsOf df ids) (hpers : PeriodsOf df pers) (hn : (params.map Prod.fst).Nodup) (hn' : (params'.map Prod.fst).Nodup) (hval : ∀ l x, (l, x) ∈ params → x = val l) (hval' : ∀ l x, (l, x) ∈ params' → x = val' l)
    (hin : getMaximizationInputs m df = .ok inputs) (hout : inputs.loglike qr custom nan m params = .ok out) (hout' : inputs.loglike qr' custom' nan' m params' = .ok out') :
    (∀ (i : Nat) (cov : Covariates) (y : Nat → String → ℝ), i < ids.length → Describes m df ids pers i cov y →
      (∀ j, (out'.allContributions.getD j []).getD i 0 = (out.allContributions.getD j []).getD i 0) ∧ out'.contributions.getD i 0 = out.contributions.getD i 0) ∧
    ((∀ i < ids.length, ∃ cov y, Describes m df ids pers i cov y) → out' = out) := by
  obtain ⟨a1, a2, a3, a4, o, ho, a5⟩ := output_shape hpm hm hg custom nan hi hu hids hpers hn hval hin hout
  obtain ⟨b1, b2, b3, b4, o', ho', b5⟩ := output_shape hpm hm hg custom' nan' hi hu hids hpers hn' hval' hin hout'
  obtain rfl := Option.some.inj (ho.symm.trans ho')
  have h : ∀ (i : Nat) (cov : Covariates) (y : Nat → String → ℝ), i < ids.length → Describes m df ids pers i cov y →
      (∀ j, (out'.allContributions.getD j []).getD i 0 = (out.allContributions.getD j []).getD i 0) ∧ out'.contributions.getD i 0 = out.contributions.getD i 0 := by
    intro i cov y hil hdesc
    have hj : ∀ j, (out'.allContributions.getD j []).getD i 0 = (out.allContributions.getD j []).getD i 0 := by
      intro j
      by_cases hj : j < pm.updateInfo.length
      · exact contribution_same hqr hqr' hpm hm hanch hg hkappa hv hv' hZ hZ' hlaw custom custom' nan nan' hi hu hids hpers hn hn' hval hval' hin hout hout' i cov y hil hdesc j hj
      · rw [List.getD_eq_getElem?_getD (l := out'.allContributions), List.getD_eq_getElem?_getD (l := out.allContributions), List.getElem?_eq_none (by omega), List.getElem?_eq_none (by omega)]
    refine ⟨hj, ?_⟩
    rw [a5 i hil, b5 i hil]
    congr 1
    refine List.ext_getElem (by simp [a1, b1]) (fun j h1 h2 => ?_)
    have hj := hj j
    rw [List.length_map] at h1 h2
    rw [List.getD_eq_getElem?_getD (l := out'.allContributions), List.getD_eq_getElem?_getD (l := out.allContributions), List.getElem?_eq_getElem h1, List.getElem?_eq_getElem h2, Option.getD_some, Option.getD_some] at hj
    rw [List.getElem_map, List.getElem_map, hj]
  refine ⟨h, fun hall => ?_⟩
  have hc : out'.contributions = out.contributions := by
    refine List.ext_getElem (by rw [a3, b3]) (fun i hi1 hi2 => ?_)
    obtain ⟨cov, y, hdesc⟩ := hall i (by omega)
    have := (h i cov y (by omega) hdesc).2
    rwa [List.getD_eq_getElem?_getD, List.getD_eq_getElem?_getD, List.getElem?_eq_getElem hi1, List.getElem?_eq_getElem hi2, Option.getD_some, Option.getD_some] at this
  have hall' : out'.allContributions = out.allContributions := by
    refine List.ext_getElem (by rw [a1, b1]) (fun j hj1 hj2 => ?_)
    have r1 := a2 _ (List.getElem_mem hj2)
    have r2 := b2 _ (List.getElem_mem hj1)
    refine List.ext_getElem (by rw [r1, r2]) (fun i hi1 hi2 => ?_)
    obtain ⟨cov, y, hdesc⟩ := hall i (by omega)
    have hj := (h i cov y (by omega) hdesc).1 j
    rwa [List.getD_eq_getElem?_getD (l := out'.allContributions), List.getD_eq_getElem?_getD (l := out.allContributions), List.getElem?_eq_getElem hj1, List.getElem?_eq_getElem hj2, Option.getD_some, Option.getD_some,
      List.getD_eq_getElem?_getD, List.getD_eq_getElem?_getD, List.getElem?_eq_getElem hi1, List.getElem?_eq_getElem hi2, Option.getD_some, Option.getD_some] at hj
  have hvalue : out'.value = out.value := by rw [a4, b4, hc]
  cases out
  cases out'
  simp only at hc hall' hvalue
  rw [hc, hall', hvalue]
end

end Skill
