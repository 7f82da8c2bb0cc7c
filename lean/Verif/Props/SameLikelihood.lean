import Verif.Lemmas.BuiltData
import Verif.Props.Pipeline2

/-
C106: parameters that have the same log likelihood for all datasets imply the same distribution of the data.
-/
namespace Skill
open Matrix MeasureTheory ProbabilityTheory Spec

/-- Almost all points of the reference measure are the data of an individual. -/
theorem ae_observed {a : List (Nat × String)} (ha : a.Nodup) (cov : Covariates) : ∀ᵐ y ∂referenceMeasure a cov, ∃ x, observedData a cov x = y := by
  have hsf : ∀ j : Fin a.length, SigmaFinite (if cov.isObserved (a.get j).1 (a.get j).2 then volume else Measure.dirac (0 : ℝ)) := by
    intro j
    split <;> infer_instance
  have h : ∀ᵐ y ∂referenceMeasure a cov, ∀ j : Fin a.length, cov.isObserved (a.get j).1 (a.get j).2 = false → y j = 0 := by
    rw [ae_all_iff]
    intro j
    unfold referenceMeasure
    refine (Measure.quasiMeasurePreserving_eval (μ := fun k : Fin a.length => if cov.isObserved (a.get k).1 (a.get k).2 then volume else Measure.dirac (0 : ℝ)) j).ae (p := fun x => cov.isObserved (a.get j).1 (a.get j).2 = false → x = 0) ?_
    cases ho : cov.isObserved (a.get j).1 (a.get j).2 with
    | true => simp
    | false => simp [ae_dirac_eq]
  filter_upwards [h] with y hy
  refine ⟨fun t v => if h : (t, v) ∈ a then y ⟨a.idxOf (t, v), List.idxOf_lt_length_iff.mpr h⟩ else 0, ?_⟩
  funext j
  unfold observedData
  split_ifs with ho
  · dsimp only
    rw [dif_pos (show ((a.get j).1, (a.get j).2) ∈ a from List.get_mem a j)]
    congr 1
    refine Fin.ext ?_
    exact List.get_idxOf ha j
  · exact (hy j (by simpa using ho)).symm

/-- Two laws with proportional densities. -/
theorem law_eq_of_density {Ω Ω' : Type} [MeasurableSpace Ω] [MeasurableSpace Ω'] {P : Measure Ω} {P' : Measure Ω'} [IsProbabilityMeasure P] [IsProbabilityMeasure P'] {a b u : List (Nat × String)} (ha : a.Nodup) (hb : b.Nodup)
    (hu : u.Nodup) (hab : ∀ x, x ∈ a ↔ x ∈ b) (hau : ∀ x, x ∈ a ↔ x ∈ u) (cov : Covariates) {Y : Ω → Nat → String → ℝ} {Y' : Ω' → Nat → String → ℝ} (hY : ∀ l, Measurable (fun ω => observedData l cov (Y ω)))
    (hY' : ∀ l, Measurable (fun ω => observedData l cov (Y' ω))) {d : (Fin a.length → ℝ) → ℝ} {d' : (Fin b.length → ℝ) → ℝ} (hd' : Continuous d') {C : ℝ} (hC : 0 < C)
    (hl : P.map (fun ω => observedData a cov (Y ω)) = (referenceMeasure a cov).withDensity (fun y => ENNReal.ofReal (d y)))
    (hl' : P'.map (fun ω => observedData b cov (Y' ω)) = (referenceMeasure b cov).withDensity (fun y => ENNReal.ofReal (d' y))) (heq : ∀ y, d (observedData a cov y) = C * d' (observedData b cov y)) :
    P.map (fun ω => observedData u cov (Y ω)) = P'.map (fun ω => observedData u cov (Y' ω)) := by
  obtain ⟨T, hTc, hmp, hTo⟩ := exists_reorder ha hb hab cov
  obtain ⟨S, _, _, hSo⟩ := exists_reorder ha hu hau cov
  have hl' := law_reorder hmp hTo (hY' a) (hY' b) hd' hl'
  have hmd : Measurable (fun y => ENNReal.ofReal (d' (T y))) := ENNReal.measurable_ofReal.comp (hd'.measurable.comp T.measurable)
  have hscale : P.map (fun ω => observedData a cov (Y ω)) = ENNReal.ofReal C • P'.map (fun ω => observedData a cov (Y' ω)) := by
    rw [hl, hl', ← withDensity_smul _ hmd]
    refine withDensity_congr_ae ?_
    filter_upwards [ae_observed ha cov] with y hy
    obtain ⟨x, rfl⟩ := hy
    rw [heq, Pi.smul_apply, smul_eq_mul, ENNReal.ofReal_mul hC.le, hTo]
  have hprob : IsProbabilityMeasure (P.map (fun ω => observedData a cov (Y ω))) := Measure.isProbabilityMeasure_map (hY a).aemeasurable
  have hprob' : IsProbabilityMeasure (P'.map (fun ω => observedData a cov (Y' ω))) := Measure.isProbabilityMeasure_map (hY' a).aemeasurable
  have hone : ENNReal.ofReal C = 1 := by
    have := congrArg (fun μ => μ Set.univ) hscale
    simp only [Measure.smul_apply, measure_univ, smul_eq_mul, mul_one] at this
    exact this.symm
  rw [hone, one_smul] at hscale
  have hcomp : ∀ {Ω : Type} [MeasurableSpace Ω] {P : Measure Ω} {Y : Ω → Nat → String → ℝ}, Measurable (fun ω => observedData a cov (Y ω)) →
      P.map (fun ω => observedData u cov (Y ω)) = (P.map (fun ω => observedData a cov (Y ω))).map S := by
    intro Ω _ P Y hY
    rw [Measure.map_map S.measurable hY]
    congr 1
    funext ω
    exact (hSo _).symm
  rw [hcomp (hY a), hcomp (hY' a), hscale]

/-- The same covariates, with the constant equal to one. -/
def withConstant (cov : Covariates) : Covariates := { cov with control := fun t c => if c = "constant" then 1 else cov.control t c }

theorem withConstant_states (m : ModelDict ℝ) (val : Loc → ℝ) (cov : Covariates) (e : ℕ) (z : Noise → ℝ) (t : ℕ) : latentStates m val (withConstant cov) e z t = latentStates m val cov e z t := by
  induction t with
  | zero => rfl
  | succ t ih =>
    funext f
    simp only [latentStates]
    rw [ih]
    rfl

theorem withConstant_data {m m' : ModelDict ℝ} {updates : List (Nat × String)} (hu : ∀ t v, (t, v) ∈ updates → IsUpdate m' t v) {cov : Covariates} (hone : ConstantIsOne m' cov) (val : Loc → ℝ) (e : ℕ) (z : Noise → ℝ) :
    observedData updates (withConstant cov) (measurementValue m val (withConstant cov) e z) = observedData updates cov (measurementValue m val cov e z) := by
  funext j
  unfold observedData
  show (if cov.isObserved (updates.get j).1 (updates.get j).2 then _ else _) = _
  split_ifs with ho
  · have hc := hone _ _ (hu _ _ (List.get_mem updates j)) ho
    unfold measurementValue
    have h : ∀ c, (withConstant cov).control (updates.get j).1 c = cov.control (updates.get j).1 c := by
      intro c
      unfold withConstant
      dsimp only
      split_ifs with h
      · rw [h, hc]
      · rfl
    simp only [h, withConstant_states]
  · rfl

/-- The likelihood of a linear model can be evaluated at all values of parameters. -/
theorem linear_evaluates (qr : QR) {m : ModelDict ℝ} {pm : Processed ℝ} {k : ℕ} (hk : k ≠ 0) (hpm : processModel m = .ok pm) (hg : GoodNames m) (hm : LinearModel m k) (hq : ∀ f, IsLatent m f → querySafe f)
    {df : LongData ℝ} (hi : IndexOk df) (hu : NoUnusedPeriods df) {ids pers : List Int} (hids : IdsOf df ids) (hpers : PeriodsOf df pers) (hdata : DataOk m df ids pers) (custom : String → CustomFn) (nan : ℝ) (val : Loc → ℝ) :
    ∃ (inputs : MaximizationInputs) (params : List (Loc × ℝ)) (out : LoglikeOutput), getMaximizationInputs m df = .ok inputs ∧ inputs.loglike qr custom nan m params = .ok out ∧
      (params.map Prod.fst).Nodup ∧ (∀ l x, (l, x) ∈ params → x = val l) := by
  obtain ⟨inputs, updates, hin, _, hout⟩ := C70_likelihood_evaluates qr hpm hg hm.anchoring.1 hm.anchoring.2.1 hm.anchoring.2.2 hq hm.periods hm.mixture (hm.single.imp id (fun h => ⟨hk, h⟩)) hi hu hids hpers hdata
  have hix : inputs.index = pm.paramsIndex := by
    have h := hin
    unfold getMaximizationInputs at h
    simp only [py_bind_ok, py_pure_ok] at h
    obtain ⟨pm', hpm', _, _, _, _, _, _, rfl⟩ := h
    rw [hpm] at hpm'
    cases hpm'
    rfl
  have hfst : (inputs.index.map (fun l => (l, val l))).map Prod.fst = inputs.index := by rw [List.map_map]; exact List.map_id _
  have hnd : inputs.index.Nodup := by rw [hix]; exact C06_index_unique_partial hpm hg
  have hvals : ∀ l x, (l, x) ∈ inputs.index.map (fun l => (l, val l)) → x = val l := by
    intro l x h
    obtain ⟨l', _, h⟩ := List.mem_map.mp h
    rw [Prod.mk.injEq] at h
    rw [← h.1, ← h.2]
  obtain ⟨out, hout, _⟩ := hout custom nan _ val (by rw [hfst]; exact hnd) (fun l => by rw [hfst]) hvals (by
    rintro ⟨f, spec⟩ hmem
    rcases hm.transitions f spec hmem with h | h <;> rw [h] <;> exact ⟨rfl, fun h => by simp at h⟩)
  exact ⟨inputs, _, out, hin, hout, by rw [hfst]; exact hnd, hvals⟩

/-- An individual without missing values. -/
def completeCov : Covariates := { control := fun _ _ => 1, factor := fun _ _ => 0, isObserved := fun _ _ => true }

/-- Three individuals: the first one has the given data, the others make sure that all measurements have different values. -/
noncomputable def threePersons (cov : Covariates) (y : Nat → String → ℝ) (i : ℕ) : Person := if i = 0 then (cov, y) else (completeCov, fun _ _ => (i : ℝ))

section
variable {qr qr' : QR} {m m' : ModelDict ℝ} {pm pm' : Processed ℝ} {k k' : ℕ} {val val' : Loc → ℝ}
  {Ω Ω' : Type} [MeasurableSpace Ω] [MeasurableSpace Ω'] {P : Measure Ω} {P' : Measure Ω'} [IsProbabilityMeasure P] [IsProbabilityMeasure P'] {E : Ω → Fin k} {E' : Ω' → Fin k'} {Z : Noise → Ω → ℝ} {Z' : Noise → Ω' → ℝ}

/-- **C106.** Consider two model dictionaries about the same variables without anchoring, with linear or constant transition functions and without clipping, and values of their parameters. The values of the two log likelihood functions are the
same for all datasets if and only if the data have the same distribution in the statistical models that the user wrote down. So maximization of the likelihood can tell parameters apart whenever their implications for the data differ. -/
theorem C106_same_likelihood_iff (hqr : ValidQR qr) (hqr' : ValidQR qr') (hpm : processModel m = .ok pm) (hpm' : processModel m' = .ok pm') (hm : LinearModel m k) (hm' : LinearModel m' k') (hna : m.anchoring = none)
    (hna' : m'.anchoring = none) (hg : GoodNames m) (hg' : GoodNames m') (hq : ∀ f, IsLatent m f → querySafe f) (hq' : ∀ f, IsLatent m' f → querySafe f) (hc : NoClipping m) (hc' : NoClipping m')
    (hkappa : ∀ o x, m.estimationOptions = some o → o.sigmaPointsScale = some x → 0 ≤ x) (hkappa' : ∀ o x, m'.estimationOptions = some o → o.sigmaPointsScale = some x → 0 ≤ x) (hsame : SameVariables m m')
    (hsep : SeparateColumns m) (hv : ProperValues m k val) (hv' : ProperValues m' k' val') (hZ : RandomNoise P val E Z) (hZ' : RandomNoise P' val' E' Z') (custom custom' : String → CustomFn) (nan nan' : ℝ) :
    SameDistribution P E Z P' E' Z' m val m' val' ↔
      ∀ (df : LongData ℝ) (ids pers : List Int) (inputs inputs' : MaximizationInputs) (params params' : List (Loc × ℝ)) (out out' : LoglikeOutput), IndexOk df → NoUnusedPeriods df → IdsOf df ids → PeriodsOf df pers →
        DataOk m df ids pers → (∀ i < ids.length, ∃ cov y, Describes m df ids pers i cov y) → (params.map Prod.fst).Nodup → (params'.map Prod.fst).Nodup → (∀ l x, (l, x) ∈ params → x = val l) →
        (∀ l x, (l, x) ∈ params' → x = val' l) → getMaximizationInputs m df = .ok inputs → getMaximizationInputs m' df = .ok inputs' → inputs.loglike qr custom nan m params = .ok out →
        inputs'.loglike qr' custom' nan' m' params' = .ok out' → out'.value = out.value := by
  constructor
  · intro hlaw df ids pers inputs inputs' params params' out out' hi hu hids hpers _ hall hn hn' hval hval' hin hin' hout hout'
    exact ((C102_observational_equivalence hqr hqr' hpm hpm' hm hm' (Or.inl ⟨hna, hna'⟩) hg hg' hkappa hkappa' hsame hv hv' hZ hZ' hlaw custom custom' nan nan' hi hu hids hpers hn hn' hval hval' hin hin' hout hout').2 hc hc' hall).2
  intro h u hu cov hone
  obtain ⟨a, ha, d, hd⟩ := density_of_values hqr hpm hm hna hg hkappa custom nan
  obtain ⟨b, hb, d', hd'⟩ := density_of_values hqr' hpm' hm' hna' hg' hkappa' custom' nan'
  have hd := hd val hv
  have hd' := hd' val' hv'
  have hkpos : ∀ {m : ModelDict ℝ} {k : ℕ} {val : Loc → ℝ}, ProperValues m k val → k ≠ 0 := by
    rintro m k val hv rfl
    have := hv.sum
    simp at this
  obtain ⟨n, hn, h1n⟩ := hm.periods
  have hper : ∀ t, IsPeriod m t → t < n := by
    intro t ht
    rw [isPeriod_iff hpm] at ht
    have := (isPeriod_iff hpm (n - 1)).mp ⟨n, hn, by omega⟩
    by_contra hlt
    obtain ⟨n', hn', h⟩ := (isPeriod_iff hpm t).mpr ht
    have heq : n' = n := le_antisymm (by
      obtain ⟨f, spec, hf, hl⟩ := hn'.1
      rw [← hl]
      exact hn.2 f spec hf) (by
      obtain ⟨f, spec, hf, hl⟩ := hn.1
      rw [← hl]
      exact hn'.2 f spec hf)
    omega
  -- the log densities differ by a constant
  have hkey : ∃ C : ℝ, ∀ (cov : Covariates) (y : Nat → String → ℝ), (∀ t, cov.control t "constant" = 1) → Real.log (d val cov (observedData a cov y)) = C + Real.log (d' val' cov (observedData b cov y)) := by
    obtain ⟨one, hone1⟩ : ∃ one : Covariates, ∀ cov y (i : ℕ), i ≠ 0 → threePersons cov y i = (one, fun _ _ => (i : ℝ)) := ⟨completeCov, fun cov y i hi => if_neg hi⟩
    refine ⟨Real.log (d' val' one (observedData b one (fun _ _ => 1))) + Real.log (d' val' one (observedData b one (fun _ _ => 2))) - Real.log (d val one (observedData a one (fun _ _ => 1))) -
      Real.log (d val one (observedData a one (fun _ _ => 2))), fun cov y hcov => ?_⟩
    have hcon : ∀ i t, (threePersons cov y i).1.control t "constant" = 1 := by
      intro i t
      unfold threePersons
      split_ifs
      · exact hcov t
      · rfl
    set df := builtData m a (threePersons cov y) 3 n with hdf
    have hi : IndexOk df := built_index
    have hu : NoUnusedPeriods df := built_noUnused (by omega)
    have hids : IdsOf df (countTo 3) := built_ids (by omega)
    have hpers : PeriodsOf df (countTo n) := built_periods (by omega)
    have hok : DataOk m df (countTo 3) (countTo n) := built_ok hna hsep hcon ha (update_period hm) hper (i := 1) (j := 2) (by omega) (by omega) (fun t v _ => by simp [threePersons, completeCov])
    obtain ⟨inputs, params, out, hin, hout, hnd, hval⟩ := linear_evaluates qr (hkpos hv) hpm hg hm hq hi hu hids hpers hok custom nan val
    obtain ⟨inputs', params', out', hin', hout', hnd', hval'⟩ := linear_evaluates qr' (hkpos hv') hpm' hg' hm' hq' hi hu hids hpers (hsame.dataOk hok) custom' nan' val'
    have hdesc : ∀ i < 3, Describes m df (countTo 3) (countTo n) i (threePersons cov y i).1 (threePersons cov y i).2 := fun i hi => built_describes hna hsep hcon hper hi
    have heq := h df (countTo 3) (countTo n) inputs inputs' params params' out out' hi hu hids hpers hok (fun i hi => ⟨_, _, hdesc i (by rwa [countTo_length] at hi)⟩) hnd hnd' hval hval' hin hin' hout hout'
    have hcontr := fun i hi3 => (hd.loglike df _ _ inputs params out hi hu hids hpers hnd hval hin hout i _ _ (by rwa [countTo_length]) (hdesc i hi3)).2 hc
    have hcontr' := fun i hi3 => (hd'.loglike df _ _ inputs' params' out' hi hu hids hpers hnd' hval' hin' hout' i _ _ (by rwa [countTo_length]) (hsame.describes (hdesc i hi3))).2 hc'
    obtain ⟨hl, hvsum⟩ := hd.value df _ _ inputs params out hi hu hids hpers hnd hval hin hout
    obtain ⟨hl', hvsum'⟩ := hd'.value df _ _ inputs' params' out' hi hu hids hpers hnd' hval' hin' hout'
    rw [countTo_length] at hl hl'
    have hsum3 : ∀ l : List ℝ, l.length = 3 → l.sum = l.getD 0 0 + l.getD 1 0 + l.getD 2 0 := by
      intro l hl
      obtain ⟨x, y, z, rfl⟩ := List.length_eq_three.mp hl
      simp [add_assoc]
    rw [hvsum, hvsum', hsum3 _ hl, hsum3 _ hl', hcontr 0 (by omega), hcontr 1 (by omega), hcontr 2 (by omega), hcontr' 0 (by omega), hcontr' 1 (by omega), hcontr' 2 (by omega)] at heq
    rw [hone1 cov y 1 (by omega), hone1 cov y 2 (by omega)] at heq
    have h0 : threePersons cov y 0 = (cov, y) := if_pos rfl
    rw [h0] at heq
    push_cast at heq
    linarith
  obtain ⟨C, hkey⟩ := hkey
  have hmeas : ∀ {Ω : Type} [MeasurableSpace Ω] {P : Measure Ω} {k : ℕ} {E : Ω → Fin k} {Z : Noise → Ω → ℝ} {val : Loc → ℝ} (m : ModelDict ℝ) (cov : Covariates), RandomNoise P val E Z → ∀ u,
      Measurable (fun ω => observedData u cov (measurementValue m val cov (E ω) (fun j => Z j ω))) := fun m cov hZ u =>
    (measurable_observed m _ cov u).comp (hZ.measurable_element.prodMk (measurable_pi_iff.mpr hZ.measurable))
  have hmain := law_eq_of_density (P := P) (P' := P') (u := u) ha.nodup hb.nodup hu.nodup (fun x => by rw [ha.all x.1 x.2, hb.all x.1 x.2, hsame.isUpdate]) (fun x => by rw [ha.all x.1 x.2, hu.all x.1 x.2]) (withConstant cov)
    (hmeas m (withConstant cov) hZ) (hmeas m' (withConstant cov) hZ') (hd'.continuous (withConstant cov)) (Real.exp_pos C) (hd.law _ P E Z hZ) (hd'.law _ P' E' Z' hZ') (fun y => by
      have := hkey (withConstant cov) y (fun t => by simp [withConstant])
      rw [← Real.exp_log (hd.pos (withConstant cov) (observedData a (withConstant cov) y)), this, Real.exp_add, Real.exp_log (hd'.pos _ _)])
  simp only [withConstant_data (fun t v hmem => (hu.all t v).mp hmem) hone] at hmain
  exact hmain

end

end Skill
