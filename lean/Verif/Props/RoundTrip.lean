import Verif.Lemmas.RoundTrip
import Verif.Props.SimulatedLikelihood
import Verif.Props.Pipeline2
/-
A simulated dataset as the data of an estimation.
-/
namespace Skill
open MeasureTheory ProbabilityTheory Spec

/-- C93: a simulated dataset of a model without anchoring, control variables and observed factors, with the index that process_data needs, has all individuals and periods. It can be used to estimate the model exactly if each
measurement has two different values in each period, and then all measurements of all individuals are observed with the simulated values. -/
theorem C93_simulated_data_accepted {m : ModelDict ℝ} {pm : Processed ℝ} (hpm : processModel m = .ok pm) (hna : m.anchoring = none) (hcon : m.controls.getD [] = []) (hobs : m.observedFactors.getD [] = [])
    (hno : ∀ t v, IsUpdate m t v → v ≠ "constant") (hper : IsPeriod m 0) {val : Loc → ℝ} {n : Nat} (hn : 0 < n) {x : Nat → Cell m → ℝ} {out : SimulatedDataset} (h : DatasetIs m val n x out) :
    ∃ ids pers, ids.length = n ∧ IndexOk (asDataset out.measurements) ∧ NoUnusedPeriods (asDataset out.measurements) ∧ IdsOf (asDataset out.measurements) ids ∧ PeriodsOf (asDataset out.measurements) pers ∧
      (DataOk m (asDataset out.measurements) ids pers ↔ ∀ c : {p : Nat × String // IsUpdate m p.1 p.2}, ∃ i < n, ∃ j < n, x i (.inr c) ≠ x j (.inr c)) ∧
      ∀ i < n, ∀ (cov : Covariates) (y : Nat → String → ℝ), (∀ t v, IsUpdate m t v → cov.isObserved t v = true) → (∀ t, IsPeriod m t → cov.control t "constant" = 1) → (∀ c, y c.1.1 c.1.2 = x i (.inr c)) →
        Describes m (asDataset out.measurements) ids pers i cov y := by
  refine ⟨numbers n, numbers pm.dimensions.nPeriods, numbers_length n, (simulated_index hpm h).1, (simulated_index hpm h).2, simulated_ids hpm h hper, simulated_periods hpm h hn, ⟨fun hok c => ?_, fun hdist => ?_⟩, ?_⟩
  · by_contra hall
    push Not at hall
    refine (hok.measurements _ _ c.2).2 ⟨x 0 (.inr c), fun y' => ⟨?_, ?_⟩⟩
    · rintro ⟨i, hv⟩
      have hi : i < n := by have := hv.1; rwa [numbers_length] at this
      rw [simulated_hasValue hpm h hna hno hi c] at hv
      rw [Option.some.inj hv, hall i hi 0 hn]
    · rintro rfl
      exact ⟨0, (simulated_hasValue hpm h hna hno hn c _).mpr rfl⟩
  · refine ⟨simulated_keys hpm h, ?_, ?_, ?_, ?_⟩
    · rintro f o ⟨a, ha, _⟩
      rw [hna] at ha
      cases ha
    · intro t ht c hc
      rw [hcon, List.mem_singleton] at hc
      subst hc
      obtain ⟨r, hr, _⟩ := simulated_rowOf hpm h hn ht
      exact ⟨Or.inr (Or.inl rfl), 0, 1, by rw [numbers_length]; exact hn, _, hr, (valueIs_of_none hna _ _ _).mpr (by simp [baseValue])⟩
    · intro t v hv
      refine ⟨Or.inl ((h.columns.2.2 v).mpr ⟨t, hv⟩), ?_⟩
      rintro ⟨y, hy⟩
      obtain ⟨i, hi, j, hj, hne⟩ := hdist ⟨(t, v), hv⟩
      exact hne (((hy _).mp ⟨i, (simulated_hasValue hpm h hna hno hi ⟨(t, v), hv⟩ _).mpr rfl⟩).trans ((hy _).mp ⟨j, (simulated_hasValue hpm h hna hno hj ⟨(t, v), hv⟩ _).mpr rfl⟩).symm)
    · intro t _ f hf
      rw [hobs] at hf
      cases hf
  · intro i hi cov y hall hone hy t ht
    obtain ⟨r, hr, hc⟩ := simulated_rowOf hpm h hi ht
    have hcomplete : ¬IncompleteControls m (some r) t := by
      rintro ⟨⟨c, hc, hnone⟩, _⟩
      rw [hcon, List.mem_singleton] at hc
      subst hc
      rw [valueIs_of_none hna] at hnone
      simp [baseValue] at hnone
    refine ⟨some r, hr, fun v hv => ?_, fun _ c hcc a ha => ?_, fun f hf => ?_⟩
    · refine ⟨some (x i (.inr ⟨(t, v), hv⟩)), some (x i (.inr ⟨(t, v), hv⟩)), (valueIs_of_none hna _ _ _).mpr ?_, Or.inr ⟨hcomplete, rfl⟩, by rw [hall t v hv]; rfl, fun b hb => ?_⟩
      · unfold baseValue
        rw [if_neg (hno _ _ hv), Option.bind_some, hc ⟨(t, v), hv⟩ rfl]
      · rw [← Option.some.inj hb]
        exact hy ⟨(t, v), hv⟩
    · rw [hcon, List.mem_singleton] at hcc
      subst hcc
      rw [valueIs_of_none hna] at ha
      rw [hone t ht]
      simpa [baseValue] using ha.symm
    · rw [hobs] at hf
      cases hf

/-- C93 (the columns that are missing): a simulated dataset of a model with a control variable, an observed factor or an anchoring outcome, that does not have the name of a measurement, cannot be used for the estimation of the
model: columns have to be added first. -/
theorem C93_columns_missing {m : ModelDict ℝ} {pm : Processed ℝ} (hpm : processModel m = .ok pm) (hd : DictKeys m) (hclash : NoNameClash m) (hper : IsPeriod m 0) {val : Loc → ℝ} {n : Nat} (hn : 0 < n)
    {x : Nat → Cell m → ℝ} {out : SimulatedDataset} (h : DatasetIs m val n x out) {c : String} (hc : c ∈ m.controls.getD [] ∨ c ∈ m.observedFactors.getD [] ∨ ∃ f, AnchoredIn m f c) (hc1 : c ≠ "constant")
    (hc2 : ∀ t, ¬IsUpdate m t c) : ¬∃ inputs, getMaximizationInputs m (asDataset out.measurements) = .ok inputs := by
  rintro ⟨inputs, hin⟩
  unfold getMaximizationInputs at hin
  obtain ⟨pm', hpm', hin⟩ := py_bind_ok.mp hin
  obtain rfl := Except.ok.inj (hpm.symm.trans hpm')
  obtain ⟨_, _, hin⟩ := py_bind_ok.mp hin
  obtain ⟨_, hdata, _⟩ := py_bind_ok.mp hin
  have hok := (C66_accepts_iff hpm hd hclash (simulated_index hpm h).1 (simulated_index hpm h).2 (simulated_ids hpm h hper) (simulated_periods hpm h hn)).mp ⟨_, hdata⟩
  have hcol : c ∉ (asDataset out.measurements).columns := fun hmem => by
    obtain ⟨t, ht⟩ := (h.columns.2.2 c).mp hmem
    exact hc2 t ht
  have hvar : ¬HasVariable m (asDataset out.measurements) c := by
    rintro (h1 | h1 | h1)
    · exact hcol h1
    · exact hc1 h1
    · exact hc2 0 (Or.inr ⟨hper, h1⟩)
  rcases hc with hc | hc | ⟨f, hc⟩
  · exact hvar (hok.controls 0 hper c (List.mem_cons_of_mem _ hc)).1
  · exact hvar (hok.observed 0 hper c hc).1
  · rcases hok.outcomes f c hc with h1 | h1
    · exact hcol h1
    · exact hc1 h1

/-- Independent random variables without atoms are different, almost surely. -/
theorem ae_ne_of_indep {Ω : Type} [MeasurableSpace Ω] {P : Measure Ω} [IsProbabilityMeasure P] {X Y : Ω → ℝ} (hX : Measurable X) (hY : Measurable Y) (hind : IndepFun X Y P) (hatoms : ∀ a, P.map Y {a} = 0) : ∀ᵐ ω ∂P, X ω ≠ Y ω := by
  have h1 := (indepFun_iff_map_prod_eq_prod_map_map hX.aemeasurable hY.aemeasurable).mp hind
  have hdiag : MeasurableSet {p : ℝ × ℝ | p.1 = p.2} := measurableSet_eq_fun measurable_fst measurable_snd
  have : IsProbabilityMeasure (P.map Y) := Measure.isProbabilityMeasure_map hY.aemeasurable
  have h2 : (P.map (fun ω => (X ω, Y ω))) {p : ℝ × ℝ | p.1 = p.2} = 0 := by
    rw [h1, Measure.measure_prod_null hdiag]
    refine Filter.Eventually.of_forall (fun a => ?_)
    have : Prod.mk a ⁻¹' {p : ℝ × ℝ | p.1 = p.2} = {a} := by
      ext b
      simp [eq_comm]
    dsimp only
    rw [this]
    exact hatoms a
  rw [Measure.map_apply (hX.prodMk hY) hdiag] at h2
  rw [ae_iff]
  simpa using h2

/-- C93 for given densities. -/
theorem simulated_estimation {qr : QR} {root : NormalRoot} (hroot : ValidRoot root) {m : ModelDict ℝ} {pm : Processed ℝ} (hpm : processModel m = .ok pm) {k : ℕ} (hm : LinearModel m k)
    (hsm : SimulationModel m k) (hna : m.anchoring = none) (hcon : m.controls.getD [] = []) (hobs : m.observedFactors.getD [] = []) (hno : ∀ t v, IsUpdate m t v → v ≠ "constant")
    (custom : String → CustomFn) (nan : ℝ) {updates : List (Nat × String)} (hup : Enumerates m updates) {density : (Loc → ℝ) → Covariates → (Fin updates.length → ℝ) → ℝ}
    (hdens : ∀ val, ProperValues m k val → DensityFor qr custom nan m k updates val (density val)) {val : Loc → ℝ} (hv : ProperValues m k val) (params : List (Loc × ℝ)) (n : Nat) (hparams : HasParams m params val) (hn : 2 ≤ n)
    {Ω : Type} [MeasurableSpace Ω] (P : Measure Ω) [IsProbabilityMeasure P] (E : Nat → Ω → Fin k) (Z : Nat → Draw → Ω → ℝ) (hZ : RandomDatasetDraws P val E Z) :
    ∃ (out : Ω → SimulatedDataset) (X : Nat → Ω → Cell m → ℝ),
      (∀ ω, simulateDataset root custom nan m params (some n) none [] (drawsWith (fun i => E i ω) (fun i j => Z i j ω)) = .ok (out ω) ∧ DatasetIs m val n (fun i => X i ω) (out ω)) ∧
      (∀ i, Measurable (X i)) ∧ iIndepFun X P ∧ (∀ i < n, P.map (fun ω j => X i ω (measurementCell hup j)) = (referenceMeasure updates noCovariates).withDensity (fun y => ENNReal.ofReal (density val noCovariates y))) ∧
      ∀ᵐ ω ∂P, ∃ inputs, getMaximizationInputs m (asDataset (out ω).measurements) = .ok inputs ∧
        ∀ (params' : List (Loc × ℝ)) (val' : Loc → ℝ), (params'.map Prod.fst).Nodup → (∀ l, l ∈ params'.map Prod.fst ↔ IsParam m l) → (∀ l x, (l, x) ∈ params' → x = val' l) →
          ∃ result, inputs.loglike qr custom nan m params' = .ok result ∧ result.contributions.length = n ∧ result.value = result.contributions.sum ∧
            (ProperValues m k val' → ∀ i < n,
              (result.allContributions.map (fun row => row.getD i 0)).sum = Real.log (density val' noCovariates (fun j => X i ω (measurementCell hup j))) ∧
              (NoClipping m → result.contributions.getD i 0 = Real.log (density val' noCovariates (fun j => X i ω (measurementCell hup j))))) := by
  classical
  obtain ⟨out, X, h1, h2, h3, h4⟩ := simulated_density hroot hpm hm hsm hv custom nan hup (hdens val hv).law params (some n) none n (fun _ => noCovariates) hparams (.ofNumber hcon hobs (fun _ _ _ => rfl)) (by omega) P E Z hZ
  obtain ⟨y, hy⟩ : ∃ y : Nat → Ω → Nat → String → ℝ, ∀ i ω (c : {p : Nat × String // IsUpdate m p.1 p.2}), y i ω c.1.1 c.1.2 = X i ω (.inr c) :=
    ⟨fun i ω t v => if h : IsUpdate m t v then X i ω (.inr ⟨(t, v), h⟩) else 0, fun i ω c => dif_pos c.2⟩
  have hdat : ∀ i ω, observedData updates noCovariates (y i ω) = fun j => X i ω (measurementCell hup j) := by
    intro i ω
    funext j
    unfold observedData
    rw [if_pos (show noCovariates.isObserved _ _ = true from rfl)]
    exact hy i ω ⟨updates.get j, (hup.all _ _).mp (List.get_mem updates j)⟩
  have hlaw : ∀ i < n, P.map (fun ω j => X i ω (measurementCell hup j)) = (referenceMeasure updates noCovariates).withDensity (fun y => ENNReal.ofReal (density val noCovariates y)) := by
    intro i hi
    have := h4 i hi (y i) (fun ω c => hy i ω c)
    simp only [hdat] at this
    exact this
  refine ⟨out, X, h1, h2, h3, hlaw, ?_⟩
  have hmeas : ∀ i c, Measurable (fun ω => X i ω c) := fun i c => (measurable_pi_apply c).comp (h2 i)
  have hne : ∀ᵐ ω ∂P, ∀ j : Fin updates.length, X 0 ω (measurementCell hup j) ≠ X 1 ω (measurementCell hup j) := by
    rw [ae_all_iff]
    intro j
    refine ae_ne_of_indep (hmeas 0 _) (hmeas 1 _) ((h3.indepFun (show (0 : ℕ) ≠ 1 by decide)).comp (measurable_pi_apply _) (measurable_pi_apply _)) (fun a => ?_)
    have hs : MeasurableSet {z : Fin updates.length → ℝ | z j = a} := measurableSet_eq_fun (measurable_pi_apply j) measurable_const
    rw [Measure.map_apply (hmeas 1 _) (measurableSet_singleton a)]
    have hset : (fun ω => X 1 ω (measurementCell hup j)) ⁻¹' {a} = (fun ω j => X 1 ω (measurementCell hup j)) ⁻¹' {z : Fin updates.length → ℝ | z j = a} := rfl
    rw [hset, ← Measure.map_apply (measurable_pi_iff.mpr (fun j => hmeas 1 _)) hs, hlaw 1 (by omega)]
    refine withDensity_absolutelyContinuous _ _ ?_
    exact Measure.pi_hyperplane (fun _ : Fin updates.length => (volume : Measure ℝ)) j a
  filter_upwards [hne] with ω hω
  obtain ⟨hsimω, hDω⟩ := h1 ω
  have hper0 : IsPeriod m 0 := (isPeriod_iff hpm 0).mpr (by have := (isPeriod_iff hpm 1).mp hm.periods; omega)
  obtain ⟨ids, pers, hlen, hi, hu, hids, hpers, hok, hdesc⟩ := C93_simulated_data_accepted hpm hna hcon hobs hno hper0 (by omega) hDω
  have hdata := hok.mpr (fun c => by
    obtain ⟨j, hj⟩ := List.get_of_mem ((hup.all _ _).mpr c.2)
    refine ⟨0, by omega, 1, by omega, ?_⟩
    have := hω j
    have hc : measurementCell hup j = .inr c := by
      unfold measurementCell
      congr 1
      exact Subtype.ext hj
    rwa [hc] at this)
  obtain ⟨hc, ho, hclash⟩ := hm.anchoring
  obtain ⟨inputs, updates', hin, _, hev⟩ := C70_likelihood_evaluates qr hpm hsm.names hc ho hclash hsm.safe hm.periods hm.mixture (Or.inr ⟨hsm.elements, hobs⟩) hi hu hids hpers hdata
  have hindex : inputs.index = pm.paramsIndex := by
    have hin' := hin
    unfold getMaximizationInputs at hin'
    obtain ⟨pm', hpm', hin'⟩ := py_bind_ok.mp hin'
    obtain rfl := Except.ok.inj (hpm.symm.trans hpm')
    obtain ⟨_, _, hin'⟩ := py_bind_ok.mp hin'
    obtain ⟨_, _, hin'⟩ := py_bind_ok.mp hin'
    obtain ⟨_, _, hin'⟩ := py_bind_ok.mp hin'
    obtain rfl := py_pure_ok.mp hin'
    rfl
  refine ⟨inputs, hin, fun params' val' p1 p2 p3 => ?_⟩
  obtain ⟨result, hres, hl, _, _, hvalue, _⟩ := hev custom nan params' val' p1 (fun l => by rw [p2, hindex, mem_paramsIndex_iff hpm]) p3 (by
    rintro ⟨f, spec⟩ hfs
    rcases hm.transitions f spec hfs with h | h <;> (dsimp only; rw [h])
    · exact ⟨by decide, by rintro (h | h) <;> exact absurd h (by decide)⟩
    · exact ⟨by decide, by rintro (h | h) <;> exact absurd h (by decide)⟩)
  refine ⟨result, hres, hl.trans hlen, hvalue, fun hv' i hil => ?_⟩
  have := (hdens val' hv').loglike _ ids pers inputs params' result hi hu hids hpers p1 p3 hin hres i noCovariates (y i ω) (by rw [hlen]; exact hil) (hdesc i hil _ _ (fun _ _ _ => rfl) (fun _ _ => rfl) (fun c => hy i ω c))
  rw [hdat] at this
  exact this

/-- **C93.** Simulation and estimation fit together: for a model without anchoring, control variables and observed factors and with linear or constant transition functions there are densities of the measurements of an
individual, for each value of the parameters. Simulate at least two individuals. They are independent and have the density of the parameters of the simulation. Almost surely,
get_maximization_inputs accepts the simulated measurements (with the index that it needs), the likelihood function can be evaluated at all parameters with the labels of the model (with a positive weight for each mixture element and
standard deviations of measurements that are not zero, for the following), and there the contributions of each individual add up to the logarithm of the density with the values of these parameters at the simulated measurements. -/
theorem C93_simulated_data_estimation {qr : QR} (hqr : ValidQR qr) {root : NormalRoot} (hroot : ValidRoot root) {m : ModelDict ℝ} {pm : Processed ℝ} (hpm : processModel m = .ok pm) {k : ℕ} (hm : LinearModel m k)
    (hsm : SimulationModel m k) (hna : m.anchoring = none) (hcon : m.controls.getD [] = []) (hobs : m.observedFactors.getD [] = []) (hno : ∀ t v, IsUpdate m t v → v ≠ "constant")
    (hkappa : ∀ o x, m.estimationOptions = some o → o.sigmaPointsScale = some x → 0 ≤ x) (custom : String → CustomFn) (nan : ℝ) :
    ∃ updates, ∃ hup : Enumerates m updates, ∃ density : (Loc → ℝ) → (Fin updates.length → ℝ) → ℝ, (∀ val, ProperValues m k val → Continuous (density val) ∧ ∀ y, 0 < density val y) ∧
      ∀ (val : Loc → ℝ) (params : List (Loc × ℝ)) (n : Nat), ProperValues m k val → HasParams m params val → 2 ≤ n →
        ∀ {Ω : Type} [MeasurableSpace Ω] (P : Measure Ω) [IsProbabilityMeasure P] (E : Nat → Ω → Fin k) (Z : Nat → Draw → Ω → ℝ), RandomDatasetDraws P val E Z →
        ∃ (out : Ω → SimulatedDataset) (X : Nat → Ω → Cell m → ℝ),
          (∀ ω, simulateDataset root custom nan m params (some n) none [] (drawsWith (fun i => E i ω) (fun i j => Z i j ω)) = .ok (out ω) ∧ DatasetIs m val n (fun i => X i ω) (out ω)) ∧
          iIndepFun X P ∧ (∀ i < n, P.map (fun ω j => X i ω (measurementCell hup j)) = volume.withDensity (fun y => ENNReal.ofReal (density val y))) ∧
          ∀ᵐ ω ∂P, ∃ inputs, getMaximizationInputs m (asDataset (out ω).measurements) = .ok inputs ∧
            ∀ (params' : List (Loc × ℝ)) (val' : Loc → ℝ), (params'.map Prod.fst).Nodup → (∀ l, l ∈ params'.map Prod.fst ↔ IsParam m l) → (∀ l x, (l, x) ∈ params' → x = val' l) →
              ∃ result, inputs.loglike qr custom nan m params' = .ok result ∧ result.contributions.length = n ∧
                (ProperValues m k val' → ∀ i < n,
                  (result.allContributions.map (fun row => row.getD i 0)).sum = Real.log (density val' (fun j => X i ω (measurementCell hup j))) ∧
                  (NoClipping m → result.contributions.getD i 0 = Real.log (density val' (fun j => X i ω (measurementCell hup j))))) := by
  obtain ⟨updates, hup, density, hdens⟩ := density_of_values hqr hpm hm hna hsm.names hkappa custom nan
  refine ⟨updates, hup, fun val => density val noCovariates, fun val hv => ⟨(hdens val hv).continuous _, (hdens val hv).pos _⟩, ?_⟩
  intro val params n hv hparams hn Ω _ P _ E Z hZ
  obtain ⟨out, X, h1, _, h3, h4, h5⟩ := simulated_estimation hroot hpm hm hsm hna hcon hobs hno custom nan hup hdens hv params n hparams hn P E Z hZ
  refine ⟨out, X, h1, h3, fun i hi => (h4 i hi).trans ?_, ?_⟩
  · congr 1
  · filter_upwards [h5] with ω h
    obtain ⟨inputs, hin, h⟩ := h
    refine ⟨inputs, hin, fun params' val' p1 p2 p3 => ?_⟩
    obtain ⟨result, r1, r2, _, r4⟩ := h params' val' p1 p2 p3
    exact ⟨result, r1, r2, r4⟩

end Skill
