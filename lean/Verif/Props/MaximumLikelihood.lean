import Verif.Props.Consistency
import Verif.Spec.Estimates
import Verif.Lemmas.UniformAffinity
import Verif.Lemmas.DataTails
import Verif.Lemmas.DensityParameters

/-! Maximum likelihood estimates are consistent (C110). -/

namespace Skill
open Matrix MeasureTheory ProbabilityTheory Spec
open scoped ENNReal Topology

theorem countable_loc : Countable Loc := by
  have : Countable Char := Function.Injective.countable (f := Char.toNat) (fun _ _ h => Char.toNat_inj.mp h)
  have : Countable String := Function.Injective.countable (f := String.toList) (fun _ _ h => String.toList_injective h)
  have : Countable Cat := Function.Injective.countable (f := fun c : Cat => c.ctorIdx) (fun a b h => by
    cases a <;> cases b <;> first | rfl | exact absurd h (by decide))
  exact Function.Injective.countable (f := fun l : Loc => (l.cat, l.period, l.name1, l.name2)) (fun a b h => by
    cases a
    cases b
    simpa using h)

section
variable {qr : QR} {custom : String → CustomFn} {nan : ℝ} {m : ModelDict ℝ} {k : ℕ} {updates : List (Nat × String)}

/-- A power of the density less than one has a finite integral. -/
theorem DensityFor.power_integral {val : Loc → ℝ} {density : Covariates → (Fin updates.length → ℝ) → ℝ} (hd : DensityFor qr custom nan m k updates val density) (hv : ProperValues m k val) (cov : Covariates) :
    ∃ s : ℝ, 0 < s ∧ s ≤ 1 / 2 ∧ ∫⁻ y, ENNReal.ofReal (density cov y ^ (1 - s)) ∂referenceMeasure updates cov ≠ ∞ := by
  obtain ⟨Ω, _, P, E, Z, _, hZ⟩ := exists_randomNoise (k := k) (fun e he => (hv.positive e he).le) hv.sum
  obtain ⟨r, hr, htail⟩ := (lightTail_norm hZ m val cov updates).smaller
  obtain ⟨C, D, hC, hb⟩ := hd.bounds cov
  have hobs : Measurable (fun ω => observedData updates cov (measurementValue m val cov (E ω) (fun j => Z j ω))) :=
    (measurable_observed m val cov updates).comp (hZ.measurable_element.prodMk (measurable_pi_iff.mpr hZ.measurable))
  have hdm : Measurable (density cov) := (hd.continuous cov).measurable
  obtain ⟨s, hs, hs2, hsC⟩ : ∃ s : ℝ, 0 < s ∧ s ≤ 1 / 2 ∧ s * C ≤ r := by
    refine ⟨min (1 / 2) (r / (C + 1)), by positivity, min_le_left _ _, ?_⟩
    calc min (1 / 2) (r / (C + 1)) * C ≤ r / (C + 1) * C := mul_le_mul_of_nonneg_right (min_le_right _ _) hC
      _ ≤ r / (C + 1) * (C + 1) := mul_le_mul_of_nonneg_left (by linarith) (by positivity)
      _ = r := div_mul_cancel₀ _ (by positivity)
  refine ⟨s, hs, hs2, ?_⟩
  have hpm : Measurable (fun y => ENNReal.ofReal (density cov y ^ (-s))) := ENNReal.measurable_ofReal.comp (hdm.pow_const _)
  have h1 : ∫⁻ y, ENNReal.ofReal (density cov y ^ (1 - s)) ∂referenceMeasure updates cov = ∫⁻ y, ENNReal.ofReal (density cov y ^ (-s)) ∂((referenceMeasure updates cov).withDensity (fun y => ENNReal.ofReal (density cov y))) := by
    rw [lintegral_withDensity_eq_lintegral_mul _ hdm.ennreal_ofReal hpm]
    refine lintegral_congr (fun y => ?_)
    rw [Pi.mul_apply, ← ENNReal.ofReal_mul (hd.pos cov y).le, sub_eq_add_neg, Real.rpow_add (hd.pos cov y), Real.rpow_one]
  rw [h1, ← hd.law cov P E Z hZ, lintegral_map hpm hobs]
  refine ne_top_of_le_ne_top (ENNReal.mul_ne_top (a := ENNReal.ofReal (Real.exp (s * C))) ENNReal.ofReal_ne_top (htail _ hsC)) ?_
  rw [← lintegral_const_mul' _ _ ENNReal.ofReal_ne_top]
  refine lintegral_mono (fun ω => ?_)
  dsimp only
  rw [← ENNReal.ofReal_mul (Real.exp_pos _).le, ← Real.exp_add]
  refine ENNReal.ofReal_le_ofReal ?_
  have hle := (hb (observedData updates cov (measurementValue m val cov (E ω) (fun j => Z j ω)))).1
  calc density cov (observedData updates cov (measurementValue m val cov (E ω) (fun j => Z j ω))) ^ (-s)
      ≤ Real.exp (-(C * (1 + ‖observedData updates cov (measurementValue m val cov (E ω) (fun j => Z j ω))‖ ^ 2))) ^ (-s) := Real.rpow_le_rpow_of_nonpos (Real.exp_pos _) hle (by linarith)
    _ = _ := by
      rw [← Real.exp_mul]
      congr 1
      ring

end

/-- **C110.** Simulate n individuals with simulate_dataset, at parameters with the values `val0`. Let `K` be a compact set of values of the parameters with which the measurements of an individual are distributed differently. There are a number `C` and a number
`ρ` less than one such that for every n ≥ 2, with probability at least 1 - C ρ^n, the likelihood function of the simulated measurements can be evaluated at `val0` and at all values in `K`, and is higher at `val0` than at all values in `K`. -/
theorem C110_compact {qr : QR} (hqr : ValidQR qr) {root : NormalRoot} (hroot : ValidRoot root) {m : ModelDict ℝ} {pm : Processed ℝ} (hpm : processModel m = .ok pm) {k : ℕ} (hm : LinearModel m k)
    (hsm : SimulationModel m k) (hna : m.anchoring = none) (hcon : m.controls.getD [] = []) (hobs : m.observedFactors.getD [] = []) (hno : ∀ t v, IsUpdate m t v → v ≠ "constant")
    (hkappa : ∀ o x, m.estimationOptions = some o → o.sigmaPointsScale = some x → 0 ≤ x) (hclip : NoClipping m) {val0 : Loc → ℝ} (hv0 : ProperValues m k val0) (custom : String → CustomFn) (nan : ℝ)
    {K : Set (Loc → ℝ)} (hK : IsCompact K) (hv : ∀ val ∈ K, ProperValues m k val) (hdiff : ∀ val ∈ K, DataDiffer m k val0 val noCovariates) (params0 : List (Loc × ℝ)) (hparams0 : ParamsWith m params0 val0) :
    ∃ (C : ℕ) (ρ : ℝ≥0∞), ρ < 1 ∧ ∀ n, 2 ≤ n → ∀ {Ω : Type} [MeasurableSpace Ω] (P : Measure Ω) [IsProbabilityMeasure P] (E : Nat → Ω → Fin k) (Z : Nat → Draw → Ω → ℝ), RandomDatasetDraws P val0 E Z →
      P {ω | ¬ ∃ data inputs out0, simulateDataset root custom nan m params0 (some n) none [] (drawsWith (fun i => E i ω) (fun i j => Z i j ω)) = .ok data ∧
        getMaximizationInputs m (asDataset data.measurements) = .ok inputs ∧ inputs.loglike qr custom nan m params0 = .ok out0 ∧
        ∀ val ∈ K, ∀ params, ParamsWith m params val → ∃ out, inputs.loglike qr custom nan m params = .ok out ∧ out.value < out0.value} ≤ C * ρ ^ n := by
  obtain ⟨nT, hT⟩ : ∃ nT, pm.dimensions.nPeriods = nT + 2 := ⟨pm.dimensions.nPeriods - 2, by have := (isPeriod_iff hpm 1).mp hm.periods; omega⟩
  have hup := updateList_enumerates hpm
  have hdens : ∀ val, ProperValues m k val → DensityFor qr custom nan m k (updateList pm) val (valuesDensity custom m pm nT val) := fun val hv => density_explicit hqr hpm hm hna hsm.names hkappa custom nan hT hv
  have hd0 := hdens val0 hv0
  have := countable_loc
  have : CompactSpace K := isCompact_iff_compactSpace.mp hK
  have hcx : ∀ l, Continuous (fun x : K => x.1 l) := fun l => (continuous_apply l).comp continuous_subtype_val
  have hx : ∀ x : K, ProperValues m k x.1 := fun x => hv x.1 x.2
  obtain ⟨D, hD⟩ := valuesDensity_bounded hpm hm hna hsm.names hT custom noCovariates hcx hx
  obtain ⟨s, hs, hs2, hfin⟩ := hd0.power_integral hv0 noCovariates
  obtain ⟨C, ρ, hρ, hb⟩ := compact_beaten (μ := referenceMeasure (updateList pm) noCovariates) (p0 := valuesDensity custom m pm nT val0 noCovariates) (q := fun x : K => valuesDensity custom m pm nT x.1 noCovariates)
    (fun x => (hdens _ (hx x)).continuous _) (valuesDensity_parameters hpm hm hna hsm.names hT custom noCovariates hcx hx) (fun x => (hdens _ (hx x)).pos _) (fun x => (hdens _ (hx x)).total (hx x) _) hD
    (hd0.continuous _).measurable (hd0.pos _) (hd0.total hv0 _) hs hs2 hfin (fun x heq => by
      obtain ⟨Ω, _, P, E, Z, _, hZ⟩ := exists_randomNoise (k := k) (fun e he => (hv0.positive e he).le) hv0.sum
      obtain ⟨Ω', _, P', E', Z', _, hZ'⟩ := exists_randomNoise (k := k) (fun e he => ((hx x).positive e he).le) (hx x).sum
      refine hdiff x.1 x.2 _ _ P P' E E' Z Z' hZ hZ' _ hup ?_
      rw [hd0.law _ P E Z hZ, (hdens _ (hx x)).law _ P' E' Z' hZ', heq])
  refine ⟨C, ρ, hρ, ?_⟩
  intro n h2n Ω _ P _ E Z hZ
  have hhas : HasParams m params0 val0 := ⟨hparams0.nodup, fun l hl => by
    obtain ⟨⟨l', x⟩, hx, rfl⟩ := List.mem_map.mp ((hparams0.labels l).mpr hl)
    rw [← hparams0.values l' x hx]
    exact hx⟩
  obtain ⟨out, X, h1, h2, h3, h4, h5⟩ := simulated_estimation hroot hpm hm hsm hna hcon hobs hno custom nan hup hdens hv0 params0 n hhas h2n P E Z hZ
  have hcell : Measurable (fun (x : Cell m → ℝ) (j : Fin (updateList pm).length) => x (measurementCell hup j)) := measurable_pi_iff.mpr (fun j => measurable_pi_apply _)
  refine (measure_mono_ae ?_).trans (hb P (fun i ω j => X i ω (measurementCell hup j)) n (fun i => hcell.comp (h2 i)) (h3.comp (fun i x j => x (measurementCell hup j)) (fun _ => hcell)) (fun i hi => h4 i hi))
  filter_upwards [h5] with ω h hnot
  obtain ⟨inputs, hin, h⟩ := h
  obtain ⟨r0, a1, a2, a3, a4⟩ := h params0 val0 hparams0.nodup hparams0.labels hparams0.values
  by_contra hlt
  refine hnot ⟨out ω, inputs, r0, (h1 ω).1, hin, a1, fun val hval params hp => ?_⟩
  obtain ⟨r, b1, b2, b3, b4⟩ := h params val hp.nodup hp.labels hp.values
  refine ⟨r, b1, ?_⟩
  rw [a3, sum_range_getD, a2, b3, sum_range_getD, b2, Finset.sum_congr rfl (fun i hi => ((a4 hv0 i (Finset.mem_range.mp hi)).2 hclip)), Finset.sum_congr rfl (fun i hi => ((b4 (hv val hval) i (Finset.mem_range.mp hi)).2 hclip))]
  exact not_le.mp (fun hle => hlt ⟨⟨val, hval⟩, hle⟩)

/-- The value of the function `loglike` of get_maximization_inputs for a dataset. -/
noncomputable def loglikeValue (qr : QR) (custom : String → CustomFn) (nan : ℝ) (m : ModelDict ℝ) (df : LongData ℝ) (params : List (Loc × ℝ)) : Py ℝ := do
  let inputs ← getMaximizationInputs m df
  let out ← inputs.loglike qr custom nan m params
  pure out.value

theorem ParamsWith.change {m : ModelDict ℝ} {params : List (Loc × ℝ)} {val : Loc → ℝ} (h : ParamsWith m params val) (val' : Loc → ℝ) : ParamsWith m (params.map (fun p => (p.1, val' p.1))) val' := by
  have hfst : (params.map (fun p => (p.1, val' p.1))).map Prod.fst = params.map Prod.fst := by
    rw [List.map_map]
    rfl
  refine ⟨hfst ▸ h.nodup, fun l => by rw [hfst]; exact h.labels l, fun l x hx => ?_⟩
  obtain ⟨p, _, hp⟩ := List.mem_map.mp hx
  obtain ⟨rfl, rfl⟩ := Prod.mk.inj hp
  rfl

/-- The likelihood function of simulated measurements has a maximum. -/
theorem C110_maximum {qr : QR} (hqr : ValidQR qr) {root : NormalRoot} (hroot : ValidRoot root) {m : ModelDict ℝ} {pm : Processed ℝ} (hpm : processModel m = .ok pm) {k : ℕ} (hm : LinearModel m k)
    (hsm : SimulationModel m k) (hna : m.anchoring = none) (hcon : m.controls.getD [] = []) (hobs : m.observedFactors.getD [] = []) (hno : ∀ t v, IsUpdate m t v → v ≠ "constant")
    (hkappa : ∀ o x, m.estimationOptions = some o → o.sigmaPointsScale = some x → 0 ≤ x) (hclip : NoClipping m) {val0 : Loc → ℝ} (hv0 : ProperValues m k val0) (custom : String → CustomFn) (nan : ℝ)
    {Θ : Set (Loc → ℝ)} (hΘ : IsCompact Θ) (hne : Θ.Nonempty) (hv : ∀ val ∈ Θ, ProperValues m k val) (params0 : List (Loc × ℝ)) (hparams0 : ParamsWith m params0 val0) {n : ℕ} (h2n : 2 ≤ n)
    {Ω : Type} [MeasurableSpace Ω] (P : Measure Ω) [IsProbabilityMeasure P] (E : Nat → Ω → Fin k) (Z : Nat → Draw → Ω → ℝ) (hZ : RandomDatasetDraws P val0 E Z) :
    ∀ᵐ ω ∂P, ∃ data, simulateDataset root custom nan m params0 (some n) none [] (drawsWith (fun i => E i ω) (fun i j => Z i j ω)) = .ok data ∧
      ∃ val, Maximizes (loglikeValue qr custom nan m (asDataset data.measurements)) m Θ val := by
  obtain ⟨nT, hT⟩ : ∃ nT, pm.dimensions.nPeriods = nT + 2 := ⟨pm.dimensions.nPeriods - 2, by have := (isPeriod_iff hpm 1).mp hm.periods; omega⟩
  have hup := updateList_enumerates hpm
  have hdens : ∀ val, ProperValues m k val → DensityFor qr custom nan m k (updateList pm) val (valuesDensity custom m pm nT val) := fun val hv => density_explicit hqr hpm hm hna hsm.names hkappa custom nan hT hv
  have hhas : HasParams m params0 val0 := ⟨hparams0.nodup, fun l hl => by
    obtain ⟨⟨l', x⟩, hx, rfl⟩ := List.mem_map.mp ((hparams0.labels l).mpr hl)
    rw [← hparams0.values l' x hx]
    exact hx⟩
  obtain ⟨out, X, h1, h2, h3, h4, h5⟩ := simulated_estimation hroot hpm hm hsm hna hcon hobs hno custom nan hup hdens hv0 params0 n hhas h2n P E Z hZ
  have hcx : ∀ l, Continuous (fun x : Θ => x.1 l) := fun l => (continuous_apply l).comp continuous_subtype_val
  have hx : ∀ x : Θ, ProperValues m k x.1 := fun x => hv x.1 x.2
  filter_upwards [h5] with ω h
  obtain ⟨inputs, hin, h⟩ := h
  refine ⟨out ω, (h1 ω).1, ?_⟩
  let L : (Loc → ℝ) → ℝ := fun val => ∑ i ∈ Finset.range n, Real.log (valuesDensity custom m pm nT val noCovariates (fun j => X i ω (measurementCell hup j)))
  have hL : ContinuousOn L Θ := by
    rw [continuousOn_iff_continuous_restrict]
    refine continuous_finsetSum _ (fun i _ => Continuous.log (valuesDensity_parameters hpm hm hna hsm.names hT custom noCovariates hcx hx _) (fun x => ((hdens _ (hx x)).pos _ _).ne'))
  have hval : ∀ val ∈ Θ, ∀ params, ParamsWith m params val → loglikeValue qr custom nan m (asDataset (out ω).measurements) params = .ok (L val) := by
    intro val hmem params hp
    obtain ⟨r, b1, b2, b3, b4⟩ := h params val hp.nodup hp.labels hp.values
    unfold loglikeValue
    rw [hin]
    show (do let out ← inputs.loglike qr custom nan m params; pure out.value) = _
    rw [b1]
    show Except.ok r.value = _
    rw [b3, sum_range_getD, b2, Finset.sum_congr rfl (fun i hi => ((b4 (hv val hmem) i (Finset.mem_range.mp hi)).2 hclip))]
  obtain ⟨best, hbest, hmax⟩ := hΘ.exists_isMaxOn hne hL
  refine ⟨best, hbest, fun val hmem params hp => ⟨_, hval val hmem params hp⟩, fun params x hp hx val' hval' params' x' hp' hx' => ?_⟩
  rw [hval best hbest params hp] at hx
  rw [hval val' hval' params' hp'] at hx'
  cases hx
  cases hx'
  exact hmax hval'

/-- **C110.** Maximum likelihood estimates with simulated data of growing size. Let `Θ` be a compact set of admissible values of the parameters, which contains the values `val0` of the simulation, and `V` an open set that contains all admissible values with which
the measurements of an individual have the same distribution as with `val0`. Almost surely: the likelihood function of each simulated dataset has a maximum in `Θ`, and all maxima are in `V` for all but finitely many sizes of the dataset. -/
theorem C110_estimates {qr : QR} (hqr : ValidQR qr) {root : NormalRoot} (hroot : ValidRoot root) {m : ModelDict ℝ} {pm : Processed ℝ} (hpm : processModel m = .ok pm) {k : ℕ} (hm : LinearModel m k)
    (hsm : SimulationModel m k) (hna : m.anchoring = none) (hcon : m.controls.getD [] = []) (hobs : m.observedFactors.getD [] = []) (hno : ∀ t v, IsUpdate m t v → v ≠ "constant")
    (hkappa : ∀ o x, m.estimationOptions = some o → o.sigmaPointsScale = some x → 0 ≤ x) (hclip : NoClipping m) (custom : String → CustomFn) (nan : ℝ)
    {Θ V : Set (Loc → ℝ)} (hΘ : IsCompact Θ) (hv : ∀ val ∈ Θ, ProperValues m k val) (hV : IsOpen V) {val0 : Loc → ℝ} (h0 : val0 ∈ Θ) (hsame : ∀ val ∈ Θ, ¬DataDiffer m k val0 val noCovariates → val ∈ V)
    (params0 : List (Loc × ℝ)) (hparams0 : ParamsWith m params0 val0)
    {Ω : Type} [MeasurableSpace Ω] (P : Measure Ω) [IsProbabilityMeasure P] (E : Nat → Nat → Ω → Fin k) (Z : Nat → Nat → Draw → Ω → ℝ) (hZ : ∀ n, RandomDatasetDraws P val0 (E n) (Z n)) :
    ∀ᵐ ω ∂P, ∃ data : ℕ → SimulatedDataset, (∀ n ≥ 2, simulateDataset root custom nan m params0 (some n) none [] (drawsWith (fun i => E n i ω) (fun i j => Z n i j ω)) = .ok (data n)) ∧
      (∀ n ≥ 2, ∃ val, Maximizes (loglikeValue qr custom nan m (asDataset (data n).measurements)) m Θ val) ∧
      ∀ᶠ n in Filter.atTop, ∀ val, Maximizes (loglikeValue qr custom nan m (asDataset (data n).measurements)) m Θ val → val ∈ V := by
  have hmax : ∀ᵐ ω ∂P, ∀ n, 2 ≤ n → ∃ data, simulateDataset root custom nan m params0 (some n) none [] (drawsWith (fun i => E n i ω) (fun i j => Z n i j ω)) = .ok data ∧
      ∃ val, Maximizes (loglikeValue qr custom nan m (asDataset data.measurements)) m Θ val := by
    rw [ae_all_iff]
    intro n
    by_cases h2 : 2 ≤ n
    · filter_upwards [C110_maximum hqr hroot hpm hm hsm hna hcon hobs hno hkappa hclip (hv val0 h0) custom nan hΘ ⟨val0, h0⟩ hv params0 hparams0 h2 P (E n) (Z n) (hZ n)] with ω hω _
      exact hω
    · exact Filter.Eventually.of_forall (fun ω h => absurd h h2)
  obtain ⟨C, ρ, hρ, h⟩ := C110_compact hqr hroot hpm hm hsm hna hcon hobs hno hkappa hclip (hv val0 h0) custom nan (hΘ.diff hV) (fun val h => hv val h.1) (fun val h => by
    by_contra hd
    exact h.2 (hsame val h.1 hd)) params0 hparams0
  have hsum : ∑' n, P {ω | ¬ ∃ data inputs out0, simulateDataset root custom nan m params0 (some (n + 2)) none [] (drawsWith (fun i => E (n + 2) i ω) (fun i j => Z (n + 2) i j ω)) = .ok data ∧
        getMaximizationInputs m (asDataset data.measurements) = .ok inputs ∧ inputs.loglike qr custom nan m params0 = .ok out0 ∧
        ∀ val ∈ Θ \ V, ∀ params, ParamsWith m params val → ∃ out, inputs.loglike qr custom nan m params = .ok out ∧ out.value < out0.value} ≠ ∞ := by
    refine ne_top_of_le_ne_top ?_ (ENNReal.tsum_le_tsum (fun n => (h (n + 2) (by omega) P (E (n + 2)) (Z (n + 2)) (hZ _)).trans (mul_le_mul_right (pow_le_pow_right_of_le_one' hρ.le (Nat.le_add_right n 2)) _)))
    rw [ENNReal.tsum_mul_left, ENNReal.tsum_geometric]
    exact ENNReal.mul_ne_top (ENNReal.natCast_ne_top C) (ENNReal.inv_ne_top.mpr (tsub_pos_of_lt hρ).ne')
  filter_upwards [ae_eventually_notMem hsum, hmax] with ω hω hmaxω
  have : Nonempty SimulatedDataset := ⟨(hmaxω 2 le_rfl).choose⟩
  choose! data hdata hbest using hmaxω
  refine ⟨data, hdata, hbest, ?_⟩
  rw [← Filter.map_add_atTop_eq_nat 2, Filter.eventually_map]
  filter_upwards [hω] with n hn val hval
  obtain ⟨data', inputs, out0, hsim, hin, hout0, hhigher⟩ := not_not.mp hn
  rw [hdata (n + 2) (by omega)] at hsim
  cases hsim
  by_contra hnot
  have hp := ParamsWith.change hparams0 val
  obtain ⟨out, hout, hlt⟩ := hhigher val ⟨hval.admissible, hnot⟩ _ hp
  have hl : ∀ params r, inputs.loglike qr custom nan m params = .ok r → loglikeValue qr custom nan m (asDataset (data (n + 2)).measurements) params = .ok r.value := by
    intro params r hr
    unfold loglikeValue
    rw [hin]
    show (do let out ← inputs.loglike qr custom nan m params; pure out.value) = _
    rw [hr]
    rfl
  exact absurd (hval.highest _ _ hp (hl _ _ hout) val0 h0 _ _ hparams0 (hl _ _ hout0)) (not_le.mpr hlt)

/-- **C110.** Maximum likelihood estimates are consistent: if the values `val0` of the parameters are the only admissible values with which the measurements of an individual have the distribution that they have with `val0`, then almost surely all sequences of
maximum likelihood estimates with simulated data of growing size converge to `val0`. -/
theorem C110_consistent {qr : QR} (hqr : ValidQR qr) {root : NormalRoot} (hroot : ValidRoot root) {m : ModelDict ℝ} {pm : Processed ℝ} (hpm : processModel m = .ok pm) {k : ℕ} (hm : LinearModel m k)
    (hsm : SimulationModel m k) (hna : m.anchoring = none) (hcon : m.controls.getD [] = []) (hobs : m.observedFactors.getD [] = []) (hno : ∀ t v, IsUpdate m t v → v ≠ "constant")
    (hkappa : ∀ o x, m.estimationOptions = some o → o.sigmaPointsScale = some x → 0 ≤ x) (hclip : NoClipping m) (custom : String → CustomFn) (nan : ℝ)
    {Θ : Set (Loc → ℝ)} (hΘ : IsCompact Θ) (hv : ∀ val ∈ Θ, ProperValues m k val) {val0 : Loc → ℝ} (h0 : val0 ∈ Θ) (hident : ∀ val ∈ Θ, (∃ l, IsParam m l ∧ val l ≠ val0 l) → DataDiffer m k val0 val noCovariates)
    (params0 : List (Loc × ℝ)) (hparams0 : ParamsWith m params0 val0)
    {Ω : Type} [MeasurableSpace Ω] (P : Measure Ω) [IsProbabilityMeasure P] (E : Nat → Nat → Ω → Fin k) (Z : Nat → Nat → Draw → Ω → ℝ) (hZ : ∀ n, RandomDatasetDraws P val0 (E n) (Z n)) :
    ∀ᵐ ω ∂P, ∃ data : ℕ → SimulatedDataset, (∀ n ≥ 2, simulateDataset root custom nan m params0 (some n) none [] (drawsWith (fun i => E n i ω) (fun i j => Z n i j ω)) = .ok (data n)) ∧
      (∀ n ≥ 2, ∃ val, Maximizes (loglikeValue qr custom nan m (asDataset (data n).measurements)) m Θ val) ∧
      ∀ est : ℕ → Loc → ℝ, (∀ n ≥ 2, Maximizes (loglikeValue qr custom nan m (asDataset (data n).measurements)) m Θ (est n)) → ∀ l, IsParam m l → Filter.Tendsto (fun n => est n l) Filter.atTop (𝓝 (val0 l)) := by
  have hall : ∀ᵐ ω ∂P, ∀ j : ℕ, ∃ data : ℕ → SimulatedDataset, (∀ n ≥ 2, simulateDataset root custom nan m params0 (some n) none [] (drawsWith (fun i => E n i ω) (fun i j => Z n i j ω)) = .ok (data n)) ∧
      (∀ n ≥ 2, ∃ val, Maximizes (loglikeValue qr custom nan m (asDataset (data n).measurements)) m Θ val) ∧
      ∀ᶠ n in Filter.atTop, ∀ val, Maximizes (loglikeValue qr custom nan m (asDataset (data n).measurements)) m Θ val → val ∈ {val : Loc → ℝ | ∀ l ∈ params0.map Prod.fst, |val l - val0 l| < 1 / (j + 1)} := by
    rw [ae_all_iff]
    intro j
    refine C110_estimates hqr hroot hpm hm hsm hna hcon hobs hno hkappa hclip custom nan hΘ hv ?_ h0 ?_ params0 hparams0 P E Z hZ
    · have e : {val : Loc → ℝ | ∀ l ∈ params0.map Prod.fst, |val l - val0 l| < 1 / ((j : ℝ) + 1)} = ⋂ l ∈ {l | l ∈ params0.map Prod.fst}, {val : Loc → ℝ | |val l - val0 l| < 1 / ((j : ℝ) + 1)} := by
        ext val
        simp only [Set.mem_setOf_eq, Set.mem_iInter]
      rw [e]
      exact (List.finite_toSet (params0.map Prod.fst)).isOpen_biInter (fun l _ => isOpen_lt ((continuous_apply l).sub continuous_const).abs continuous_const)
    · intro val hmem hnd l hl
      have : val l = val0 l := by
        by_contra hne
        exact hnd (hident val hmem ⟨l, (hparams0.labels l).mp hl, hne⟩)
      rw [this, sub_self, abs_zero]
      positivity
  filter_upwards [hall] with ω hω
  obtain ⟨data, hdata, hbest, _⟩ := hω 0
  refine ⟨data, hdata, hbest, fun est hest l hl => ?_⟩
  rw [Metric.tendsto_atTop]
  intro ε hε
  obtain ⟨j, hj⟩ := exists_nat_one_div_lt hε
  obtain ⟨data', hdata', _, h⟩ := hω j
  obtain ⟨N, hN⟩ := Filter.eventually_atTop.mp h
  refine ⟨max N 2, fun n hn => ?_⟩
  have h2 : 2 ≤ n := (le_max_right N 2).trans hn
  have heq : data' n = data n := by
    have h1 := hdata n h2
    rw [hdata' n h2] at h1
    exact Except.ok.inj h1
  have h3 := hN n ((le_max_left N 2).trans hn) (est n)
  rw [heq] at h3
  rw [Real.dist_eq]
  exact (h3 (hest n h2) l ((hparams0.labels l).mpr hl)).trans hj

end Skill
