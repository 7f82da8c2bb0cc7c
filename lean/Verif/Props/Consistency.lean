import Verif.Props.LikelihoodRatio
import Verif.Spec.Consistency
import Verif.Lemmas.Affinity
import Mathlib.MeasureTheory.OuterMeasure.BorelCantelli

/-! With many individuals, the true parameters have a higher likelihood than other parameters (C109). -/

namespace Skill
open Matrix MeasureTheory ProbabilityTheory Spec
open scoped ENNReal

section
variable {qr : QR} {custom : String → CustomFn} {nan : ℝ} {m : ModelDict ℝ} {k : ℕ} {updates : List (Nat × String)}

theorem DensityFor.affinity_le {val val0 : Loc → ℝ} {density density0 : Covariates → (Fin updates.length → ℝ) → ℝ} (hd : DensityFor qr custom nan m k updates val density) (hd0 : DensityFor qr custom nan m k updates val0 density0)
    (hv : ProperValues m k val) (hv0 : ProperValues m k val0) (cov : Covariates) : affinity (referenceMeasure updates cov) (density cov) (density0 cov) ≤ 1 :=
  affinity_le_one (hd.continuous _).measurable (hd0.continuous _).measurable (hd.pos _) (hd0.pos _) (hd.total hv _) (hd0.total hv0 _)

theorem DensityFor.affinity_lt {val val0 : Loc → ℝ} {density density0 : Covariates → (Fin updates.length → ℝ) → ℝ} (hd : DensityFor qr custom nan m k updates val density) (hd0 : DensityFor qr custom nan m k updates val0 density0)
    (hv : ProperValues m k val) (hv0 : ProperValues m k val0) (hup : Enumerates m updates) {cov : Covariates} (hdiff : DataDiffer m k val0 val cov) : affinity (referenceMeasure updates cov) (density cov) (density0 cov) < 1 := by
  refine affinity_lt_one (hd.continuous _).measurable (hd0.continuous _).measurable (hd.pos _) (hd0.pos _) (hd.total hv _) (hd0.total hv0 _) (fun heq => ?_)
  obtain ⟨Ω, _, P, E, Z, _, hZ⟩ := exists_randomNoise (k := k) (fun e he => (hv0.positive e he).le) hv0.sum
  obtain ⟨Ω', _, P', E', Z', _, hZ'⟩ := exists_randomNoise (k := k) (fun e he => (hv.positive e he).le) hv.sum
  refine hdiff _ _ P P' E E' Z Z' hZ hZ' updates hup ?_
  rw [hd0.law cov P E Z hZ, hd.law cov P' E' Z' hZ', heq]

end

/-- **C109.** In the situation of C99, let `val` be values of the parameters other than the true values `val0`, and `c` covariates with which the data are distributed differently with the two. There is a number less than one, the
same for all datasets, such that the probability that `loglike` is at `val` at least as high as at the true parameters is at most this number to the power of the number of individuals with the covariates `c`. -/
theorem C109_wrong_parameters {qr : QR} (hqr : ValidQR qr) {m : ModelDict ℝ} {pm : Processed ℝ} (hpm : processModel m = .ok pm) {k : ℕ} (hm : LinearModel m k) (hna : m.anchoring = none) (hg : GoodNames m)
    (hkappa : ∀ o x, m.estimationOptions = some o → o.sigmaPointsScale = some x → 0 ≤ x) (hclip : NoClipping m) {val0 val : Loc → ℝ} (hv0 : ProperValues m k val0) (hv : ProperValues m k val) (custom : String → CustomFn) (nan : ℝ)
    (c : Covariates) (hdiff : DataDiffer m k val0 val c) : ∃ ρ < 1, ∀
    {Ω : Type} [MeasurableSpace Ω] (P : Measure Ω) [IsProbabilityMeasure P] (E : Nat → Ω → Fin k) (Z : Nat → Noise → Ω → ℝ), (∀ i, RandomNoise P val0 (E i) (Z i)) → iIndepFun (fun i ω => (E i ω, fun j => Z i j ω)) P →
    ∀ (df : Ω → LongData ℝ) (ids pers : List Int) (cov : Nat → Covariates), (∀ ω, IndexOk (df ω) ∧ NoUnusedPeriods (df ω) ∧ IdsOf (df ω) ids ∧ PeriodsOf (df ω) pers) →
    (∀ ω, ∀ i < ids.length, Describes m (df ω) ids pers i (cov i) (measurementValue m val0 (cov i) (E i ω) (fun j => Z i j ω))) →
    ∀ (params0 params : List (Loc × ℝ)), (params0.map Prod.fst).Nodup → (∀ l x, (l, x) ∈ params0 → x = val0 l) → (params.map Prod.fst).Nodup → (∀ l x, (l, x) ∈ params → x = val l) →
    ∀ (inputs : Ω → MaximizationInputs) (out0 out : Ω → LoglikeOutput),
    (∀ᵐ ω ∂P, getMaximizationInputs m (df ω) = .ok (inputs ω) ∧ (inputs ω).loglike qr custom nan m params0 = .ok (out0 ω) ∧ (inputs ω).loglike qr custom nan m params = .ok (out ω)) →
    ∀ s : Finset ℕ, (∀ i ∈ s, i < ids.length ∧ cov i = c) → P {ω | (out0 ω).value ≤ (out ω).value} ≤ ρ ^ s.card := by
  obtain ⟨updates, hup, density, hdens⟩ := density_of_values hqr hpm hm hna hg hkappa custom nan
  have hd0 := hdens val0 hv0
  have hd := hdens val hv
  refine ⟨affinity (referenceMeasure updates c) (density val c) (density val0 c), hd.affinity_lt hd0 hv hv0 hup hdiff, ?_⟩
  intro Ω _ P _ E Z hZ hind df ids pers cov hdf hdesc params0 params hn0 hval0 hn hval inputs out0 out hout s hs
  have hobs : ∀ i, Measurable (fun d : Fin k × (Noise → ℝ) => observedData updates (cov i) (measurementValue m val0 (cov i) d.1 d.2)) := fun i => measurable_observed m val0 (cov i) updates
  have hsub : s ⊆ Finset.range ids.length := fun i hi => Finset.mem_range.mpr (hs i hi).1
  calc P {ω | (out0 ω).value ≤ (out ω).value}
      ≤ P {ω | ∑ i ∈ Finset.range ids.length, Real.log (density val0 (cov i) (observedData updates (cov i) (measurementValue m val0 (cov i) (E i ω) (fun j => Z i j ω)))) ≤
          ∑ i ∈ Finset.range ids.length, Real.log (density val (cov i) (observedData updates (cov i) (measurementValue m val0 (cov i) (E i ω) (fun j => Z i j ω))))} := by
        refine measure_mono_ae ?_
        filter_upwards [hout] with ω h hle
        have hle : (out0 ω).value ≤ (out ω).value := hle
        obtain ⟨hin, h0, h⟩ := h
        obtain ⟨h1, h2, h3, h4⟩ := hdf ω
        obtain ⟨hl0, hvalue0⟩ := hd0.value _ ids pers _ params0 _ h1 h2 h3 h4 hn0 hval0 hin h0
        obtain ⟨hl, hvalue⟩ := hd.value _ ids pers _ params _ h1 h2 h3 h4 hn hval hin h
        rw [hvalue0, hvalue, sum_range_getD, hl0, sum_range_getD, hl] at hle
        rw [Finset.sum_congr rfl (fun i hi => (hd0.loglike _ ids pers _ params0 _ h1 h2 h3 h4 hn0 hval0 hin h0 i (cov i) _ (Finset.mem_range.mp hi) (hdesc ω i (Finset.mem_range.mp hi))).2 hclip),
          Finset.sum_congr rfl (fun i hi => (hd.loglike _ ids pers _ params _ h1 h2 h3 h4 hn hval hin h i (cov i) _ (Finset.mem_range.mp hi) (hdesc ω i (Finset.mem_range.mp hi))).2 hclip)] at hle
        exact hle
    _ ≤ ∏ i ∈ Finset.range ids.length, affinity (referenceMeasure updates (cov i)) (density val (cov i)) (density val0 (cov i)) :=
        beaten_le_affinity (F := fun _ => Fin updates.length → ℝ) (μ := fun i => referenceMeasure updates (cov i)) (Y := fun i ω => observedData updates (cov i) (measurementValue m val0 (cov i) (E i ω) (fun j => Z i j ω)))
          (p := fun i => density val (cov i)) (p0 := fun i => density val0 (cov i)) (fun i => (hobs i).comp ((hZ i).measurable_element.prodMk (measurable_pi_iff.mpr (hZ i).measurable)))
          (hind.comp (fun i d => observedData updates (cov i) (measurementValue m val0 (cov i) d.1 d.2)) hobs) (fun i => (hd.continuous _).measurable) (fun i => (hd0.continuous _).measurable) (fun i => hd.pos _) (fun i => hd0.pos _)
          (fun i _ => hd0.law (cov i) P (E i) (Z i) (hZ i))
    _ ≤ ∏ i ∈ s, affinity (referenceMeasure updates (cov i)) (density val (cov i)) (density val0 (cov i)) := by
        rw [← Finset.prod_sdiff hsub]
        exact mul_le_of_le_one_left' (Finset.prod_le_one' (fun i _ => hd.affinity_le hd0 hv hv0 _))
    _ = _ := by
        rw [Finset.prod_congr rfl (fun i hi => by rw [(hs i hi).2]), Finset.prod_const]

/-- **C109**, for simulated data: simulate n individuals with simulate_dataset, at the parameters `params0`. There is a number less than one such that for every n ≥ 2, the probability that the likelihood function of the simulated measurements
can be evaluated and is higher at `params0` than at `params` is at least one minus this number to the power of n, if the measurements of an individual are distributed differently with the two. -/
theorem C109_simulated_data {qr : QR} (hqr : ValidQR qr) {root : NormalRoot} (hroot : ValidRoot root) {m : ModelDict ℝ} {pm : Processed ℝ} (hpm : processModel m = .ok pm) {k : ℕ} (hm : LinearModel m k)
    (hsm : SimulationModel m k) (hna : m.anchoring = none) (hcon : m.controls.getD [] = []) (hobs : m.observedFactors.getD [] = []) (hno : ∀ t v, IsUpdate m t v → v ≠ "constant")
    (hkappa : ∀ o x, m.estimationOptions = some o → o.sigmaPointsScale = some x → 0 ≤ x) (hclip : NoClipping m) {val0 val : Loc → ℝ} (hv0 : ProperValues m k val0) (hv : ProperValues m k val) (custom : String → CustomFn) (nan : ℝ)
    (hdiff : DataDiffer m k val0 val noCovariates)
    (params0 params : List (Loc × ℝ)) (hn0 : (params0.map Prod.fst).Nodup) (hlab0 : ∀ l, l ∈ params0.map Prod.fst ↔ IsParam m l) (hval0 : ∀ l x, (l, x) ∈ params0 → x = val0 l)
    (hn : (params.map Prod.fst).Nodup) (hlab : ∀ l, l ∈ params.map Prod.fst ↔ IsParam m l) (hval : ∀ l x, (l, x) ∈ params → x = val l) :
    ∃ ρ < 1, ∀ n, 2 ≤ n → ∀ {Ω : Type} [MeasurableSpace Ω] (P : Measure Ω) [IsProbabilityMeasure P] (E : Nat → Ω → Fin k) (Z : Nat → Draw → Ω → ℝ), RandomDatasetDraws P val0 E Z →
      P {ω | ¬ ∃ data inputs out0 out, simulateDataset root custom nan m params0 (some n) none [] (drawsWith (fun i => E i ω) (fun i j => Z i j ω)) = .ok data ∧
        getMaximizationInputs m (asDataset data.measurements) = .ok inputs ∧ inputs.loglike qr custom nan m params0 = .ok out0 ∧ inputs.loglike qr custom nan m params = .ok out ∧ out.value < out0.value} ≤ ρ ^ n := by
  obtain ⟨updates, hup, density, hdens⟩ := density_of_values hqr hpm hm hna hsm.names hkappa custom nan
  have hd0 := hdens val0 hv0
  have hd := hdens val hv
  have hparams0 : HasParams m params0 val0 := ⟨hn0, fun l hl => by
    obtain ⟨⟨l', x⟩, hx, rfl⟩ := List.mem_map.mp ((hlab0 l).mpr hl)
    rw [← hval0 l' x hx]
    exact hx⟩
  refine ⟨affinity (referenceMeasure updates noCovariates) (density val noCovariates) (density val0 noCovariates), hd.affinity_lt hd0 hv hv0 hup hdiff, ?_⟩
  intro n h2n Ω _ P _ E Z hZ
  obtain ⟨out, X, h1, h2, h3, h4, h5⟩ := simulated_estimation hroot hpm hm hsm hna hcon hobs hno custom nan hup hdens hv0 params0 n hparams0 h2n P E Z hZ
  have hcell : Measurable (fun (x : Cell m → ℝ) (j : Fin updates.length) => x (measurementCell hup j)) := measurable_pi_iff.mpr (fun j => measurable_pi_apply _)
  have hb := beaten_le_affinity (n := n) (F := fun _ => Fin updates.length → ℝ) (μ := fun i => referenceMeasure updates noCovariates) (Y := fun i ω j => X i ω (measurementCell hup j))
      (p := fun i => density val noCovariates) (p0 := fun i => density val0 noCovariates) (fun i => hcell.comp (h2 i)) (h3.comp (fun i x j => x (measurementCell hup j)) (fun _ => hcell))
      (fun i => (hd.continuous _).measurable) (fun i => (hd0.continuous _).measurable) (fun i => hd.pos _) (fun i => hd0.pos _) (fun i hi => h4 i hi)
  rw [Finset.prod_const, Finset.card_range] at hb
  refine (measure_mono_ae ?_).trans hb
  filter_upwards [h5] with ω h hnot
  obtain ⟨inputs, hin, h⟩ := h
  obtain ⟨r0, a1, a2, a3, a4⟩ := h params0 val0 hn0 hlab0 hval0
  obtain ⟨r, b1, b2, b3, b4⟩ := h params val hn hlab hval
  by_contra hlt
  refine hnot ⟨out ω, inputs, r0, r, (h1 ω).1, hin, a1, b1, ?_⟩
  rw [a3, sum_range_getD, a2, b3, sum_range_getD, b2, Finset.sum_congr rfl (fun i hi => ((a4 hv0 i (Finset.mem_range.mp hi)).2 hclip)), Finset.sum_congr rfl (fun i hi => ((b4 hv i (Finset.mem_range.mp hi)).2 hclip))]
  exact not_le.mp hlt

/-- **C109**, for simulated datasets of growing size: almost surely, the likelihood at the parameters of the simulation is higher than at each of finitely many parameters with other implications for the data, for all but finitely many sizes of the
dataset. (The datasets of different sizes can be simulated with the same or with other random numbers: `E n` and `Z n` are those for n individuals.) -/
theorem C109_growing_data {qr : QR} (hqr : ValidQR qr) {root : NormalRoot} (hroot : ValidRoot root) {m : ModelDict ℝ} {pm : Processed ℝ} (hpm : processModel m = .ok pm) {k : ℕ} (hm : LinearModel m k)
    (hsm : SimulationModel m k) (hna : m.anchoring = none) (hcon : m.controls.getD [] = []) (hobs : m.observedFactors.getD [] = []) (hno : ∀ t v, IsUpdate m t v → v ≠ "constant")
    (hkappa : ∀ o x, m.estimationOptions = some o → o.sigmaPointsScale = some x → 0 ≤ x) (hclip : NoClipping m) {val0 : Loc → ℝ} (hv0 : ProperValues m k val0) (custom : String → CustomFn) (nan : ℝ)
    (params0 : List (Loc × ℝ)) (hn0 : (params0.map Prod.fst).Nodup) (hlab0 : ∀ l, l ∈ params0.map Prod.fst ↔ IsParam m l) (hval0 : ∀ l x, (l, x) ∈ params0 → x = val0 l)
    (candidates : Set (List (Loc × ℝ))) (hfin : candidates.Finite) (hcand : ∀ params ∈ candidates, (params.map Prod.fst).Nodup ∧ (∀ l, l ∈ params.map Prod.fst ↔ IsParam m l) ∧
      ∃ val, ProperValues m k val ∧ (∀ l x, (l, x) ∈ params → x = val l) ∧ DataDiffer m k val0 val noCovariates)
    {Ω : Type} [MeasurableSpace Ω] (P : Measure Ω) [IsProbabilityMeasure P] (E : Nat → Nat → Ω → Fin k) (Z : Nat → Nat → Draw → Ω → ℝ) (hZ : ∀ n, RandomDatasetDraws P val0 (E n) (Z n)) :
    ∀ᵐ ω ∂P, ∀ᶠ n in Filter.atTop, ∀ params ∈ candidates, ∃ data inputs out0 out,
      simulateDataset root custom nan m params0 (some n) none [] (drawsWith (fun i => E n i ω) (fun i j => Z n i j ω)) = .ok data ∧
      getMaximizationInputs m (asDataset data.measurements) = .ok inputs ∧ inputs.loglike qr custom nan m params0 = .ok out0 ∧ inputs.loglike qr custom nan m params = .ok out ∧ out.value < out0.value := by
  simp only [Filter.eventually_all_finite hfin]
  intro params hp
  obtain ⟨hn, hlab, val, hv, hval, hdiff⟩ := hcand params hp
  obtain ⟨ρ, hρ, h⟩ := C109_simulated_data hqr hroot hpm hm hsm hna hcon hobs hno hkappa hclip hv0 hv custom nan hdiff params0 params hn0 hlab0 hval0 hn hlab hval
  have hsum : ∑' n, P {ω | ¬ ∃ data inputs out0 out, simulateDataset root custom nan m params0 (some (n + 2)) none [] (drawsWith (fun i => E (n + 2) i ω) (fun i j => Z (n + 2) i j ω)) = .ok data ∧
      getMaximizationInputs m (asDataset data.measurements) = .ok inputs ∧ inputs.loglike qr custom nan m params0 = .ok out0 ∧ inputs.loglike qr custom nan m params = .ok out ∧ out.value < out0.value} ≠ ∞ := by
    refine ne_top_of_le_ne_top ?_ (ENNReal.tsum_le_tsum (fun n => (h (n + 2) (by omega) P (E (n + 2)) (Z (n + 2)) (hZ _)).trans (pow_le_pow_right_of_le_one' hρ.le (Nat.le_add_right n 2))))
    rw [ENNReal.tsum_geometric]
    exact ENNReal.inv_ne_top.mpr (tsub_pos_of_lt hρ).ne'
  filter_upwards [ae_eventually_notMem hsum] with ω hω
  rw [← Filter.map_add_atTop_eq_nat 2, Filter.eventually_map]
  filter_upwards [hω] with n hn
  exact not_not.mp hn

end Skill
