import Verif.Lemmas.Affinity
import Mathlib.Analysis.MeanInequalities
import Mathlib.Topology.Semicontinuity.Basic
import Mathlib.MeasureTheory.Constructions.BorelSpace.Order
import Mathlib.MeasureTheory.Function.SpecialFunctions.Basic
import Mathlib.Analysis.SpecialFunctions.Pow.Continuity
import Mathlib.MeasureTheory.Integral.Lebesgue.DominatedConvergence

/-! How improbable it is that one of the densities of a compact set fits independent observations at least as well as the true density. -/

namespace Skill
open MeasureTheory ProbabilityTheory
open scoped ENNReal Topology

section
variable {F : Type} [MeasurableSpace F] {μ : Measure F} {p p0 : F → ℝ}

theorem power_affinity_lt_one (hp : Measurable p) (hp0 : Measurable p0) (hpos : ∀ y, 0 < p y) (hpos0 : ∀ y, 0 < p0 y) (h1 : ∫⁻ y, ENNReal.ofReal (p y) ∂μ = 1) (h10 : ∫⁻ y, ENNReal.ofReal (p0 y) ∂μ = 1)
    (hne : μ.withDensity (fun y => ENNReal.ofReal (p y)) ≠ μ.withDensity (fun y => ENNReal.ofReal (p0 y))) {s : ℝ} (hs : 0 < s) (hs2 : s ≤ 1 / 2) :
    ∫⁻ y, ENNReal.ofReal (p y) ^ s * ENNReal.ofReal (p0 y ^ (1 - s)) ∂μ < 1 := by
  have ha := affinity_lt_one hp hp0 hpos hpos0 h1 h10 hne
  have hle : ∀ y, ENNReal.ofReal (p y) ^ s * ENNReal.ofReal (p0 y ^ (1 - s)) ≤ ENNReal.ofReal (2 * s) * ENNReal.ofReal (Real.sqrt (p y * p0 y)) + ENNReal.ofReal (1 - 2 * s) * ENNReal.ofReal (p0 y) := by
    intro y
    have hp := hpos y
    have hp0 := hpos0 y
    rw [ENNReal.ofReal_rpow_of_pos hp, ← ENNReal.ofReal_mul (by positivity), ← ENNReal.ofReal_mul (by positivity), ← ENNReal.ofReal_mul (by linarith), ← ENNReal.ofReal_add (by positivity) (mul_nonneg (by linarith) hp0.le)]
    refine ENNReal.ofReal_le_ofReal (le_trans (le_of_eq ?_) (Real.geom_mean_le_arith_mean2_weighted (w₁ := 2 * s) (w₂ := 1 - 2 * s) (by linarith) (by linarith) (Real.sqrt_nonneg (p y * p0 y)) hp0.le (by ring)))
    rw [Real.sqrt_eq_rpow, ← Real.rpow_mul (by positivity), Real.mul_rpow hp.le hp0.le, mul_assoc, ← Real.rpow_add hp0]
    congr 2 <;> ring
  refine (lintegral_mono hle).trans_lt ?_
  have hm1 : Measurable (fun y => ENNReal.ofReal (Real.sqrt (p y * p0 y))) := ENNReal.measurable_ofReal.comp (hp.mul hp0).sqrt
  have hm2 : Measurable (fun y => ENNReal.ofReal (p0 y)) := ENNReal.measurable_ofReal.comp hp0
  rw [lintegral_add_left (hm1.const_mul _), lintegral_const_mul _ hm1, lintegral_const_mul _ hm2, h10, mul_one]
  calc ENNReal.ofReal (2 * s) * affinity μ p p0 + ENNReal.ofReal (1 - 2 * s) < ENNReal.ofReal (2 * s) * 1 + ENNReal.ofReal (1 - 2 * s) := by
        refine ENNReal.add_lt_add_right ENNReal.ofReal_ne_top ?_
        exact (ENNReal.mul_lt_mul_iff_right (by simpa using hs) ENNReal.ofReal_ne_top).mpr ha
    _ = 1 := by rw [mul_one, ← ENNReal.ofReal_add (by linarith) (by linarith)]; simp

variable [TopologicalSpace F] [OpensMeasurableSpace F] {X : Type} [TopologicalSpace X] [FirstCountableTopology X] {q : X → F → ℝ}

omit [FirstCountableTopology X] [TopologicalSpace X] in
theorem measurable_sup (hc : ∀ x, Continuous (q x)) (U : Set X) : Measurable (fun y => ⨆ x ∈ U, ENNReal.ofReal (q x y)) := by
  refine LowerSemicontinuous.measurable ?_
  exact lowerSemicontinuous_biSup (fun x _ => (ENNReal.continuous_ofReal.comp (hc x)).lowerSemicontinuous)

/-- A density that differs from the true one has a neighborhood whose best densities do not fit too well. -/
theorem exists_neighborhood (hc : ∀ x, Continuous (q x)) (hcx : ∀ y, Continuous (fun x => q x y)) (hpos : ∀ x y, 0 < q x y) (h1 : ∀ x, ∫⁻ y, ENNReal.ofReal (q x y) ∂μ = 1) {D : ℝ} (hD : ∀ x y, q x y ≤ D)
    (hp0 : Measurable p0) (hpos0 : ∀ y, 0 < p0 y) (h10 : ∫⁻ y, ENNReal.ofReal (p0 y) ∂μ = 1) {s : ℝ} (hs : 0 < s) (hs2 : s ≤ 1 / 2) (hfin : ∫⁻ y, ENNReal.ofReal (p0 y ^ (1 - s)) ∂μ ≠ ∞) (x : X)
    (hne : μ.withDensity (fun y => ENNReal.ofReal (q x y)) ≠ μ.withDensity (fun y => ENNReal.ofReal (p0 y))) :
    ∃ U ∈ 𝓝 x, ∫⁻ y, (⨆ x' ∈ U, ENNReal.ofReal (q x' y)) ^ s * ENNReal.ofReal (p0 y ^ (1 - s)) ∂μ < 1 := by
  obtain ⟨U, hU⟩ := (𝓝 x).exists_antitone_basis
  have hlim : ∀ y, Filter.Tendsto (fun i => ⨆ x' ∈ U i, ENNReal.ofReal (q x' y)) Filter.atTop (𝓝 (ENNReal.ofReal (q x y))) := by
    intro y
    rw [tendsto_order]
    constructor
    · intro a ha
      refine Filter.Eventually.of_forall (fun i => ha.trans_le ?_)
      exact le_iSup₂ (f := fun x' (_ : x' ∈ U i) => ENNReal.ofReal (q x' y)) x (mem_of_mem_nhds (hU.toHasBasis.mem_of_mem trivial))
    · intro b hb
      obtain ⟨c, hc1, hc2⟩ := exists_between hb
      have hev : ∀ᶠ x' in 𝓝 x, ENNReal.ofReal (q x' y) < c := (ENNReal.continuous_ofReal.comp (hcx y)).continuousAt.eventually (gt_mem_nhds hc1)
      obtain ⟨i, -, hi⟩ := hU.toHasBasis.mem_iff.mp hev
      filter_upwards [Filter.eventually_ge_atTop i] with j hj
      refine lt_of_le_of_lt (iSup₂_le (fun x' hx' => ?_)) hc2
      exact (hi (hU.antitone hj hx') : ENNReal.ofReal (q x' y) < c).le
  have hconv := tendsto_lintegral_of_dominated_convergence (μ := μ) (F := fun i y => (⨆ x' ∈ U i, ENNReal.ofReal (q x' y)) ^ s * ENNReal.ofReal (p0 y ^ (1 - s)))
    (f := fun y => ENNReal.ofReal (q x y) ^ s * ENNReal.ofReal (p0 y ^ (1 - s))) (fun y => ENNReal.ofReal D ^ s * ENNReal.ofReal (p0 y ^ (1 - s)))
    (fun i => ((measurable_sup hc _).pow_const s).mul (ENNReal.measurable_ofReal.comp (hp0.pow_const _)))
    (fun i => Filter.Eventually.of_forall (fun y => mul_le_mul_left (ENNReal.rpow_le_rpow (iSup₂_le (fun x' _ => ENNReal.ofReal_le_ofReal (hD x' y))) hs.le) _))
    (by
      rw [lintegral_const_mul (f := fun y => ENNReal.ofReal (p0 y ^ (1 - s))) _ (ENNReal.measurable_ofReal.comp (hp0.pow_const _))]
      exact ENNReal.mul_ne_top (ENNReal.rpow_ne_top_of_nonneg hs.le ENNReal.ofReal_ne_top) hfin)
    (Filter.Eventually.of_forall (fun y => ENNReal.Tendsto.mul_const ((ENNReal.continuous_rpow_const.tendsto _).comp (hlim y)) (Or.inr ENNReal.ofReal_ne_top)))
  have hev := hconv.eventually (gt_mem_nhds (power_affinity_lt_one (hc x).measurable hp0 (hpos x) hpos0 (h1 x) h10 hne hs hs2))
  obtain ⟨i, hi⟩ := hev.exists
  exact ⟨U i, hU.toHasBasis.mem_of_mem trivial, hi⟩

end

variable {Ω : Type} [MeasurableSpace Ω] {P : Measure Ω} [IsProbabilityMeasure P] {F : Type} [MeasurableSpace F] {μ : Measure F} {p0 : F → ℝ}

omit [IsProbabilityMeasure P] in
/-- The probability that a function `u` above all densities of a set fits at least as well. -/
theorem sup_beaten {X : Type} {q : X → F → ℝ} {u : F → ℝ≥0∞} (hu : Measurable u) {U : Set X} (hle : ∀ x ∈ U, ∀ y, ENNReal.ofReal (q x y) ≤ u y) (hpos : ∀ x y, 0 < q x y) (hp0 : Measurable p0) (hpos0 : ∀ y, 0 < p0 y) {s : ℝ} (hs : 0 < s)
    {Y : ℕ → Ω → F} {n : ℕ} (hY : ∀ i, Measurable (Y i)) (hind : iIndepFun Y P) (hlaw : ∀ i < n, P.map (Y i) = μ.withDensity (fun y => ENNReal.ofReal (p0 y))) :
    P {ω | ∃ x ∈ U, ∑ i ∈ Finset.range n, Real.log (p0 (Y i ω)) ≤ ∑ i ∈ Finset.range n, Real.log (q x (Y i ω))} ≤ (∫⁻ y, u y ^ s * ENNReal.ofReal (p0 y ^ (1 - s)) ∂μ) ^ n := by
  have hm : Measurable (fun y => u y ^ s * ENNReal.ofReal (p0 y ^ (-s))) := (hu.pow_const s).mul (ENNReal.measurable_ofReal.comp (hp0.pow_const _))
  have hone : ∀ i < n, ∫⁻ ω, u (Y i ω) ^ s * ENNReal.ofReal (p0 (Y i ω) ^ (-s)) ∂P = ∫⁻ y, u y ^ s * ENNReal.ofReal (p0 y ^ (1 - s)) ∂μ := by
    intro i hi
    rw [← lintegral_map (f := fun y => u y ^ s * ENNReal.ofReal (p0 y ^ (-s))) hm (hY i), hlaw i hi, lintegral_withDensity_eq_lintegral_mul μ (f := fun y => ENNReal.ofReal (p0 y)) (ENNReal.measurable_ofReal.comp hp0) hm]
    refine lintegral_congr (fun y => ?_)
    rw [Pi.mul_apply, mul_left_comm, ← ENNReal.ofReal_mul (hpos0 y).le, sub_eq_add_neg, Real.rpow_add (hpos0 y), Real.rpow_one]
  have hmean : ∫⁻ ω, ∏ i ∈ Finset.range n, u (Y i ω) ^ s * ENNReal.ofReal (p0 (Y i ω) ^ (-s)) ∂P = (∫⁻ y, u y ^ s * ENNReal.ofReal (p0 y ^ (1 - s)) ∂μ) ^ n := by
    rw [lintegral_prod_eq_prod_lintegral_of_indepFun (Finset.range n) (fun i ω => u (Y i ω) ^ s * ENNReal.ofReal (p0 (Y i ω) ^ (-s)))
      (hind.comp (fun i y => u y ^ s * ENNReal.ofReal (p0 y ^ (-s))) (fun _ => hm)) (fun i => hm.comp (hY i))]
    rw [Finset.prod_congr rfl (fun i hi => hone i (Finset.mem_range.mp hi)), Finset.prod_const, Finset.card_range]
  rw [← hmean]
  have h2 := mul_meas_ge_le_lintegral₀ (μ := P) (f := fun ω => ∏ i ∈ Finset.range n, u (Y i ω) ^ s * ENNReal.ofReal (p0 (Y i ω) ^ (-s)))
    (Finset.measurable_prod (f := fun i ω => u (Y i ω) ^ s * ENNReal.ofReal (p0 (Y i ω) ^ (-s))) _ (fun i _ => hm.comp (hY i))).aemeasurable 1
  rw [one_mul] at h2
  refine (measure_mono (fun ω hω => ?_)).trans h2
  obtain ⟨x, hx, hω⟩ := hω
  show 1 ≤ ∏ i ∈ Finset.range n, u (Y i ω) ^ s * ENNReal.ofReal (p0 (Y i ω) ^ (-s))
  refine le_trans ?_ (Finset.prod_le_prod' (fun i _ => mul_le_mul_left (ENNReal.rpow_le_rpow (hle x hx (Y i ω)) hs.le) _))
  have e : ∀ i, ENNReal.ofReal (q x (Y i ω)) ^ s * ENNReal.ofReal (p0 (Y i ω) ^ (-s)) = ENNReal.ofReal (Real.exp (s * (Real.log (q x (Y i ω)) - Real.log (p0 (Y i ω))))) := by
    intro i
    have hq := hpos x (Y i ω)
    have hp := hpos0 (Y i ω)
    rw [ENNReal.ofReal_rpow_of_pos hq, ← ENNReal.ofReal_mul (by positivity), Real.rpow_def_of_pos hq, Real.rpow_def_of_pos hp, ← Real.exp_add]
    congr 2
    ring
  rw [Finset.prod_congr rfl (fun i _ => e i), ← ENNReal.ofReal_prod_of_nonneg (fun i _ => (Real.exp_pos _).le), ← Real.exp_sum, ← ENNReal.ofReal_one]
  refine ENNReal.ofReal_le_ofReal (Real.one_le_exp ?_)
  rw [← Finset.mul_sum, Finset.sum_sub_distrib]
  exact mul_nonneg hs.le (by linarith)

/-- The probability that one of the densities of a compact set fits at least as well as the true density. -/
theorem compact_beaten [TopologicalSpace F] [OpensMeasurableSpace F] {X : Type} [TopologicalSpace X] [FirstCountableTopology X] [CompactSpace X] {q : X → F → ℝ}
    (hc : ∀ x, Continuous (q x)) (hcx : ∀ y, Continuous (fun x => q x y)) (hpos : ∀ x y, 0 < q x y) (h1 : ∀ x, ∫⁻ y, ENNReal.ofReal (q x y) ∂μ = 1) {D : ℝ} (hD : ∀ x y, q x y ≤ D)
    (hp0 : Measurable p0) (hpos0 : ∀ y, 0 < p0 y) (h10 : ∫⁻ y, ENNReal.ofReal (p0 y) ∂μ = 1) {s : ℝ} (hs : 0 < s) (hs2 : s ≤ 1 / 2) (hfin : ∫⁻ y, ENNReal.ofReal (p0 y ^ (1 - s)) ∂μ ≠ ∞)
    (hne : ∀ x, μ.withDensity (fun y => ENNReal.ofReal (q x y)) ≠ μ.withDensity (fun y => ENNReal.ofReal (p0 y))) :
    ∃ (C : ℕ) (ρ : ℝ≥0∞), ρ < 1 ∧ ∀ {Ω : Type} [MeasurableSpace Ω] (P : Measure Ω) [IsProbabilityMeasure P] (Y : ℕ → Ω → F) (n : ℕ), (∀ i, Measurable (Y i)) → iIndepFun Y P →
      (∀ i < n, P.map (Y i) = μ.withDensity (fun y => ENNReal.ofReal (p0 y))) →
      P {ω | ∃ x, ∑ i ∈ Finset.range n, Real.log (p0 (Y i ω)) ≤ ∑ i ∈ Finset.range n, Real.log (q x (Y i ω))} ≤ C * ρ ^ n := by
  choose U hU hlt using fun x => exists_neighborhood hc hcx hpos h1 hD hp0 hpos0 h10 hs hs2 hfin x (hne x)
  obtain ⟨t, ht⟩ := CompactSpace.elim_nhds_subcover U hU
  let r : X → ℝ≥0∞ := fun x => ∫⁻ y, (⨆ x' ∈ U x, ENNReal.ofReal (q x' y)) ^ s * ENNReal.ofReal (p0 y ^ (1 - s)) ∂μ
  refine ⟨t.card, t.sup r, (Finset.sup_lt_iff (by norm_num)).mpr (fun x _ => hlt x), ?_⟩
  intro Ω _ P _ Y n hY hind hlaw
  calc P {ω | ∃ x, ∑ i ∈ Finset.range n, Real.log (p0 (Y i ω)) ≤ ∑ i ∈ Finset.range n, Real.log (q x (Y i ω))}
      ≤ P (⋃ x ∈ t, {ω | ∃ x' ∈ U x, ∑ i ∈ Finset.range n, Real.log (p0 (Y i ω)) ≤ ∑ i ∈ Finset.range n, Real.log (q x' (Y i ω))}) := by
        refine measure_mono (fun ω => ?_)
        rintro ⟨x, hx⟩
        have : x ∈ ⋃ x ∈ t, U x := ht ▸ Set.mem_univ x
        simp only [Set.mem_iUnion, exists_prop] at this ⊢
        obtain ⟨x0, h0, h1⟩ := this
        exact ⟨x0, h0, x, h1, hx⟩
    _ ≤ ∑ x ∈ t, P {ω | ∃ x' ∈ U x, ∑ i ∈ Finset.range n, Real.log (p0 (Y i ω)) ≤ ∑ i ∈ Finset.range n, Real.log (q x' (Y i ω))} := measure_biUnion_finset_le _ _
    _ ≤ ∑ x ∈ t, (t.sup r) ^ n := Finset.sum_le_sum (fun x hx => (sup_beaten (measurable_sup hc (U x)) (fun x' hx' y => le_iSup₂ (f := fun x' (_ : x' ∈ U x) => ENNReal.ofReal (q x' y)) x' hx') hpos hp0 hpos0 hs hY hind hlaw).trans
        (pow_le_pow_left' (Finset.le_sup (f := r) hx) n))
    _ = _ := by rw [Finset.sum_const, nsmul_eq_mul]

end Skill
