import Verif.Props.SameLikelihood
import Verif.Props.RescalingExamples
import Mathlib.Probability.CDF

/-! Example for C106: two values of an intercept can be told apart. -/

namespace Skill
open Matrix MeasureTheory ProbabilityTheory Spec
namespace Ex

/-- The parameter values of the example with a higher intercept of the measurement "y1" in period 0. -/
noncomputable def higherIntercept (l : Loc) : ℝ := if l = ⟨.controls, 0, "y1", "constant"⟩ then 3 / 2 else linearValues l

theorem higherIntercept_of_cat {l : Loc} (h : l.cat ≠ .controls) : higherIntercept l = linearValues l := if_neg (fun hl => h (by rw [hl]))

theorem higherIntercept_proper : ProperValues linearModel 1 higherIntercept where
  positive e he := by
    rw [higherIntercept_of_cat (by simp)]
    exact linearValues_proper.positive e he
  sum := by
    simp only [higherIntercept_of_cat (l := ⟨.mixtureWeights, _, _, _⟩) (by simp)]
    exact linearValues_proper.sum
  sds t v h := by
    rw [higherIntercept_of_cat (by simp)]
    exact linearValues_proper.sds t v h
  scales t f _ := by
    unfold anchorScale outcome
    exact one_ne_zero

theorem higherIntercept_value (cov : Covariates) (hone : cov.control 0 "constant" = 1) (e : ℕ) (z : Noise → ℝ) :
    measurementValue linearModel higherIntercept cov e z 0 "y1" = measurementValue linearModel linearValues cov e z 0 "y1" + 1 := by
  have hstart : latentStates linearModel higherIntercept cov e z 0 = latentStates linearModel linearValues cov e z 0 := by
    simp only [latentStates]
    unfold startState
    simp only [higherIntercept_of_cat (l := ⟨.initialStates, _, _, _⟩) (by simp), higherIntercept_of_cat (l := ⟨.initialCholcovs, _, _, _⟩) (by simp)]
  unfold measurementValue
  rw [hstart]
  simp only [higherIntercept_of_cat (l := ⟨.loadings, _, _, _⟩) (by simp), higherIntercept_of_cat (l := ⟨.measSds, _, _, _⟩) (by simp)]
  have hx : higherIntercept ⟨.controls, 0, "y1", "x"⟩ = 1 / 2 := by norm_num [higherIntercept, linearValues, show Cat.controls ≠ Cat.mixtureWeights by decide, show "x" ≠ "constant" by decide]
  have hc : higherIntercept ⟨.controls, 0, "y1", "constant"⟩ = 3 / 2 := if_pos rfl
  have hx' : linearValues ⟨.controls, 0, "y1", "x"⟩ = 1 / 2 := by norm_num [linearValues, show Cat.controls ≠ Cat.mixtureWeights by decide]
  have hc' : linearValues ⟨.controls, 0, "y1", "constant"⟩ = 1 / 2 := by norm_num [linearValues, show Cat.controls ≠ Cat.mixtureWeights by decide]
  simp only [linearModel, Option.getD_some, List.map_cons, List.map_nil, List.sum_cons, List.sum_nil, hx, hc, hx', hc', hone]
  ring

/-- A random variable does not have the same distribution if one is added to it. -/
theorem not_shift_invariant {Ω : Type} [MeasurableSpace Ω] {P : Measure Ω} [IsProbabilityMeasure P] {X : Ω → ℝ} (hX : Measurable X) : P.map X ≠ P.map (fun ω => X ω + 1) := by
  intro h
  have hstep : ∀ x : ℝ, P.map X (Set.Iic x) = P.map X (Set.Iic (x - 1)) := by
    intro x
    conv_lhs => rw [h]
    rw [Measure.map_apply (hX.add_const 1) measurableSet_Iic, Measure.map_apply hX measurableSet_Iic]
    congr 1
    ext ω
    simp [le_sub_iff_add_le]
  have hn : ∀ (n : ℕ) (x : ℝ), P.map X (Set.Iic x) = P.map X (Set.Iic (x - n)) := by
    intro n
    induction n with
    | zero => intro x; simp
    | succ n ih =>
      intro x
      rw [ih x, hstep (x - n)]
      congr 2
      push_cast
      ring
  have hprob : IsProbabilityMeasure (P.map X) := Measure.isProbabilityMeasure_map hX.aemeasurable
  have hcdf : ∀ (n : ℕ) (x : ℝ), cdf (P.map X) x = cdf (P.map X) (x - n) := fun n x => by
    rw [cdf_eq_real, cdf_eq_real, Measure.real, Measure.real, hn n x]
  have hzero : ∀ x : ℝ, cdf (P.map X) x = 0 := by
    intro x
    have h2 : Filter.Tendsto (fun n : ℕ => cdf (P.map X) (x - n)) Filter.atTop (nhds 0) :=
      (tendsto_cdf_atBot _).comp (Filter.tendsto_atBot_add_const_left _ _ (Filter.tendsto_neg_atTop_atBot.comp tendsto_natCast_atTop_atTop))
    simp only [← hcdf] at h2
    exact tendsto_nhds_unique tendsto_const_nhds h2
  have h4 := tendsto_cdf_atTop (P.map X)
  have h4 := h4.congr hzero
  exact zero_ne_one (tendsto_nhds_unique tendsto_const_nhds h4)

theorem linearModel_columns : SeparateColumns linearModel where
  measurements t v h := by
    have := ((linearModel_update t v).mp h).2
    simp only [List.mem_cons, List.not_mem_nil, or_false] at this
    rcases this with rfl | rfl | rfl <;> simp [linearModel]
  controls := by simp [linearModel]
  constant := by simp [linearModel]

theorem linearModel_factorNames (f : String) (hf : IsLatent linearModel f) : querySafe f := by
  obtain ⟨spec, hmem⟩ := hf
  simp only [linearModel, List.mem_cons, Prod.mk.injEq, List.not_mem_nil, or_false] at hmem
  rcases hmem with ⟨rfl, _⟩ | ⟨rfl, _⟩ <;> decide

/-- There is a dataset for which the two values of the intercept have a different log likelihood. -/
theorem linearModel_intercept_matters (custom : String → CustomFn) (nan : ℝ) : ∃ (qr : QR) (df : LongData ℝ) (inputs inputs' : MaximizationInputs) (params params' : List (Loc × ℝ)) (out out' : LoglikeOutput), ValidQR qr ∧
    (∀ l x, (l, x) ∈ params → x = linearValues l) ∧ (∀ l x, (l, x) ∈ params' → x = higherIntercept l) ∧ getMaximizationInputs linearModel df = .ok inputs ∧ getMaximizationInputs linearModel df = .ok inputs' ∧
    inputs.loglike qr custom nan linearModel params = .ok out ∧ inputs'.loglike qr custom nan linearModel params' = .ok out' ∧ out'.value ≠ out.value := by
  obtain ⟨qr, hqr⟩ := validQR
  obtain ⟨pm, hpm, _, hupd⟩ := linearModel_ok
  obtain ⟨Ω, _, P, E, Z, hP, hZ⟩ := exists_randomNoise (k := 1) (val := linearValues) (fun e he => (linearValues_proper.positive e he).le) linearValues_proper.sum
  have hZ' : RandomNoise P higherIntercept E Z := { hZ with element_weights := fun e => by rw [hZ.element_weights, higherIntercept_of_cat (by simp)] }
  have hno : NoClipping linearModel := ⟨_, rfl, rfl, Or.inl rfl⟩
  have hiff := C106_same_likelihood_iff hqr hqr hpm hpm linearModel_linear linearModel_linear rfl rfl linearModel_names linearModel_names linearModel_factorNames linearModel_factorNames hno hno (by rintro o x ⟨⟩ ⟨⟩) (by rintro o x ⟨⟩ ⟨⟩)
    ⟨fun _ => Iff.rfl, fun _ _ => Iff.rfl, fun _ _ => Iff.rfl, fun _ => Iff.rfl, fun _ => Iff.rfl⟩ linearModel_columns linearValues_proper higherIntercept_proper hZ hZ' custom custom nan nan
  have hnot : ¬SameDistribution P E Z P E Z linearModel linearValues linearModel higherIntercept := by
    intro h
    obtain ⟨hu1, hu2, _⟩ := C01_update_info_exact hpm
    have henum : Enumerates linearModel [(0, "y1"), (0, "y2"), (0, "w"), (1, "y1"), (1, "y2"), (1, "w")] := by
      rw [← hupd]
      exact ⟨hu1, fun t v => by rw [← hu2]; simp [List.mem_map]⟩
    have h := h _ henum completeCov (fun t v _ _ => rfl)
    have hmeas : ∀ val u, Measurable (fun ω => observedData u completeCov (measurementValue linearModel val completeCov (E ω) (fun j => Z j ω))) := fun val u =>
      (measurable_observed linearModel _ completeCov u).comp (hZ.measurable_element.prodMk (measurable_pi_iff.mpr hZ.measurable))
    have h := congrArg (Measure.map (fun y : Fin 6 → ℝ => y 0)) h
    have hmap := fun val => Measure.map_map (μ := P) (measurable_pi_apply (0 : Fin 6)) (hmeas val [(0, "y1"), (0, "y2"), (0, "w"), (1, "y1"), (1, "y2"), (1, "w")])
    have h := ((hmap _).symm.trans h).trans (hmap _)
    refine not_shift_invariant (P := P) ((measurable_pi_apply (0 : Fin 6)).comp (hmeas linearValues [(0, "y1"), (0, "y2"), (0, "w"), (1, "y1"), (1, "y2"), (1, "w")])) (h.trans ?_)
    congr 1
    funext ω
    exact higherIntercept_value completeCov rfl (E ω) (fun j => Z j ω)
  rw [hiff] at hnot
  push Not at hnot
  obtain ⟨df, ids, pers, inputs, inputs', params, params', out, out', _, _, _, _, _, _, _, _, hval, hval', hin, hin', hout, hout', hne⟩ := hnot
  exact ⟨qr, df, inputs, inputs', params, params', out, out', hqr, hval, hval', hin, hin', hout, hout', hne⟩

end Ex
end Skill
