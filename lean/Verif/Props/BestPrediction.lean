import Verif.Lemmas.BestPrediction
import Verif.Props.FilteredStates
import Verif.Lemmas.DataMoments
import Verif.Props.AnchoredExamples
/-
C124: filtered states have the smallest mean squared error.
-/
namespace Skill
open Matrix MeasureTheory ProbabilityTheory Spec

/-- The data of an individual if fewer measurements are observed. -/
theorem observedData_only (updates : List (Nat × String)) (cov : Covariates) (p q : Nat → String → Prop) (y : Nat → String → ℝ) (j : Fin updates.length) :
    observedData updates ((cov.only p).only q) y j = if @decide (p (updates.get j).1 (updates.get j).2) (Classical.dec _) then observedData updates (cov.only q) y j else 0 := by
  unfold observedData
  show (if (@decide (q _ _) (Classical.dec _) && (@decide (p _ _) (Classical.dec _) && cov.isObserved _ _)) = true then _ else _) = if _ then (if (@decide (q _ _) (Classical.dec _) && cov.isObserved _ _) = true then _ else _) else _
  cases @decide (p (updates.get j).1 (updates.get j).2) (Classical.dec _)
  · simp
  · rw [Bool.true_and, if_pos rfl]

/-- **C124**: in the models of C85, the filtered states are the estimates of the latent factors with the smallest mean squared error: in each random experiment with the noise of the model

* this error is finite;
* no other function of the measurements up to the period has a smaller error;
* the error does not decrease if some measurements are missing (those that do not satisfy `p`).

The unanchored filtered states of get_filtered_states are these estimates, at the measurements of the individual. -/
theorem C124_smallest_error {qr : QR} (hqr : ValidQR qr) {m : ModelDict ℝ} {pm : Processed ℝ} (hpm : processModel m = .ok pm) {k : ℕ} (hm : LinearModel m k) (hanch : m.anchoring = none ∨ k = 1) (hg : GoodNames m)
    (hnames : ∀ f, IsLatent m f → f ≠ "period" ∧ f ≠ "id") (hkappa : ∀ o x, m.estimationOptions = some o → o.sigmaPointsScale = some x → 0 ≤ x) {val : Loc → ℝ} (hv : ProperValues m k val)
    (custom : String → CustomFn) (nan : ℝ) :
    ∃ updates, Enumerates m updates ∧ ∃ estimate : Covariates → Nat → (Fin updates.length → ℝ) → String → ℝ,
      (∀ (cov : Covariates) (t : Nat) (f : String), IsPeriod m t → IsLatent m f →
        ∀ {Ω : Type} [MeasurableSpace Ω] (P : Measure Ω) [IsProbabilityMeasure P] (E : Ω → Fin k) (Z : Noise → Ω → ℝ), RandomNoise P val E Z →
          let data := fun (cov : Covariates) ω => observedData updates (cov.only (fun s v => s ≤ t ∧ IsMeasurement m s v)) (measurementValue m val cov (E ω) (fun a => Z a ω))
          let error := fun (estimate : Ω → ℝ) => ∫⁻ ω, ENNReal.ofReal ((latentStates m val cov (E ω) (fun a => Z a ω) t f - estimate ω) ^ 2) ∂P
          error (fun ω => estimate cov t (data cov ω) f) < ⊤ ∧
          (∀ g : (Fin updates.length → ℝ) → ℝ, Measurable g → error (fun ω => estimate cov t (data cov ω) f) ≤ error (fun ω => g (data cov ω))) ∧
          ∀ p : Nat → String → Prop, error (fun ω => estimate cov t (data cov ω) f) ≤ error (fun ω => estimate (cov.only p) t (data (cov.only p) ω) f)) ∧
      ∀ (df : LongData ℝ) (ids pers : List Int) (params : List (Loc × ℝ)) (out : FilteredStates), IndexOk df → NoUnusedPeriods df → IdsOf df ids → PeriodsOf df pers →
        (params.map Prod.fst).Nodup → (∀ l x, (l, x) ∈ params → x = val l) → getFilteredStates qr custom nan m df params = .ok out →
        ∀ (t i : Nat) (cov : Covariates) (y : Nat → String → ℝ), IsPeriod m t → i < ids.length → Describes m df ids pers i cov y →
          ∃ cells, out.unanchored.states.rows[t * ids.length + i]? = some (t, cells) ∧ cells "period" = t ∧ cells "id" = i ∧
            ∀ f, IsLatent m f → cells f = estimate cov t (observedData updates (cov.only (fun s v => s ≤ t ∧ IsMeasurement m s v)) y) f := by
  obtain ⟨updates, hen, mean, hcont, hlaw, hrows⟩ := C85_filtered_states hqr hpm hm hanch hg hnames hkappa hv custom nan
  refine ⟨updates, hen, mean, ?_, fun df ids pers params out h1 h2 h3 h4 h5 h6 h7 t i cov y ht hi hd => ((hrows df ids pers params out h1 h2 h3 h4 h5 h6 h7).2 t i cov y ht hi hd).1⟩
  intro cov t f ht hf Ω _ P _ E Z hZ data error
  obtain ⟨_, hD, hY⟩ := hlaw cov t f ht hf P E Z hZ
  have hX : MemLp (fun ω => latentStates m val cov (E ω) (fun a => Z a ω) t f) 2 P := memLp_choice hZ.measurable_element (fun e => memLp_states hZ m val cov e t f)
  have hbest : ∀ g : (Fin updates.length → ℝ) → ℝ, Measurable g → error (fun ω => mean cov t (data cov ω) f) ≤ error (fun ω => g (data cov ω)) := fun g hg => best_prediction hX hD hY hg
  refine ⟨?_, hbest, fun p => ?_⟩
  · refine lt_of_le_of_lt (hbest (fun _ => 0) measurable_const) ?_
    show ∫⁻ ω, ENNReal.ofReal ((latentStates m val cov (E ω) (fun a => Z a ω) t f - 0) ^ 2) ∂P < ⊤
    simp only [sub_zero]
    rw [lintegral_sq hX]
    exact ENNReal.ofReal_lt_top
  · have hmask : ∀ ω, data (cov.only p) ω = (fun (y : Fin updates.length → ℝ) j => if @decide (p (updates.get j).1 (updates.get j).2) (Classical.dec _) then y j else 0) (data cov ω) := by
      intro ω
      funext j
      show observedData updates ((cov.only p).only _) (measurementValue m val (cov.only p) (E ω) (fun a => Z a ω)) j = _
      rw [measurementValue_only, observedData_only]
    simp only [hmask]
    refine hbest (fun y => mean (cov.only p) t (fun j => if @decide (p (updates.get j).1 (updates.get j).2) (Classical.dec _) then y j else 0) f) ((hcont (cov.only p) t f ht).measurable.comp ?_)
    refine measurable_pi_lambda _ (fun j => ?_)
    cases @decide (p (updates.get j).1 (updates.get j).2) (Classical.dec _)
    · exact measurable_const
    · exact measurable_pi_apply j

namespace Ex

/-- C124 applies to the model with anchoring: the filtered state in the second period has a smaller error than the measurement w, and than the filtered state without that measurement. -/
theorem C124_example (custom : String → CustomFn) (nan : ℝ) : ∃ (updates : List (Nat × String)) (j : Fin updates.length) (estimate : Covariates → (Fin updates.length → ℝ) → ℝ) (Ω : Type) (_ : MeasurableSpace Ω) (P : Measure Ω) (E : Ω → Fin 1)
    (Z : Noise → Ω → ℝ), Enumerates anchoredModel updates ∧ updates.get j = (1, "w") ∧ RandomNoise P linearValues E Z ∧
      let data := fun (cov : Covariates) ω => observedData updates (cov.only (fun s v => s ≤ 1 ∧ IsMeasurement anchoredModel s v)) (measurementValue anchoredModel linearValues cov (E ω) (fun a => Z a ω))
      let error := fun (estimate : Ω → ℝ) => ∫⁻ ω, ENNReal.ofReal ((latentStates anchoredModel linearValues linearCovariates (E ω) (fun a => Z a ω) 1 "a" - estimate ω) ^ 2) ∂P
      error (fun ω => estimate linearCovariates (data linearCovariates ω)) < ⊤ ∧ error (fun ω => estimate linearCovariates (data linearCovariates ω)) ≤ error (fun ω => data linearCovariates ω j) ∧
      error (fun ω => estimate linearCovariates (data linearCovariates ω)) ≤ error (fun ω => estimate (linearCovariates.only (fun _ v => v ≠ "w")) (data (linearCovariates.only (fun _ v => v ≠ "w")) ω)) := by
  obtain ⟨qr, hqr⟩ := validQR
  obtain ⟨pm, hpm, _⟩ := anchoredModel_ok
  obtain ⟨Ω, hΩ, P, E, Z, hP, hZ⟩ := exists_randomNoise (k := 1) (val := linearValues) (by intro e _; simp [linearValues]) (by simp [linearValues])
  obtain ⟨updates, hen, est, h, _⟩ := C124_smallest_error hqr hpm anchoredModel_linear (Or.inr rfl) anchoredModel_names (fun f hf => (anchoredModel_safe f hf).2) (by rintro o x ⟨⟩ ⟨⟩) anchoredValues_proper custom nan
  obtain ⟨j, hj⟩ := List.mem_iff_get.mp ((hen.all 1 "w").mpr ((anchoredModel_update 1 "w").mpr ⟨by norm_num, by simp⟩))
  obtain ⟨h1, h2, h3⟩ := h linearCovariates 1 "a" anchoredModel_linear.periods ⟨_, List.mem_cons_self⟩ P E Z hZ
  exact ⟨updates, j, fun cov y => est cov 1 y "a", Ω, hΩ, P, E, Z, hen, hj, hZ, h1, h2 (fun y => y j) (measurable_pi_apply j), h3 _⟩

end Ex
end Skill
