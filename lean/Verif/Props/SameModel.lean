import Verif.Props.ObservationalEquivalence
import Verif.Lemmas.SameLaw
/-
C101: the order of the entries of a model dictionary does not matter.
-/
namespace Skill
open Matrix MeasureTheory ProbabilityTheory Spec

section
variable {m m' : ModelDict ℝ}

theorem Spec.SameModel.period {k : ℕ} (h : SameModel m m') (hm : LinearModel m k) (hm' : LinearModel m' k) (t : ℕ) : IsPeriod m t ↔ IsPeriod m' t := by
  constructor
  · intro ht
    obtain ⟨v, f, hv⟩ := hm.measured t ht
    obtain ⟨n, hn, _⟩ := hm'.periods
    exact period_of_measures hn ((h.measures t v f).mp hv)
  · intro ht
    obtain ⟨v, f, hv⟩ := hm'.measured t ht
    obtain ⟨n, hn, _⟩ := hm.periods
    exact period_of_measures hn ((h.measures t v f).mpr hv)

theorem Spec.SameModel.variables (h : SameModel m m') (hper : ∀ t, IsPeriod m t ↔ IsPeriod m' t) : SameVariables m m' where
  periods := hper
  measurements t v := exists_congr (h.measures t v)
  anchored := h.anchored
  controls := h.controls
  observed := h.observed

theorem Spec.SameParameters.proper {k : ℕ} {σ : Equiv.Perm (Fin k)} {val val' : Loc → ℝ} (hp : SameParameters m m' σ val val') (h : SameModel m m') (hper : ∀ t, IsPeriod m t ↔ IsPeriod m' t) (hg : GoodNames m) (hg' : GoodNames m')
    (hv : ProperValues m k val) : ProperValues m' k val' where
  positive := by
    intro e he
    have := hp.weights (σ.symm ⟨e, he⟩)
    rw [Equiv.apply_symm_apply] at this
    rw [this]
    exact hv.positive _ (Fin.isLt _)
  sum := by
    rw [← Equiv.sum_comp σ, ← hv.sum]
    exact Finset.sum_congr rfl (fun e _ => hp.weights e)
  sds := by
    intro t v ht
    rw [hp.others _ (by simp) (by simp) (by simp)]
    exact hv.sds t v (((h.variables hper).isUpdate t v).mpr ht)
  scales := by
    intro t f ht
    rw [(h.scale hg hg' (Dynamic.scales (fun l h1 h2 h3 => hp.others l h1 h2 h3)) t f).1]
    exact hv.scales t f ((hper t).mpr ht)
end

/-- **C101.** Consider two model dictionaries that have the same factors, measurements, controls, observed factors, anchoring outcomes and linear or constant transition functions, but list them in a different order, and the same
values of parameters, except that the mixture elements are numbered differently (`σ`) and that the Cholesky factors of the covariance matrices of the initial factors are different (there is one for each order of the factors; only
their covariances have to be the same). If there is anchoring then there has to be one mixture element. Then, for each individual of a dataset, the contributions of all measurements have the same sum, and without clipping the
contributions of all individuals and the value of the log likelihood are the same. This is so for any QR decompositions. -/
theorem C101_order_does_not_matter {qr qr' : QR} (hqr : ValidQR qr) (hqr' : ValidQR qr') {m m' : ModelDict ℝ} {pm pm' : Processed ℝ} (hpm : processModel m = .ok pm) (hpm' : processModel m' = .ok pm') {k : ℕ} (hm : LinearModel m k)
    (hm' : LinearModel m' k) (hanch : (m.anchoring = none ∧ m'.anchoring = none) ∨ k = 1) (hg : GoodNames m) (hg' : GoodNames m') (hkappa : ∀ o x, m.estimationOptions = some o → o.sigmaPointsScale = some x → 0 ≤ x)
    (hkappa' : ∀ o x, m'.estimationOptions = some o → o.sigmaPointsScale = some x → 0 ≤ x) (hsame : SameModel m m') {σ : Equiv.Perm (Fin k)} {val val' : Loc → ℝ} (hp : SameParameters m m' σ val val') (hv : ProperValues m k val)
    (custom custom' : String → CustomFn) (nan nan' : ℝ) {df : LongData ℝ} {ids pers : List Int} {inputs inputs' : MaximizationInputs} {params params' : List (Loc × ℝ)} {out out' : LoglikeOutput} (hi : IndexOk df) (hu : NoUnusedPeriods df)
    (hids : IdsOf df ids) (hpers : PeriodsOf df pers) (hn : (params.map Prod.fst).Nodup) (hn' : (params'.map Prod.fst).Nodup) (hval : ∀ l x, (l, x) ∈ params → x = val l) (hval' : ∀ l x, (l, x) ∈ params' → x = val' l)
    (hin : getMaximizationInputs m df = .ok inputs) (hin' : getMaximizationInputs m' df = .ok inputs') (hout : inputs.loglike qr custom nan m params = .ok out) (hout' : inputs'.loglike qr' custom' nan' m' params' = .ok out') :
    (∀ (i : Nat) (cov : Covariates) (y : Nat → String → ℝ), i < ids.length → Describes m df ids pers i cov y →
      (out'.allContributions.map (fun row => row.getD i 0)).sum = (out.allContributions.map (fun row => row.getD i 0)).sum ∧
      (NoClipping m → NoClipping m' → out'.contributions.getD i 0 = out.contributions.getD i 0)) ∧
    (NoClipping m → NoClipping m' → (∀ i < ids.length, ∃ cov y, Describes m df ids pers i cov y) → out'.contributions = out.contributions ∧ out'.value = out.value) := by
  have hper := hsame.period hm hm'
  obtain ⟨Ω, hΩ, P, E, Z, hP, hZ⟩ := exists_randomNoise (fun e he => (hv.positive e he).le) hv.sum
  exact C102_observational_equivalence hqr hqr' hpm hpm' hm hm' (hanch.imp id (fun h => ⟨h, h⟩)) hg hg' hkappa hkappa' (hsame.variables hper) hv (hp.proper hsame hper hg hg' hv) hZ (relabelled hZ σ hp.weights)
    (fun updates _ cov _ => (same_law hsame hg hg' hp hZ cov updates).symm) custom custom' nan nan' hi hu hids hpers hn hn' hval hval' hin hin' hout hout'

end Skill
