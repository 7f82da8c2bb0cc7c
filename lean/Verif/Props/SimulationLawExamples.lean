import Verif.Props.SimulationLaw
import Verif.Props.LinearExamples
import Verif.Props.SimulateExamples
import Mathlib.Analysis.Matrix.Order
import Mathlib.Probability.Independence.InfinitePi
/-
The hypotheses of C69 can be met: there are random draws as assumed, and C69 applies to a model with two individuals, two mixture elements, two latent factors and two periods.
-/
namespace Skill
open Matrix MeasureTheory ProbabilityTheory Spec

/-- There are independent draws as assumed in C69. -/
theorem exists_randomDraws {nMix n : ℕ} {weights : Fin nMix → ℝ} (hnn : ∀ e, 0 ≤ weights e) (hsum : ∑ e, weights e = 1) :
    ∃ (Ω : Type) (_ : MeasurableSpace Ω) (P : Measure Ω) (E : Ω → Fin nMix) (Z : DrawIndex n → Ω → ℝ), IsProbabilityMeasure P ∧ RandomDraws P weights E Z := by
  let μ : Measure (Fin nMix) := ∑ e, ENNReal.ofReal (weights e) • Measure.dirac e
  have hμe : ∀ e, μ {e} = ENNReal.ofReal (weights e) := by
    intro e
    simp only [μ, Measure.finsetSum_apply, Measure.smul_apply, smul_eq_mul, Measure.dirac_apply' _ (measurableSet_singleton e)]
    rw [Finset.sum_eq_single e]
    · simp
    · intro b _ hb
      simp [hb]
    · simp
  have hμ : IsProbabilityMeasure μ := ⟨by
    simp only [μ, Measure.finsetSum_apply, Measure.smul_apply, smul_eq_mul, measure_univ, mul_one]
    rw [← ENNReal.ofReal_sum_of_nonneg (fun e _ => hnn e), hsum, ENNReal.ofReal_one]⟩
  let ν : Measure (DrawIndex n → ℝ) := Measure.infinitePi (fun _ => gaussianReal 0 1)
  refine ⟨Fin nMix × (DrawIndex n → ℝ), inferInstance, μ.prod ν, Prod.fst, fun j ω => ω.2 j, inferInstance, ?_⟩
  have hsnd : MeasurePreserving Prod.snd (μ.prod ν) ν := measurePreserving_snd
  have hZ : ∀ j : DrawIndex n, Measurable (fun ω : Fin nMix × (DrawIndex n → ℝ) => ω.2 j) := fun j => (measurable_pi_apply j).comp measurable_snd
  have hlaw : ∀ j : DrawIndex n, (μ.prod ν).map (fun ω => ω.2 j) = gaussianReal 0 1 := by
    intro j
    have : (fun ω : Fin nMix × (DrawIndex n → ℝ) => ω.2 j) = (fun z => z j) ∘ Prod.snd := rfl
    rw [this, ← Measure.map_map (measurable_pi_apply j) measurable_snd, hsnd.map_eq]
    exact Measure.infinitePi_map_eval _ j
  refine ⟨measurable_fst, hZ, hlaw, ?_, ?_, ?_⟩
  · rw [iIndepFun_iff_map_fun_eq_infinitePi_map hZ]
    simp only [hlaw]
    exact hsnd.map_eq
  · exact indepFun_prod measurable_id measurable_id
  · intro e
    have : (Prod.fst ⁻¹' {e} : Set (Fin nMix × (DrawIndex n → ℝ))) = {e} ×ˢ Set.univ := by ext; simp
    rw [this, Measure.prod_prod, hμe, measure_univ, mul_one]

open scoped MatrixOrder Matrix.Norms.L2Operator in
/-- There is a factorization of covariance matrices as assumed in C69. -/
theorem exists_validRoot : ∃ root : NormalRoot, ValidRoot root := by
  classical
  have h : ∀ (k : ℕ) (S : Matrix (Fin k) (Fin k) ℝ), ∃ A : Matrix (Fin k) (Fin k) ℝ, S.PosSemidef → A * Aᵀ = S := by
    intro k S
    by_cases hS : S.PosSemidef
    · obtain ⟨B, hB⟩ := CStarAlgebra.nonneg_iff_eq_star_mul_self.mp hS.nonneg
      refine ⟨Bᵀ, fun _ => ?_⟩
      rw [transpose_transpose, hB, star_eq_conjTranspose, conjTranspose_eq_transpose_of_trivial]
    · exact ⟨0, fun h => absurd h hS⟩
  choose root hroot using h
  exact ⟨root, hroot⟩

namespace Ex

theorem simRows_good : GoodRows 0 simRows := by
  refine ⟨by simp [simRows], by simp [simRows], by simp [simRows], ?_⟩
  intro t ht
  obtain rfl | rfl : t = 0 ∨ t = 1 := by omega
  · exact ⟨_, List.mem_cons_self, rfl⟩
  · exact ⟨_, List.mem_cons_of_mem _ (List.mem_cons_of_mem _ List.mem_cons_self), rfl⟩

/-- The second individual misses the first measurement. -/
noncomputable def simData : List (Fin 2 → Option ℝ) := [![some 3, none], ![some 1, some 2], ![some 1, some 2]]

/-- C69 for the linear model with two mixture elements: there are draws for which its conclusion holds. -/
theorem simulation_law (i : Fin 2) :
    ∃ (qr : QR) (root : NormalRoot) (Ω : Type) (_ : MeasurableSpace Ω) (P : Measure Ω) (S : Ω → Simulated 2) (contribution : _ → ℝ), IsProbabilityMeasure P ∧
      P.map (fun ω => simulatedData simRows simData i (S ω)) =
        (baseMeasure ((loopArgs 1 simRows simData).map (stepOf (linear A ![1, 0] ![1, 1]) i))).withDensity (fun y => ENNReal.ofReal (Real.exp (contribution y))) ∧
      ∀ y, ∃ r, logLikelihood qr (linear A ![1, 0] ![1, 1]) ⟨none, none, 1, 1⟩ initial (fill (linear A ![1, 0] ![1, 1]) i (loopArgs 1 simRows simData) y) = .ok r ∧ r.contributions i = contribution y := by
  obtain ⟨qr, hqr⟩ := validQR
  obtain ⟨root, hroot⟩ := exists_validRoot
  obtain ⟨Ω, hΩ, P, E, Z, hP, hd⟩ := exists_randomDraws (n := 2) (weights := fun e => Real.exp (initial.logWeights i e)) (fun e => (Real.exp_pos _).le) (initial_weights i)
  have hS : ∀ ω, ∃ s, simulateIndividual root (linear A ![1, 0] ![1, 1]) simRows simFactors [] (initial.states i) (initial.upperChols i) i (drawsOf (E ω) (fun j => Z j ω)) = .ok s := by
    intro ω
    rw [C57_accepts_iff]
    exact ⟨by simp, simRows_good.all⟩
  choose S hS using hS
  obtain ⟨c, h1, h2⟩ := C69_simulation_matches_likelihood hqr hroot (linear_sigma A ![1, 0] ![1, 1]) (linear_affine _ _ _) (Or.inr rfl) (clip := ⟨none, none, 1, 1⟩) ⟨rfl, rfl⟩ initial_weights simRows_good
    (by simp [simRows]) (by simp [simRows]) simFactors_injective (data := simData) rfl i hd hS
  exact ⟨qr, root, Ω, hΩ, P, S, c, hP, h2, h1⟩

end Ex
end Skill
