import Verif.Spec.SimulatedDataset
import Mathlib.Probability.Independence.InfinitePi
/-
There are random numbers as assumed in the theorems on simulated datasets.
-/
namespace Skill
open MeasureTheory ProbabilityTheory Spec

/-- The law of a mixture element. -/
noncomputable def elementLaw {k : ℕ} (w : Fin k → ℝ) : Measure (Fin k) := ∑ e, ENNReal.ofReal (w e) • Measure.dirac e

theorem elementLaw_singleton {k : ℕ} (w : Fin k → ℝ) (e : Fin k) : elementLaw w {e} = ENNReal.ofReal (w e) := by
  simp only [elementLaw, Measure.finsetSum_apply, Measure.smul_apply, smul_eq_mul, Measure.dirac_apply' _ (measurableSet_singleton e)]
  rw [Finset.sum_eq_single e]
  · simp
  · intro b _ hb
    simp [hb]
  · simp

theorem elementLaw_probability {k : ℕ} {w : Fin k → ℝ} (hw : ∀ e, 0 ≤ w e) (hs : ∑ e, w e = 1) : IsProbabilityMeasure (elementLaw w) := ⟨by
  simp only [elementLaw, Measure.finsetSum_apply, Measure.smul_apply, smul_eq_mul, measure_univ, mul_one]
  rw [← ENNReal.ofReal_sum_of_nonneg (fun e _ => hw e), hs, ENNReal.ofReal_one]⟩

/-- The law of a mixture element and of independent standard normal numbers. -/
noncomputable def noiseLaw (J : Type) {k : ℕ} (w : Fin k → ℝ) : Measure (Fin k × (J → ℝ)) := (elementLaw w).prod (Measure.infinitePi (fun _ => gaussianReal 0 1))

theorem noiseLaw_normal (J : Type) {k : ℕ} {w : Fin k → ℝ} [IsProbabilityMeasure (elementLaw w)] (j : J) : (noiseLaw J w).map (fun ω => ω.2 j) = gaussianReal 0 1 := by
  have hsnd : MeasurePreserving Prod.snd (noiseLaw J w) (Measure.infinitePi (fun _ => gaussianReal 0 1)) := measurePreserving_snd
  have : (fun ω : Fin k × (J → ℝ) => ω.2 j) = (fun z => z j) ∘ Prod.snd := rfl
  rw [this, ← Measure.map_map (measurable_pi_apply j) measurable_snd, hsnd.map_eq]
  exact Measure.infinitePi_map_eval _ j

theorem noiseLaw_snd (J : Type) {k : ℕ} {w : Fin k → ℝ} [IsProbabilityMeasure (elementLaw w)] : (noiseLaw J w).map (fun ω => ω.2) = Measure.infinitePi (fun _ => gaussianReal 0 1) := by
  have hsnd : MeasurePreserving Prod.snd (noiseLaw J w) (Measure.infinitePi (fun _ => gaussianReal 0 1)) := measurePreserving_snd
  exact hsnd.map_eq

theorem noiseLaw_element (J : Type) {k : ℕ} {w : Fin k → ℝ} [IsProbabilityMeasure (elementLaw w)] (e : Fin k) : noiseLaw J w (Prod.fst ⁻¹' {e}) = ENNReal.ofReal (w e) := by
  have : (Prod.fst ⁻¹' {e} : Set (Fin k × (J → ℝ))) = {e} ×ˢ Set.univ := by ext; simp
  unfold noiseLaw
  rw [this, Measure.prod_prod, elementLaw_singleton, measure_univ, mul_one]

section
variable {k : ℕ} {val : Loc → ℝ} (hnn : ∀ e < k, 0 ≤ val ⟨.mixtureWeights, 0, Spec.mixtureName e, "-"⟩) (hsum : ∑ e : Fin k, val ⟨.mixtureWeights, 0, Spec.mixtureName e, "-"⟩ = 1)
include hnn hsum

/-- There are random numbers as in the statistical model. -/
theorem exists_simulationNoise :
    ∃ (Ω : Type) (_ : MeasurableSpace Ω) (P : Measure Ω) (E : Ω → Fin k) (Z : SimulationNoise → Ω → ℝ), IsProbabilityMeasure P ∧ RandomSimulationNoise P val E Z := by
  have := elementLaw_probability (w := fun e : Fin k => val ⟨.mixtureWeights, 0, Spec.mixtureName e, "-"⟩) (fun e => hnn e e.isLt) hsum
  have hZ : ∀ j : SimulationNoise, Measurable (fun ω : Fin k × (SimulationNoise → ℝ) => ω.2 j) := fun j => (measurable_pi_apply j).comp measurable_snd
  have hP : IsProbabilityMeasure (noiseLaw SimulationNoise (fun e : Fin k => val ⟨.mixtureWeights, 0, Spec.mixtureName e, "-"⟩)) := by unfold noiseLaw; infer_instance
  refine ⟨Fin k × (SimulationNoise → ℝ), inferInstance, noiseLaw SimulationNoise (fun e => val ⟨.mixtureWeights, 0, Spec.mixtureName e, "-"⟩), Prod.fst, fun j ω => ω.2 j, hP, measurable_fst, hZ,
    noiseLaw_normal _, ?_, ?_, noiseLaw_element _⟩
  · rw [iIndepFun_iff_map_fun_eq_infinitePi_map hZ]
    simp only [noiseLaw_normal]
    exact noiseLaw_snd _
  · exact indepFun_prod measurable_id measurable_id

/-- There are random number generators that work as documented. -/
theorem exists_datasetDraws :
    ∃ (Ω : Type) (_ : MeasurableSpace Ω) (P : Measure Ω) (E : Nat → Ω → Fin k) (Z : Nat → Draw → Ω → ℝ), IsProbabilityMeasure P ∧ RandomDatasetDraws P val E Z := by
  have := elementLaw_probability (w := fun e : Fin k => val ⟨.mixtureWeights, 0, Spec.mixtureName e, "-"⟩) (fun e => hnn e e.isLt) hsum
  have hP : IsProbabilityMeasure (noiseLaw Draw (fun e : Fin k => val ⟨.mixtureWeights, 0, Spec.mixtureName e, "-"⟩)) := by unfold noiseLaw; infer_instance
  obtain ⟨κ, hκ⟩ : ∃ κ, κ = noiseLaw Draw (fun e : Fin k => val ⟨.mixtureWeights, 0, Spec.mixtureName e, "-"⟩) := ⟨_, rfl⟩
  rw [← hκ] at hP
  have heval : ∀ i : Nat, (Measure.infinitePi (fun _ : Nat => κ)).map (fun ω => ω i) = κ := fun i => Measure.infinitePi_map_eval _ i
  have hmeas : ∀ i : Nat, Measurable (fun ω : Nat → Fin k × (Draw → ℝ) => ω i) := fun i => measurable_pi_apply i
  have hE : ∀ i : Nat, Measurable (fun ω : Nat → Fin k × (Draw → ℝ) => (ω i).1) := fun i => measurable_fst.comp (hmeas i)
  have hZ : ∀ (i : Nat) (j : Draw), Measurable (fun ω : Nat → Fin k × (Draw → ℝ) => (ω i).2 j) := fun i j => (measurable_pi_apply j).comp (measurable_snd.comp (hmeas i))
  have hmap : ∀ {β : Type} [MeasurableSpace β] (i : Nat) (g : Fin k × (Draw → ℝ) → β), Measurable g → (Measure.infinitePi (fun _ : Nat => κ)).map (fun ω => g (ω i)) = κ.map g := by
    intro β _ i g hg
    have h := Measure.map_map (μ := Measure.infinitePi (fun _ : Nat => κ)) hg (hmeas i)
    rw [heval i] at h
    exact h.symm
  have hn : ∀ (i : Nat) (j : Draw), (Measure.infinitePi (fun _ : Nat => κ)).map (fun ω => (ω i).2 j) = gaussianReal 0 1 := by
    intro i j
    rw [hmap i (fun y => y.2 j) ((measurable_pi_apply j).comp measurable_snd), hκ]
    exact noiseLaw_normal _ j
  have h2 : ∀ i : Nat, (Measure.infinitePi (fun _ : Nat => κ)).map (fun ω => (ω i).2) = Measure.infinitePi (fun _ => gaussianReal 0 1) := by
    intro i
    rw [hmap i (fun y => y.2) measurable_snd, hκ]
    exact noiseLaw_snd _
  have h1 : ∀ i : Nat, (Measure.infinitePi (fun _ : Nat => κ)).map (fun ω => (ω i).1) = elementLaw (fun e : Fin k => val ⟨.mixtureWeights, 0, Spec.mixtureName e, "-"⟩) := by
    intro i
    rw [hmap i (fun y => y.1) measurable_fst, hκ]
    exact (measurePreserving_fst : MeasurePreserving Prod.fst (noiseLaw Draw (fun e : Fin k => val ⟨.mixtureWeights, 0, Spec.mixtureName e, "-"⟩)) _).map_eq
  refine ⟨Nat → Fin k × (Draw → ℝ), inferInstance, Measure.infinitePi (fun _ => κ), fun i ω => (ω i).1, fun i j ω => (ω i).2 j, inferInstance, hE, hZ, hn, ?_, ?_, ?_, ?_⟩
  · intro i
    rw [iIndepFun_iff_map_fun_eq_infinitePi_map (hZ i)]
    simp only [hn]
    exact h2 i
  · intro i
    rw [indepFun_iff_map_prod_eq_prod_map_map (hE i).aemeasurable (measurable_pi_iff.mpr (hZ i)).aemeasurable, h1, show (fun (ω : Nat → Fin k × (Draw → ℝ)) j => (ω i).2 j) = fun ω => (ω i).2 from rfl, h2]
    exact (heval i).trans hκ
  · intro i e
    have := Measure.map_apply (μ := Measure.infinitePi (fun _ : Nat => κ)) (hE i) (measurableSet_singleton e)
    rw [← this, h1, elementLaw_singleton]
  · rw [iIndepFun_iff_map_fun_eq_infinitePi_map hmeas]
    simp only [heval]
    exact Measure.map_id

end

end Skill
