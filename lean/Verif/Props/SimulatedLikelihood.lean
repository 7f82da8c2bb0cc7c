import Verif.Props.SimulateDataset
import Verif.Props.Pipeline
import Verif.Lemmas.SimulationNoise
/-
simulate_dataset and loglike belong to the same statistical model.
-/
namespace Skill
open Matrix MeasureTheory ProbabilityTheory Spec

section
variable {m : ModelDict ℝ} {k : ℕ} (hm : LinearModel m k) (hg : GoodNames m) (custom : String → CustomFn) (val : Loc → ℝ) (cov : Covariates)
include hm hg

theorem linear_next (t : Nat) (s : String → ℝ) {f : String} (hf : f ∈ latents m) : factorNext custom m val cov t s f = nextState m val cov t s f := by
  classical
  unfold factorNext nextState nextAnchored
  congr 2
  obtain ⟨⟨f', spec⟩, hfs, rfl⟩ := List.mem_map.mp hf
  have h1 : transitionOf custom m f' = transFnOf (custom f') spec.transition := by
    unfold transitionOf
    rw [lookup_of_mem hg.keys.factors hfs]
    rfl
  dsimp only
  rw [h1]
  rcases hm.transitions f' spec hfs with h | h
  · rw [h, if_neg]
    · simp [transFnOf, nextValue]
    · rintro ⟨spec', hfs', h'⟩
      have h2 := lookup_of_mem hg.keys.factors hfs
      rw [lookup_of_mem hg.keys.factors hfs'] at h2
      obtain rfl := Option.some.inj h2
      rw [h] at h'
      exact absurd (TransSpec.named.inj h') (by decide)
  · rw [h, if_pos ⟨spec, hfs, h⟩]
    simp [transFnOf, nextValue]

theorem linear_states (e : Nat) (z : SimulationNoise → ℝ) (t : Nat) {f : String} (hf : f ∈ latents m) : simulatedStates custom m val cov [] e z t f = latentStates m val cov e (fun j => z (.model j)) t f := by
  have he : ∀ t f, effectOf m [] z t f = 0 := by
    intro t f
    unfold effectOf
    split_ifs
    · rfl
    · rfl
  induction t generalizing f with
  | zero => simp [simulatedStates, latentStates, he]
  | succ t ih =>
    simp only [simulatedStates, latentStates, he, add_zero]
    rw [factorNext_congr custom m val cov t (fun g hg => ih hg), linear_next hm hg custom val cov t _ hf]

/-- Without policies, the simulated measurements of linear models are those of the statistical model of C71. -/
theorem linear_cells (e : Nat) (z : SimulationNoise → ℝ) (c : {p : Nat × String // IsUpdate m p.1 p.2}) :
    modelCells custom m val cov [] e z (.inr c) = measurementValue m val cov e (fun j => z (.model j)) c.1.1 c.1.2 := by
  unfold modelCells
  dsimp only
  rw [measurementWith_congr val cov (fun f hf => linear_states hm hg custom val cov e z c.1.1 hf)]
  rfl

theorem linear_simulationValues {val : Loc → ℝ} (hv : ProperValues m k val) : SimulationValues custom m k val [] where
  positive := hv.positive
  sum := hv.sum
  usable := by
    rintro t _ ⟨f, spec⟩ hfs
    rcases hm.transitions f spec hfs with h | h <;> (dsimp only; rw [h])
    · exact ⟨by decide, by rintro (h | h) <;> exact absurd h (by decide)⟩
    · exact ⟨by decide, by rintro (h | h) <;> exact absurd h (by decide)⟩
  policies := by simp

theorem linear_measurableCustom : MeasurableCustom custom m := by
  rintro ⟨f, spec⟩ hfs args names body h
  rcases hm.transitions f spec hfs with h' | h' <;> (dsimp only at h; rw [h'] at h; cases h)

end

/-- Some of the random numbers. -/
theorem Spec.RandomSimulationNoise.model {Ω : Type} [MeasurableSpace Ω] {P : Measure Ω} {val : Loc → ℝ} {k : ℕ} {E : Ω → Fin k} {Z : SimulationNoise → Ω → ℝ} (h : RandomSimulationNoise P val E Z) :
    RandomNoise P val E (fun j => Z (.model j)) where
  measurable_element := h.measurable_element
  measurable := fun j => h.measurable _
  normal := fun j => h.normal _
  independent := h.independent.precomp (g := SimulationNoise.model) (fun a b hab => by injection hab)
  element_independent := h.element_independent.comp (φ := id) (ψ := fun (z : SimulationNoise → ℝ) j => z (.model j)) measurable_id (measurable_pi_iff.mpr (fun j => measurable_pi_apply _))
  element_weights := h.element_weights

/-- The density of the simulated measurements. -/
theorem simulated_density {root : NormalRoot} (hroot : ValidRoot root) {m : ModelDict ℝ} {pm : Processed ℝ} (hpm : processModel m = .ok pm) {k : ℕ} (hm : LinearModel m k) (hsm : SimulationModel m k) {val : Loc → ℝ}
    (hv : ProperValues m k val) (custom : String → CustomFn) (nan : ℝ) {updates : List (Nat × String)} (hup : Enumerates m updates) {density : Covariates → (Fin updates.length → ℝ) → ℝ}
    (hlaw : ∀ (cov : Covariates) {Ω : Type} [MeasurableSpace Ω] (P : Measure Ω) [IsProbabilityMeasure P] (E : Ω → Fin k) (Z : Noise → Ω → ℝ), RandomNoise P val E Z →
      P.map (fun ω => observedData updates cov (measurementValue m val cov (E ω) (fun j => Z j ω))) = (referenceMeasure updates cov).withDensity (fun y => ENNReal.ofReal (density cov y)))
    (params : List (Loc × ℝ)) (nObs : Option Nat) (data : Option (LongData ℝ)) (n : Nat) (cov : Nat → Covariates) (hparams : HasParams m params val) (hi : Individuals m nObs data n cov) (hn : 0 < n)
    {Ω : Type} [MeasurableSpace Ω] (P : Measure Ω) [IsProbabilityMeasure P] (E : Nat → Ω → Fin k) (Z : Nat → Draw → Ω → ℝ) (hZ : RandomDatasetDraws P val E Z) :
    ∃ (out : Ω → SimulatedDataset) (X : Nat → Ω → Cell m → ℝ),
      (∀ ω, simulateDataset root custom nan m params nObs data [] (drawsWith (fun i => E i ω) (fun i j => Z i j ω)) = .ok (out ω) ∧ DatasetIs m val n (fun i => X i ω) (out ω)) ∧
      (∀ i, Measurable (X i)) ∧ iIndepFun X P ∧
      ∀ i < n, ∀ y : Ω → Nat → String → ℝ, (∀ ω c, y ω c.1.1 c.1.2 = X i ω (.inr c)) →
        P.map (fun ω => observedData updates (cov i) (y ω)) = (referenceMeasure updates (cov i)).withDensity (fun y => ENNReal.ofReal (density (cov i) y)) := by
  have hg := hsm.names
  obtain ⟨out, X, h1, h2, h3, h4⟩ := C91_simulation_law root hpm hsm custom nan (linear_simulationValues hm hg custom hv) hparams hi hn hroot (linear_measurableCustom hm hg custom) hZ
  refine ⟨out, X, h1, h2, h3, fun i hil y hy => ?_⟩
  obtain ⟨Ω', _, P', E', Z', hP', hZ'⟩ := exists_simulationNoise (k := k) (fun e he => (hv.positive e he).le) hv.sum
  have hX := h4 i hil P' E' Z' hZ'
  have hae : AEMeasurable (fun ω => modelCells custom m val (cov i) [] (E' ω) (fun j => Z' j ω)) P' := by
    by_contra hna
    rw [Measure.map_of_not_aemeasurable hna] at hX
    have : IsProbabilityMeasure (P.map (X i)) := Measure.isProbabilityMeasure_map (h2 i).aemeasurable
    rw [hX] at this
    have h0 := this.measure_univ
    rw [Measure.coe_zero, Pi.zero_apply] at h0
    exact zero_ne_one h0
  obtain ⟨g, hg'⟩ : ∃ g : (Cell m → ℝ) → Fin updates.length → ℝ, g = fun x j => if (cov i).isObserved (updates.get j).1 (updates.get j).2 then
      x (.inr ⟨updates.get j, (hup.all _ _).mp (List.get_mem updates j)⟩) else 0 := ⟨_, rfl⟩
  have hgm : Measurable g := by
    rw [hg']
    refine measurable_pi_iff.mpr (fun j => ?_)
    split_ifs
    · exact measurable_pi_apply _
    · exact measurable_const
  have e1 : (fun ω => observedData updates (cov i) (y ω)) = g ∘ X i := by
    funext ω j
    rw [hg']
    simp only [observedData, Function.comp]
    split_ifs
    · exact hy ω ⟨updates.get j, (hup.all _ _).mp (List.get_mem updates j)⟩
    · rfl
  have e2 : (fun ω => observedData updates (cov i) (measurementValue m val (cov i) (E' ω) (fun j => Z' (.model j) ω))) = g ∘ (fun ω => modelCells custom m val (cov i) [] (E' ω) (fun j => Z' j ω)) := by
    funext ω j
    rw [hg']
    simp only [observedData, Function.comp]
    split_ifs
    · exact (linear_cells hm hg custom val (cov i) (E' ω) (fun j => Z' j ω) ⟨updates.get j, (hup.all _ _).mp (List.get_mem updates j)⟩).symm
    · rfl
  rw [← hlaw (cov i) P' E' _ hZ'.model, e1, e2, ← Measure.map_map hgm (h2 i), hX, AEMeasurable.map_map_of_aemeasurable hgm.aemeasurable hae]

/-- **C92.** simulate_dataset and loglike belong to the same statistical model. For a model without anchoring and with linear or constant transition functions there is a function `density` such that
* the measurements of an individual that simulate_dataset returns (without policies; some of them may be removed afterwards, as in `isObserved`) have the density `density cov`, where `cov` are the covariates of the
  individual; different individuals are independent;
* for each dataset for which `loglike` returns a result, the contribution of each individual is the logarithm of the same density at the data of the individual. -/
theorem C92_simulated_likelihood {qr : QR} (hqr : ValidQR qr) {root : NormalRoot} (hroot : ValidRoot root) {m : ModelDict ℝ} {pm : Processed ℝ} (hpm : processModel m = .ok pm) {k : ℕ} (hm : LinearModel m k)
    (hsm : SimulationModel m k) (hna : m.anchoring = none) (hkappa : ∀ o x, m.estimationOptions = some o → o.sigmaPointsScale = some x → 0 ≤ x) {val : Loc → ℝ} (hv : ProperValues m k val)
    (custom : String → CustomFn) (nan : ℝ) :
    ∃ updates, Enumerates m updates ∧ ∃ density : Covariates → (Fin updates.length → ℝ) → ℝ, (∀ cov, Continuous (density cov)) ∧
      (∀ (params : List (Loc × ℝ)) (nObs : Option Nat) (data : Option (LongData ℝ)) (n : Nat) (cov : Nat → Covariates), HasParams m params val → Individuals m nObs data n cov → 0 < n →
        ∀ {Ω : Type} [MeasurableSpace Ω] (P : Measure Ω) [IsProbabilityMeasure P] (E : Nat → Ω → Fin k) (Z : Nat → Draw → Ω → ℝ), RandomDatasetDraws P val E Z →
        ∃ (out : Ω → SimulatedDataset) (X : Nat → Ω → Cell m → ℝ),
          (∀ ω, simulateDataset root custom nan m params nObs data [] (drawsWith (fun i => E i ω) (fun i j => Z i j ω)) = .ok (out ω) ∧ DatasetIs m val n (fun i => X i ω) (out ω)) ∧
          (∀ i, Measurable (X i)) ∧ iIndepFun X P ∧
          ∀ i < n, ∀ y : Ω → Nat → String → ℝ, (∀ ω c, y ω c.1.1 c.1.2 = X i ω (.inr c)) →
            P.map (fun ω => observedData updates (cov i) (y ω)) = (referenceMeasure updates (cov i)).withDensity (fun y => ENNReal.ofReal (density (cov i) y))) ∧
      ∀ (df : LongData ℝ) (ids pers : List Int) (inputs : MaximizationInputs) (params : List (Loc × ℝ)) (out : LoglikeOutput), IndexOk df → NoUnusedPeriods df → IdsOf df ids → PeriodsOf df pers →
        (params.map Prod.fst).Nodup → (∀ l x, (l, x) ∈ params → x = val l) → getMaximizationInputs m df = .ok inputs → inputs.loglike qr custom nan m params = .ok out →
        ∀ (i : Nat) (cov : Covariates) (y : Nat → String → ℝ), i < ids.length → Describes m df ids pers i cov y →
          0 < density cov (observedData updates cov y) ∧ (out.allContributions.map (fun row => row.getD i 0)).sum = Real.log (density cov (observedData updates cov y)) ∧
          (NoClipping m → out.contributions.getD i 0 = Real.log (density cov (observedData updates cov y))) := by
  have hg := hsm.names
  obtain ⟨updates, hup, density, hcont, hlaw, hlog⟩ := C71_likelihood_of_user_model hqr hpm hm hna hg hkappa hv custom nan
  refine ⟨updates, hup, density, hcont, ?_, hlog⟩
  intro params nObs data n cov hparams hi hn Ω _ P _ E Z hZ
  exact simulated_density hroot hpm hm hsm hv custom nan hup hlaw params nObs data n cov hparams hi hn P E Z hZ

end Skill
