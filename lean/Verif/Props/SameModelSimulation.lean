import Verif.Props.SimulationUnits
import Verif.Props.SameModel
import Verif.Props.Edits
/- C101: simulated data do not depend on the order of the entries of a model dictionary. -/
namespace Skill
open Matrix Spec MeasureTheory ProbabilityTheory

theorem Spec.SameModel.simulationModel {m m' : ModelDict ℝ} {k : ℕ} (h : SameModel m m') (hm : LinearModel m k) (hm' : LinearModel m' k) (hg' : GoodNames m') (hsm : SimulationModel m k) : SimulationModel m' k where
  names := hg'
  anchoring := hm'.anchoring
  safe f hf := hsm.safe f ((h.latent f).mpr hf)
  columns f hf := hsm.columns f (hf.imp (h.latent f).mpr (fun ⟨t, ht⟩ => ⟨t, ((h.variables (h.period hm hm')).isUpdate t f).mpr ht⟩))
  periods := hm'.periods
  updates t ht := by
    obtain ⟨v, f, hf⟩ := hm'.measured t ht
    exact ⟨v, Or.inl ⟨f, hf⟩⟩
  mixture := hm'.mixture
  elements := hsm.elements

/-- **C101**: simulate_dataset returns measurements with the same joint distribution (for all individuals, periods and measurements) from two model dictionaries that only differ in the order of their entries, the numbers of the mixture
elements (`σ`) and the Cholesky factors of the covariance matrices of the initial factors, without policies. -/
theorem C101_simulation {root root' : NormalRoot} (hroot : ValidRoot root) (hroot' : ValidRoot root') {m m' : ModelDict ℝ} {pm pm' : Processed ℝ} (hpm : processModel m = .ok pm) (hpm' : processModel m' = .ok pm') {k : ℕ} (hm : LinearModel m k)
    (hm' : LinearModel m' k) (hsm : SimulationModel m k) (hg' : GoodNames m') (hsame : SameModel m m') {σ : Equiv.Perm (Fin k)} {val val' : Loc → ℝ} (hp : SameParameters m m' σ val val') (hv : ProperValues m k val)
    (custom custom' : String → CustomFn) (nan nan' : ℝ) {params params' : List (Loc × ℝ)} (hparams : HasParams m params val) (hparams' : HasParams m' params' val') {nObs : Option Nat} {data : Option (LongData ℝ)} {n : ℕ} {cov : Nat → Covariates}
    (hi : Individuals m nObs data n cov) (hi' : Individuals m' nObs data n cov) (hn : 0 < n) {Ω Ω' : Type} [MeasurableSpace Ω] [MeasurableSpace Ω'] {P : Measure Ω} {P' : Measure Ω'} [IsProbabilityMeasure P] [IsProbabilityMeasure P']
    {E : Nat → Ω → Fin k} {Z : Nat → Draw → Ω → ℝ} {E' : Nat → Ω' → Fin k} {Z' : Nat → Draw → Ω' → ℝ} (hZ : RandomDatasetDraws P val E Z) (hZ' : RandomDatasetDraws P' val' E' Z') :
    ∃ (out : Ω → SimulatedDataset) (out' : Ω' → SimulatedDataset) (X : Nat → Ω → Cell m → ℝ) (X' : Nat → Ω' → Cell m' → ℝ) (hu : ∀ t v, IsUpdate m t v → IsUpdate m' t v),
      (∀ ω, simulateDataset root custom nan m params nObs data [] (drawsWith (fun i => E i ω) (fun i j => Z i j ω)) = .ok (out ω) ∧ DatasetIs m val n (fun i => X i ω) (out ω)) ∧
      (∀ ω, simulateDataset root' custom' nan' m' params' nObs data [] (drawsWith (fun i => E' i ω) (fun i j => Z' i j ω)) = .ok (out' ω) ∧ DatasetIs m' val' n (fun i => X' i ω) (out' ω)) ∧
      P'.map (fun ω (i : Fin n) (q : {p : Nat × String // IsUpdate m p.1 p.2}) => X' i ω (.inr ⟨q.1, hu _ _ q.2⟩)) = P.map (fun ω (i : Fin n) (q : {p : Nat × String // IsUpdate m p.1 p.2}) => X i ω (.inr q)) := by
  have hper := hsame.period hm hm'
  have hvar := hsame.variables hper
  have hv' := hp.proper hsame hper hsm.names hg' hv
  obtain ⟨out, X, h1, h2, h3, h4⟩ := C91_simulation_law root hpm hsm custom nan (linear_simulationValues hm hsm.names custom hv) hparams hi hn hroot (linear_measurableCustom hm hsm.names custom) hZ
  obtain ⟨out', X', h1', h2', h3', h4'⟩ := C91_simulation_law root' hpm' (hsame.simulationModel hm hm' hg' hsm) custom' nan' (linear_simulationValues hm' hg' custom' hv') hparams' hi' hn hroot' (linear_measurableCustom hm' hg' custom') hZ'
  obtain ⟨Ω₀, _, P₀, E₀, Z₀, hP₀, hZ₀⟩ := exists_simulationNoise (k := k) (fun e he => (hv.positive e he).le) hv.sum
  have hr := relabelled hZ₀.model σ hp.weights
  have hZ₁ : RandomSimulationNoise P₀ val' (fun ω => σ (E₀ ω)) Z₀ :=
    ⟨hr.measurable_element, hZ₀.measurable, hZ₀.normal, hZ₀.independent, hZ₀.element_independent.comp (measurable_of_countable σ) measurable_id, hr.element_weights⟩
  have hup := enumerates_updateInfo hpm
  set updates := pm.updateInfo.map (fun r => (r.period, r.var)) with hupd
  have hup' : Enumerates m' updates := ⟨hup.nodup, fun t v => (hup.all t v).trans (hvar.isUpdate t v)⟩
  have hmeas : ∀ i, Measurable (fun ω (j : Fin updates.length) => X i ω (measurementCell hup j)) := fun i => measurable_pi_iff.mpr (fun j => (measurable_pi_apply _).comp (h2 i))
  have hmeas' : ∀ i, Measurable (fun ω (j : Fin updates.length) => X' i ω (measurementCell hup' j)) := fun i => measurable_pi_iff.mpr (fun j => (measurable_pi_apply _).comp (h2' i))
  have hlaw : ∀ i < n, P'.map (fun ω (j : Fin updates.length) => X' i ω (measurementCell hup' j)) = P.map (fun ω (j : Fin updates.length) => X i ω (measurementCell hup j)) := by
    intro i hil
    rw [simulated_measurements_law hm hsm.names custom (cov i) (h2 i) hup (h4 i hil P₀ E₀ Z₀ hZ₀), simulated_measurements_law hm' hg' custom' (cov i) (h2' i) hup' (h4' i hil P₀ _ Z₀ hZ₁)]
    exact same_law hsame hsm.names hg' hp hZ₀.model _ updates
  have hI := h3.comp (fun _ (x : Cell m → ℝ) (j : Fin updates.length) => x (measurementCell hup j)) (fun _ => measurable_pi_iff.mpr (fun j => measurable_pi_apply _))
  have hI' := h3'.comp (fun _ (x : Cell m' → ℝ) (j : Fin updates.length) => x (measurementCell hup' j)) (fun _ => measurable_pi_iff.mpr (fun j => measurable_pi_apply _))
  have hall := individuals_law (n := n) (g := id) hmeas hmeas' hI hI' measurable_id hlaw
  refine ⟨out, out', X, X', fun t v => (hvar.isUpdate t v).mp, h1, h1', ?_⟩
  have hget : ∀ q : {p : Nat × String // IsUpdate m p.1 p.2}, ∃ j : Fin updates.length, updates.get j = q.1 := fun q => List.mem_iff_get.mp ((hup.all q.1.1 q.1.2).mpr q.2)
  choose pos hpos using hget
  have hsel : Measurable (fun (y : Fin n → Fin updates.length → ℝ) (i : Fin n) (q : {p : Nat × String // IsUpdate m p.1 p.2}) => y i (pos q)) :=
    measurable_pi_iff.mpr (fun i => measurable_pi_iff.mpr (fun q => (measurable_pi_apply _).comp (measurable_pi_apply i)))
  have hfin := congrArg (Measure.map (fun (y : Fin n → Fin updates.length → ℝ) (i : Fin n) (q : {p : Nat × String // IsUpdate m p.1 p.2}) => y i (pos q))) hall
  rw [Measure.map_map hsel (f := fun ω (i : Fin n) (j : Fin updates.length) => X' i ω (measurementCell hup' j)) (measurable_pi_iff.mpr (fun i => hmeas' i)),
    Measure.map_map hsel (f := fun ω (i : Fin n) => id (fun (j : Fin updates.length) => X i ω (measurementCell hup j))) (measurable_pi_iff.mpr (fun i => hmeas i))] at hfin
  have e1 : ∀ q, measurementCell hup (pos q) = .inr q := fun q => congrArg Sum.inr (Subtype.ext (hpos q))
  have e2 : ∀ q : {p : Nat × String // IsUpdate m p.1 p.2}, measurementCell hup' (pos q) = .inr ⟨q.1, (hvar.isUpdate _ _).mp q.2⟩ := fun q => congrArg Sum.inr (Subtype.ext (hpos q))
  simp only [Function.comp_def, id, e1, e2] at hfin
  exact hfin

end Skill
