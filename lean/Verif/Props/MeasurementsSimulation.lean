import Verif.Props.ControlsSimulation
import Verif.Props.PeriodsSimulation
import Verif.Props.SimulationUnits
/- C116: simulated data of models with fewer measurements. -/
namespace Skill
open Matrix Spec MeasureTheory ProbabilityTheory

theorem removed_period (ms : List String) (m : ModelDict ℝ) (t : ℕ) : IsPeriod (removeMeasurements ms m) t ↔ IsPeriod m t := by
  have h : ∀ N, IsNPeriods (removeMeasurements ms m) N ↔ IsNPeriods m N := fun N => isNPeriods_congr (by
    show (m.factors.map _).map _ = _
    rw [List.map_map]
    exact List.map_congr_left (fun fs _ => by simp [removeFactorMeasurements]))
  unfold IsPeriod
  simp only [h]

theorem removed_latents (ms : List String) (m : ModelDict ℝ) : Spec.latents (removeMeasurements ms m) = Spec.latents m := (edit_removeMeasurements ms m).latents_eq

/-- The cell of the full model with the same period and the same name. -/
def cellBefore {ms : List String} {m : ModelDict ℝ} : Cell (removeMeasurements ms m) → Cell m
  | .inl c => .inl ⟨c.1, (removed_period ms m _).mp c.2.1, removed_latents ms m ▸ c.2.2⟩
  | .inr c => .inr ⟨c.1, (smaller_removeMeasurements ms m).isUpdate c.2⟩

theorem removed_measures {ms : List String} {m : ModelDict ℝ} (hc : CleanAnchoring m) {t : ℕ} {v : String} (hu : IsUpdate (removeMeasurements ms m) t v) (f : String) : Measures (removeMeasurements ms m) t v f ↔ Measures m t v f := by
  refine ⟨(smaller_removeMeasurements ms m).measures t v f, ?_⟩
  intro h
  rcases hu with ⟨g, spec, hs, l, h1, h2⟩ | ⟨_, g, hg⟩
  · obtain ⟨s, hs', rfl⟩ := mem_removeMeasurements.mp hs
    change (s.measurements.map (fun l => removeFromList l ms))[t]? = some l at h1
    rw [List.getElem?_map] at h1
    obtain ⟨l0, _, rfl⟩ := Option.map_eq_some_iff.mp h1
    have hv := (mem_removeFromList.mp h2).2
    obtain ⟨s, hs, l, h1, h2⟩ := h
    refine ⟨_, mem_removeMeasurements.mpr ⟨s, hs, rfl⟩, removeFromList l ms, ?_, mem_removeFromList.mpr ⟨h2, hv⟩⟩
    show (s.measurements.map (fun l => removeFromList l ms))[t]? = _
    rw [List.getElem?_map, h1]
    rfl
  · exact absurd h (hc.notMeasured v g t f ((smaller_removeMeasurements ms m).anchors hg))

theorem factorNext_removed (custom : String → CustomFn) (m : ModelDict ℝ) (ms : List String) (val : Loc → ℝ) (cov : Covariates) (t : ℕ) (s : String → ℝ) (f : String) :
    factorNext custom (removeMeasurements ms m) val cov t s f = factorNext custom m val cov t s f := by
  have he := edit_removeMeasurements ms m
  unfold factorNext
  obtain ⟨ha1, ha2, ha3⟩ := he.anchor_eq val
  rw [he.allFactors_eq, he.latents_eq, ha1, ha2, ha3]
  congr 2
  unfold transitionOf
  have : (removeMeasurements ms m).factors.lookup f = (m.factors.lookup f).map (removeFactorMeasurements ms) := lookup_mapSpec (removeFactorMeasurements ms) m.factors f
  rw [this]
  cases m.factors.lookup f <;> rfl

theorem states_removed (custom : String → CustomFn) (m : ModelDict ℝ) (ms : List String) (val : Loc → ℝ) (cov : Covariates) (policies : List Policy) (e : ℕ) (z : SimulationNoise → ℝ) (t : ℕ) :
    simulatedStates custom (removeMeasurements ms m) val cov policies e z t = simulatedStates custom m val cov policies e z t := by
  have hef : ∀ t f, effectOf (removeMeasurements ms m) policies z t f = effectOf m policies z t f := fun t f => by
    unfold effectOf
    rw [propext (removed_period ms m (t + 1))]
  induction t with
  | zero =>
    funext f
    simp only [simulatedStates, hef]
    unfold startState
    rw [removed_latents]
  | succ t ih =>
    funext f
    simp only [simulatedStates, hef, ih, factorNext_removed]

/-- The statistical model without some measurements has the same latent factors and the same other measurements. -/
theorem cells_removed (custom : String → CustomFn) {m : ModelDict ℝ} (hc : CleanAnchoring m) (ms : List String) (val : Loc → ℝ) (cov : Covariates) (policies : List Policy) (e : ℕ) (z : SimulationNoise → ℝ) (c : Cell (removeMeasurements ms m)) :
    modelCells custom (removeMeasurements ms m) val cov policies e z c = modelCells custom m val cov policies e z (cellBefore c) := by
  cases c with
  | inl c => exact congrFun (states_removed custom m ms val cov policies e z c.1.1) c.1.2
  | inr c =>
    show measurementWith _ _ _ _ _ _ _ = measurementWith _ _ _ _ _ _ _
    have hst : simulatedStates custom (removeMeasurements ms m) val cov policies e z = simulatedStates custom m val cov policies e z := funext (states_removed custom m ms val cov policies e z)
    rw [hst]
    unfold measurementWith
    rw [removed_latents]
    congr 3
    refine List.map_congr_left (fun f hf => ?_)
    rw [propext (removed_measures hc c.2 f), propext ((edit_removeMeasurements ms m).anchors c.1.2 f)]

theorem removed_simulationModel {m : ModelDict ℝ} {k : ℕ} (hm : SimulationModel m k) {ms : List String} (hall : ∀ t, IsPeriod m t → ∃ v, IsUpdate (removeMeasurements ms m) t v) : SimulationModel (removeMeasurements ms m) k where
  names := (edit_removeMeasurements ms m).goodNames hm.names
  anchoring := ⟨(edit_removeMeasurements ms m).cleanAnchoring hm.anchoring.1, (edit_removeMeasurements ms m).sameOrder hm.anchoring.2.1, (edit_removeMeasurements ms m).noNameClash hm.anchoring.2.2⟩
  safe f hf := hm.safe f (((edit_removeMeasurements ms m).isLatent f).mp hf)
  columns f h := hm.columns f (h.imp ((edit_removeMeasurements ms m).isLatent f).mp (fun ⟨t, ht⟩ => ⟨t, (smaller_removeMeasurements ms m).isUpdate ht⟩))
  periods := (removed_period ms m 1).mpr hm.periods
  updates t ht := hall t ((removed_period ms m t).mp ht)
  mixture := by
    unfold HasNMixtures
    exact hm.mixture
  elements := hm.elements

theorem removed_individuals {m : ModelDict ℝ} (ms : List String) {nObs : Option Nat} {data : Option (LongData ℝ)} {n : ℕ} {cov : Nat → Covariates} (hi : Individuals m nObs data n cov) : Individuals (removeMeasurements ms m) nObs data n cov := by
  have he := edit_removeMeasurements ms m
  cases hi with
  | @ofData _ df ids pers _ h1 h2 h3 h4 h5 h6 =>
    refine .ofData h1 h2 h3 h4 ⟨h5.keys, fun f o ha => h5.outcomes f o ((he.anchoredIn f o).mp ha), fun t ht c hc => ?_, fun t v h => ?_, fun t ht f hf => ?_⟩ (fun i hil t ht => ?_)
    · simp only [he.hasVariable, he.hasValue]
      exact h5.controls t ((removed_period ms m t).mp ht) c hc
    · rw [he.hasVariable]
      exact h5.measurements t v ((smaller_removeMeasurements ms m).isUpdate h)
    · simp only [he.hasVariable, he.hasValue]
      exact h5.observed t ((removed_period ms m t).mp ht) f hf
    · obtain ⟨r, hr, hr1, hr2⟩ := h6 i hil t ((removed_period ms m t).mp ht)
      refine ⟨r, hr, fun c hc => ?_, fun f hf => ?_⟩
      · rw [he.valueIs]
        exact hr1 c hc
      · rw [he.valueIs]
        exact hr2 f hf
  | ofNumber h1 h2 h3 => exact .ofNumber h1 h2 h3

theorem removed_values {custom : String → CustomFn} {m : ModelDict ℝ} (ms : List String) {k : ℕ} {val : Loc → ℝ} {policies : List Policy} (hv : SimulationValues custom m k val policies) : SimulationValues custom (removeMeasurements ms m) k val policies where
  positive := hv.positive
  sum := hv.sum
  usable t ht fs hfs := by
    obtain ⟨f, spec⟩ := fs
    obtain ⟨s, hs, rfl⟩ := mem_removeMeasurements.mp hfs
    have := hv.usable t ((removed_period ms m _).mp ht) (f, s) hs
    rw [(edit_removeMeasurements ms m).allFactors_eq]
    exact this
  policies p hp hper := by
    obtain ⟨h1, h2⟩ := hv.policies p hp ((removed_period ms m _).mp hper)
    exact ⟨((edit_removeMeasurements ms m).isLatent _).mpr h1, h2⟩

theorem removed_custom {custom : String → CustomFn} {m : ModelDict ℝ} (ms : List String) (h : MeasurableCustom custom m) : MeasurableCustom custom (removeMeasurements ms m) := by
  intro fs hfs args names body ht v
  obtain ⟨f, spec⟩ := fs
  obtain ⟨s, hs, rfl⟩ := mem_removeMeasurements.mp hfs
  rw [(edit_removeMeasurements ms m).allFactors_eq]
  exact h (f, s) hs args names body ht v

/-- **C116**: simulate a dataset for a model and for the model without some measurements (as returned by remove_measurements), with the same parameters. The latent factors and the remaining measurements of all individuals and
periods have the same joint law in both datasets. -/
theorem C116_simulation {root root' : NormalRoot} (hroot : ValidRoot root) (hroot' : ValidRoot root') {m : ModelDict ℝ} {pm : Processed ℝ} (hpm : processModel m = .ok pm) {k : ℕ} (hm : SimulationModel m k) {ms : List String}
    (hall : ∀ t, IsPeriod m t → ∃ v, IsUpdate (removeMeasurements ms m) t v) {custom : String → CustomFn} (hcus : MeasurableCustom custom m) (nan nan' : ℝ) {val : Loc → ℝ} {policies : List Policy} (hv : SimulationValues custom m k val policies)
    {params params' : List (Loc × ℝ)} (hparams : HasParams m params val) (hparams' : HasParams (removeMeasurements ms m) params' val) {nObs : Option Nat} {data : Option (LongData ℝ)} {n : ℕ} {cov : Nat → Covariates} (hi : Individuals m nObs data n cov)
    (hn : 0 < n) {Ω Ω' : Type} [MeasurableSpace Ω] [MeasurableSpace Ω'] {P : Measure Ω} {P' : Measure Ω'} [IsProbabilityMeasure P] [IsProbabilityMeasure P'] {E : Nat → Ω → Fin k} {Z : Nat → Draw → Ω → ℝ} {E' : Nat → Ω' → Fin k}
    {Z' : Nat → Draw → Ω' → ℝ} (hZ : RandomDatasetDraws P val E Z) (hZ' : RandomDatasetDraws P' val E' Z') :
    ∃ (out : Ω → SimulatedDataset) (out' : Ω' → SimulatedDataset) (X : Nat → Ω → Cell m → ℝ) (X' : Nat → Ω' → Cell (removeMeasurements ms m) → ℝ),
      (∀ ω, simulateDataset root custom nan m params nObs data policies (drawsWith (fun i => E i ω) (fun i j => Z i j ω)) = .ok (out ω) ∧ DatasetIs m val n (fun i => X i ω) (out ω)) ∧
      (∀ ω, simulateDataset root' custom nan' (removeMeasurements ms m) params' nObs data policies (drawsWith (fun i => E' i ω) (fun i j => Z' i j ω)) = .ok (out' ω) ∧ DatasetIs (removeMeasurements ms m) val n (fun i => X' i ω) (out' ω)) ∧
      P'.map (fun ω (i : Fin n) => X' i ω) = P.map (fun ω (i : Fin n) c => X i ω (cellBefore c)) := by
  obtain ⟨pm', hpm'⟩ := accepted_removeMeasurements ⟨pm, hpm⟩ ms
  obtain ⟨out, X, h1, h2, h3, h4⟩ := C91_simulation_law root hpm hm custom nan hv hparams hi hn hroot hcus hZ
  obtain ⟨out', X', h1', h2', h3', h4'⟩ := C91_simulation_law root' hpm' (removed_simulationModel hm hall) custom nan' (removed_values ms hv) hparams' (removed_individuals ms hi) hn hroot' (removed_custom ms hcus) hZ'
  have hmeas : Measurable (fun (x : Cell m → ℝ) (c : Cell (removeMeasurements ms m)) => x (cellBefore c)) := measurable_pi_iff.mpr (fun c => measurable_pi_apply (X := fun _ : Cell m => ℝ) (cellBefore c))
  refine ⟨out, out', X, X', h1, h1', individuals_law h2 h2' h3 h3' hmeas (fun i hil => ?_)⟩
  obtain ⟨Ω₀, _, P₀, E₀, Z₀, hP₀, hZ₀⟩ := exists_simulationNoise (k := k) (fun e he => (hv.positive e he).le) hv.sum
  have hX := h4 i hil P₀ E₀ Z₀ hZ₀
  have hX' := h4' i hil P₀ E₀ Z₀ hZ₀
  have hae : AEMeasurable (fun ω => modelCells custom m val (cov i) policies (E₀ ω) (fun j => Z₀ j ω)) P₀ := by
    by_contra hna
    rw [Measure.map_of_not_aemeasurable hna] at hX
    have : IsProbabilityMeasure (P.map (X i)) := Measure.isProbabilityMeasure_map (h2 i).aemeasurable
    rw [hX] at this
    have h0 := this.measure_univ
    rw [Measure.coe_zero, Pi.zero_apply] at h0
    exact zero_ne_one h0
  have e1 : (fun ω => modelCells custom (removeMeasurements ms m) val (cov i) policies (E₀ ω) (fun j => Z₀ j ω)) =
      (fun (x : Cell m → ℝ) (c : Cell (removeMeasurements ms m)) => x (cellBefore c)) ∘ (fun ω => modelCells custom m val (cov i) policies (E₀ ω) (fun j => Z₀ j ω)) := by
    funext ω c
    exact cells_removed custom hm.anchoring.1 ms val (cov i) policies (E₀ ω) _ c
  rw [hX', e1, ← AEMeasurable.map_map_of_aemeasurable hmeas.aemeasurable hae, ← hX, Measure.map_map hmeas (h2 i)]
  rfl

end Skill
