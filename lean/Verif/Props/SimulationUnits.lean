import Verif.Spec.SimulationUnits
import Verif.Props.Rescaling
import Verif.Props.SimulatedLikelihood
import Verif.Props.SameLikelihood

/-! C108: simulated datasets and the units of the latent factors. -/

namespace Skill
open Matrix MeasureTheory ProbabilityTheory Spec

theorem policyEffect_units (c : ℕ → String → ℝ) (policies : List Policy) (z : ℕ → ℝ) (t : ℕ) (f : String) : policyEffect (policiesInUnits c policies) z t f = c t f * policyEffect policies z t f := by
  have key : ∀ (l : List (Policy × ℕ)),
      (((l.map (fun p => ((({ p.1 with effectSize := c p.1.period p.1.factor * p.1.effectSize, standardDeviation := c p.1.period p.1.factor * p.1.standardDeviation } : Policy)), p.2))).filter
        (fun p => decide (p.1.period = t ∧ p.1.factor = f))).map (fun p => p.1.effectSize + p.1.standardDeviation * z p.2)).sum =
      c t f * ((l.filter (fun p => decide (p.1.period = t ∧ p.1.factor = f))).map (fun p => p.1.effectSize + p.1.standardDeviation * z p.2)).sum := by
    intro l
    induction l with
    | nil => simp
    | cons p l ih =>
      by_cases h : p.1.period = t ∧ p.1.factor = f
      · obtain ⟨rfl, rfl⟩ := h
        simp only [List.map_cons, List.filter_cons, and_self, decide_true, if_true, List.sum_cons, ih]
        ring
      · simp only [List.map_cons, List.filter_cons, h, decide_false, Bool.false_eq_true, if_false, ih]
  unfold policyEffect policiesInUnits
  rw [List.zipIdx_map]
  exact key _

section
variable {m : ModelDict ℝ} {k : ℕ} {c d : ℕ → String → ℝ} {val val' : Loc → ℝ}

/-- The simulated factors in the new units. -/
theorem units_states (hm : LinearModel m k) (hg : GoodNames m) (hr : Rescales m c d val val') (hc : CanRescale m c d) (hv : ProperValues m k val) (custom : String → CustomFn) (cov : Covariates) (policies : List Policy) (e : ℕ)
    (z : SimulationNoise → ℝ) : ∀ t, IsPeriod m t → ∀ f, IsLatent m f →
      simulatedStates custom m val' cov (policiesInUnits c policies) e z t f = c t f * simulatedStates custom m val cov policies e z t f + d t f := by
  have heff : ∀ t f, effectOf m (policiesInUnits c policies) z t f = c t f * effectOf m policies z t f := by
    intro t f
    unfold effectOf
    split_ifs
    · exact policyEffect_units c policies _ t f
    · simp
  intro t
  induction t with
  | zero =>
    intro _ f hf
    simp only [simulatedStates]
    rw [rescaled_start hr e _ hf, heff]
    ring
  | succ t ih =>
    intro ht f hf
    have ht' : IsPeriod m t := by
      obtain ⟨n, hn, hlt⟩ := ht
      exact ⟨n, hn, by omega⟩
    have hfl := (mem_latents_iff m f).mpr hf
    simp only [simulatedStates]
    rw [linear_next hm hg custom val' cov t _ hfl, linear_next hm hg custom val cov t _ hfl, rescaled_next hr hc hg hm.anchoring.1 t cov (fun g hgl => ih ht' g hgl) hf (hv.scales _ f ht), hr.shockSds t f hf, heff]
    ring

/-- Custom functions do not matter for linear models. -/
theorem cells_custom (hm : LinearModel m k) (hg : GoodNames m) (custom custom' : String → CustomFn) (val : Loc → ℝ) (cov : Covariates) (policies : List Policy) (e : ℕ) (z : SimulationNoise → ℝ) :
    modelCells custom m val cov policies e z = modelCells custom' m val cov policies e z := by
  have h : ∀ t, ∀ f ∈ latents m, simulatedStates custom m val cov policies e z t f = simulatedStates custom' m val cov policies e z t f := by
    intro t
    induction t with
    | zero => intro f _; rfl
    | succ t ih =>
      intro f hf
      simp only [simulatedStates]
      rw [linear_next hm hg custom val cov t _ hf, ← linear_next hm hg custom' val cov t _ hf, factorNext_congr custom' m val cov t (fun g hg => ih g hg)]
  funext q
  cases q with
  | inl q => exact h q.1.1 q.1.2 q.2.2
  | inr q => exact measurementWith_congr val cov (fun f hf => h q.1.1 f hf) _ _

/-- The simulated cells in the new units. -/
theorem units_cells (hm : LinearModel m k) (hg : GoodNames m) (hr : Rescales m c d val val') (hc : CanRescale m c d) (hv : ProperValues m k val) (custom : String → CustomFn) {cov : Covariates} (hone : ∀ t, IsPeriod m t → cov.control t "constant" = 1)
    (policies : List Policy) (e : ℕ) (z : SimulationNoise → ℝ) : modelCells custom m val' cov (policiesInUnits c policies) e z = cellsInUnits c d (modelCells custom m val cov policies e z) := by
  classical
  funext q
  cases q with
  | inl q => exact units_states hm hg hr hc hv custom cov policies e z q.1.1 q.2.1 q.1.2 ((mem_latents_iff m _).mp q.2.2)
  | inr q =>
    have ht : IsPeriod m q.1.1 := update_period hm _ _ q.2
    show measurementWith m val' cov _ _ _ _ = measurementWith m val cov _ _ _ _
    unfold measurementWith
    rw [hr.measSds, rescaled_terms hr hc hg cov (fun f hf => units_states hm hg hr hc hv custom cov policies e z q.1.1 ht f hf) q.1.2 (hone _ ht)]

/-- The constant is one for all individuals. -/
theorem individuals_constant {nObs : Option Nat} {data : Option (LongData ℝ)} {n : ℕ} {cov : Nat → Covariates} (hi : Individuals m nObs data n cov) {i : ℕ} (hil : i < n) (t : ℕ) (ht : IsPeriod m t) : (cov i).control t "constant" = 1 := by
  cases hi with
  | ofNumber _ _ h => exact h i hil t
  | ofData _ _ _ _ _ h =>
    obtain ⟨r, _, h, _⟩ := h i hil t ht
    rcases h "constant" List.mem_cons_self with ⟨f, o, _, hname, _⟩ | ⟨_, h⟩
    · have h := congrArg String.toList hname
      have hmem : '_' ∈ (o ++ "_" ++ f).toList := by simp
      rw [← h] at hmem
      exact absurd hmem (by decide)
    · simpa [baseValue] using h

end

theorem measurable_cellsInUnits {m : ModelDict ℝ} (c d : ℕ → String → ℝ) : Measurable (cellsInUnits (m := m) c d) := by
  refine measurable_pi_iff.mpr (fun q => ?_)
  cases q with
  | inl q => exact ((measurable_pi_apply (X := fun _ : Cell m => ℝ) (.inl q)).const_mul _).add_const _
  | inr q => exact measurable_pi_apply (X := fun _ : Cell m => ℝ) (.inr q)

theorem measurable_observableCells {m : ModelDict ℝ} (val : Loc → ℝ) : Measurable (observableCells (m := m) val) := by
  refine measurable_pi_iff.mpr (fun q => ?_)
  cases q with
  | inl q =>
    show Measurable (fun x : Cell m → ℝ => anchorConstant m val q.1.1 q.1.2 + anchorScale m val q.1.1 q.1.2 * x (.inl ⟨q.1, q.2.1⟩))
    exact ((measurable_pi_apply (X := fun _ : Cell m => ℝ) (.inl ⟨q.1, q.2.1⟩)).const_mul _).const_add _
  | inr q => exact measurable_pi_apply (X := fun _ : Cell m => ℝ) (.inr q)

/-- The joint law of independent individuals. -/
theorem individuals_law {A B Ω Ω' : Type} [MeasurableSpace A] [MeasurableSpace B] [MeasurableSpace Ω] [MeasurableSpace Ω'] {P : Measure Ω} {P' : Measure Ω'} [IsProbabilityMeasure P] [IsProbabilityMeasure P'] {n : ℕ} {X : ℕ → Ω → A}
    {X' : ℕ → Ω' → B} (hX : ∀ i, Measurable (X i)) (hX' : ∀ i, Measurable (X' i)) (hI : iIndepFun X P) (hI' : iIndepFun X' P') {g : A → B} (hg : Measurable g) (h : ∀ i < n, P'.map (X' i) = P.map (fun ω => g (X i ω))) :
    P'.map (fun ω (i : Fin n) => X' i ω) = P.map (fun ω (i : Fin n) => g (X i ω)) := by
  have h1 : iIndepFun (fun (i : Fin n) => X' i) P' := hI'.precomp (g := fun i : Fin n => i.val) Fin.val_injective
  have h2 : iIndepFun (fun (i : Fin n) ω => g (X i ω)) P := (hI.precomp (g := fun i : Fin n => i.val) Fin.val_injective).comp (fun _ => g) (fun _ => hg)
  rw [(iIndepFun_iff_map_fun_eq_pi_map (fun i : Fin n => (hX' i).aemeasurable)).mp h1, (iIndepFun_iff_map_fun_eq_pi_map (f := fun (i : Fin n) ω => g (X i ω)) (fun i : Fin n => (hg.comp (hX i)).aemeasurable)).mp h2]
  congr 1
  funext i
  exact h i i.isLt

section
variable {root root' : NormalRoot} {m : ModelDict ℝ} {pm : Processed ℝ} {k : ℕ} {c d : ℕ → String → ℝ} {val val' : Loc → ℝ} {policies : List Policy}

/-- **C108.** Suppose that the units of latent factors change (`x` in period t becomes `c t f * x + d t f`), and that the parameters and the policies are adjusted. Then the joint distribution of all cells of the output of simulate_dataset is the
distribution of the cells before the change, with factors in the new units and the same measurements. The joint distribution of measurements and anchored factors in the units of their outcomes does not change at all: simulated effects of policies
on anchored factors and on measurements do not depend on the units of the latent factors. -/
theorem C108_units (hroot : ValidRoot root) (hroot' : ValidRoot root') (hpm : processModel m = .ok pm) (hm : LinearModel m k) (hsm : SimulationModel m k) (hc : CanRescale m c d) (hr : Rescales m c d val val') (hv : ProperValues m k val)
    (custom custom' : String → CustomFn) (nan nan' : ℝ) (hp : ∀ p ∈ policies, IsPeriod m (p.period + 1) → IsLatent m p.factor ∧ 0 ≤ p.standardDeviation ∧ 0 < c p.period p.factor)
    {params params' : List (Loc × ℝ)} (hparams : HasParams m params val) (hparams' : HasParams m params' val') {nObs : Option Nat} {data : Option (LongData ℝ)} {n : ℕ} {cov : Nat → Covariates} (hi : Individuals m nObs data n cov) (hn : 0 < n)
    {Ω Ω' : Type} [MeasurableSpace Ω] [MeasurableSpace Ω'] {P : Measure Ω} {P' : Measure Ω'} [IsProbabilityMeasure P] [IsProbabilityMeasure P'] {E : Nat → Ω → Fin k} {Z : Nat → Draw → Ω → ℝ} {E' : Nat → Ω' → Fin k} {Z' : Nat → Draw → Ω' → ℝ}
    (hZ : RandomDatasetDraws P val E Z) (hZ' : RandomDatasetDraws P' val' E' Z') :
    ∃ (out : Ω → SimulatedDataset) (out' : Ω' → SimulatedDataset) (X : Nat → Ω → Cell m → ℝ) (X' : Nat → Ω' → Cell m → ℝ),
      (∀ ω, simulateDataset root custom nan m params nObs data policies (drawsWith (fun i => E i ω) (fun i j => Z i j ω)) = .ok (out ω) ∧ DatasetIs m val n (fun i => X i ω) (out ω)) ∧
      (∀ ω, simulateDataset root' custom' nan' m params' nObs data (policiesInUnits c policies) (drawsWith (fun i => E' i ω) (fun i j => Z' i j ω)) = .ok (out' ω) ∧ DatasetIs m val' n (fun i => X' i ω) (out' ω)) ∧
      P'.map (fun ω (i : Fin n) => X' i ω) = P.map (fun ω (i : Fin n) => cellsInUnits c d (X i ω)) ∧
      P'.map (fun ω (i : Fin n) => observableCells val' (X' i ω)) = P.map (fun ω (i : Fin n) => observableCells val (X i ω)) := by
  have hg := hsm.names
  have hv' := hr.proper hc hg hm.anchoring.1 hv
  have hvals : ∀ custom {val}, ProperValues m k val → ∀ {policies : List Policy}, (∀ p ∈ policies, IsPeriod m (p.period + 1) → IsLatent m p.factor ∧ 0 ≤ p.standardDeviation) → SimulationValues custom m k val policies :=
    fun custom _ hv _ hp => ⟨hv.positive, hv.sum, (linear_simulationValues hm hg custom hv).usable, hp⟩
  have hp' : ∀ p ∈ policiesInUnits c policies, IsPeriod m (p.period + 1) → IsLatent m p.factor ∧ 0 ≤ p.standardDeviation := by
    intro p hmem hper
    obtain ⟨q, hq, rfl⟩ := List.mem_map.mp hmem
    obtain ⟨h1, h2, h3⟩ := hp q hq hper
    exact ⟨h1, mul_nonneg h3.le h2⟩
  obtain ⟨out, X, h1, h2, h3, h4⟩ := C91_simulation_law root hpm hsm custom nan (hvals custom hv (fun p h h' => ⟨(hp p h h').1, (hp p h h').2.1⟩)) hparams hi hn hroot (linear_measurableCustom hm hg custom) hZ
  obtain ⟨out', X', h1', h2', h3', h4'⟩ := C91_simulation_law root' hpm hsm custom' nan' (hvals custom' hv' hp') hparams' hi hn hroot' (linear_measurableCustom hm hg custom') hZ'
  have hlaw : ∀ i < n, P'.map (X' i) = P.map (fun ω => cellsInUnits c d (X i ω)) := by
    intro i hil
    obtain ⟨Ω₀, _, P₀, E₀, Z₀, hP₀, hZ₀⟩ := exists_simulationNoise (k := k) (fun e he => (hv.positive e he).le) hv.sum
    have hZ₀' : RandomSimulationNoise P₀ val' E₀ Z₀ := ⟨hZ₀.measurable_element, hZ₀.measurable, hZ₀.normal, hZ₀.independent, hZ₀.element_independent, fun e => by rw [hr.weights, hZ₀.element_weights]⟩
    have hX := h4 i hil P₀ E₀ Z₀ hZ₀
    have hX' := h4' i hil P₀ E₀ Z₀ hZ₀'
    have hae : AEMeasurable (fun ω => modelCells custom m val (cov i) policies (E₀ ω) (fun j => Z₀ j ω)) P₀ := by
      by_contra hna
      rw [Measure.map_of_not_aemeasurable hna] at hX
      have : IsProbabilityMeasure (P.map (X i)) := Measure.isProbabilityMeasure_map (h2 i).aemeasurable
      rw [hX] at this
      have h0 := this.measure_univ
      rw [Measure.coe_zero, Pi.zero_apply] at h0
      exact zero_ne_one h0
    have e1 : (fun ω => modelCells custom' m val' (cov i) (policiesInUnits c policies) (E₀ ω) (fun j => Z₀ j ω)) = cellsInUnits c d ∘ (fun ω => modelCells custom m val (cov i) policies (E₀ ω) (fun j => Z₀ j ω)) := by
      funext ω
      show _ = cellsInUnits c d _
      rw [← units_cells hm hg hr hc hv custom (fun t ht => individuals_constant hi hil t ht) policies]
      exact cells_custom hm hg custom' custom val' (cov i) _ _ _
    rw [hX', e1, ← AEMeasurable.map_map_of_aemeasurable (measurable_cellsInUnits c d).aemeasurable hae, ← hX, Measure.map_map (measurable_cellsInUnits c d) (h2 i)]
    rfl
  have hall := individuals_law h2 h2' h3 h3' (measurable_cellsInUnits c d) hlaw
  refine ⟨out, out', X, X', h1, h1', hall, ?_⟩
  have hobs := congrArg (Measure.map (fun (x : Fin n → Cell m → ℝ) i => observableCells val' (x i))) hall
  have hmeas : Measurable (fun (x : Fin n → Cell m → ℝ) i => observableCells val' (x i)) := measurable_pi_iff.mpr (fun i => (measurable_observableCells val').comp (measurable_pi_apply i))
  rw [Measure.map_map hmeas (measurable_pi_iff.mpr (fun i => h2' i)), Measure.map_map hmeas (f := fun ω (i : Fin n) => cellsInUnits c d (X i ω)) (measurable_pi_iff.mpr (fun i => (measurable_cellsInUnits c d).comp (h2 i)))] at hobs
  refine hobs.trans ?_
  congr 1
  funext ω i q
  show observableCells val' (cellsInUnits c d (X i ω)) q = observableCells val (X i ω) q
  cases q with
  | inr q => rfl
  | inl q =>
    show anchoredValue m val' q.1.1 q.1.2 (c q.1.1 q.1.2 * X i ω (.inl ⟨q.1, q.2.1⟩) + d q.1.1 q.1.2) = _
    rw [rescaled_anchored hr hc hg hm.anchoring.1 q.1.1 ((mem_latents_iff m _).mp q.2.1.2)]
    unfold unitScale unitShift
    rw [if_neg (fun h => h.2 q.2.2), if_neg (fun h => h.2 q.2.2), one_mul, add_zero]
    rfl

end

/-- The law of the simulated measurements of an individual is that of the statistical model. -/
theorem simulated_measurements_law {m : ModelDict ℝ} {k : ℕ} {val : Loc → ℝ} (hm : LinearModel m k) (hg : GoodNames m) (custom : String → CustomFn) (cov : Covariates) {Ω Ω₀ : Type} [MeasurableSpace Ω] [MeasurableSpace Ω₀]
    {P : Measure Ω} [IsProbabilityMeasure P] {P₀ : Measure Ω₀} {X : Ω → Cell m → ℝ} (hX : Measurable X) {E₀ : Ω₀ → Fin k} {Z₀ : SimulationNoise → Ω₀ → ℝ} {updates : List (Nat × String)} (hup : Enumerates m updates)
    (h : P.map X = P₀.map (fun ω => modelCells custom m val cov [] (E₀ ω) (fun j => Z₀ j ω))) :
    P.map (fun ω (j : Fin updates.length) => X ω (measurementCell hup j)) =
      P₀.map (fun ω => observedData updates { cov with isObserved := fun _ _ => true } (measurementValue m val { cov with isObserved := fun _ _ => true } (E₀ ω) (fun j => Z₀ (.model j) ω))) := by
  have hae : AEMeasurable (fun ω => modelCells custom m val cov [] (E₀ ω) (fun j => Z₀ j ω)) P₀ := by
    by_contra hna
    rw [Measure.map_of_not_aemeasurable hna] at h
    have : IsProbabilityMeasure (P.map X) := Measure.isProbabilityMeasure_map hX.aemeasurable
    rw [h] at this
    have h0 := this.measure_univ
    rw [Measure.coe_zero, Pi.zero_apply] at h0
    exact zero_ne_one h0
  have hgm : Measurable (fun (x : Cell m → ℝ) (j : Fin updates.length) => x (measurementCell hup j)) := measurable_pi_iff.mpr (fun j => measurable_pi_apply _)
  have e1 : P.map (fun ω (j : Fin updates.length) => X ω (measurementCell hup j)) = (P.map X).map (fun (x : Cell m → ℝ) (j : Fin updates.length) => x (measurementCell hup j)) := (Measure.map_map hgm hX).symm
  rw [e1, h, AEMeasurable.map_map_of_aemeasurable hgm.aemeasurable hae]
  congr 1
  funext ω j
  have h1 := linear_cells hm hg custom val cov (E₀ ω) (fun j => Z₀ j ω) ⟨updates.get j, (hup.all _ _).mp (List.get_mem updates j)⟩
  have h2 : ∀ t, latentStates m val { cov with isObserved := fun _ _ => true } (E₀ ω) (fun j => Z₀ (.model j) ω) t = latentStates m val cov (E₀ ω) (fun j => Z₀ (.model j) ω) t := by
    intro t
    induction t with
    | zero => rfl
    | succ t ih =>
      funext f
      simp only [latentStates, ih]
      rfl
  refine h1.trans ?_
  unfold observedData measurementValue
  simp only [if_true, h2]

section
variable {qr qr' : QR} {root root' : NormalRoot} {m m' : ModelDict ℝ} {pm pm' : Processed ℝ} {k k' : ℕ} {val val' : Loc → ℝ}

/-- **C108.** Consider two model dictionaries as in C106. If the values of their log likelihood functions are the same for all datasets, then simulate_dataset returns measurements with the same joint distribution (for all individuals, periods
and measurements) from both models, without policies. So it does not matter which of several parameters with the same likelihood are used for simulations of the data. -/
theorem C108_same_likelihood (hqr : ValidQR qr) (hqr' : ValidQR qr') (hroot : ValidRoot root) (hroot' : ValidRoot root') (hpm : processModel m = .ok pm) (hpm' : processModel m' = .ok pm') (hm : LinearModel m k) (hm' : LinearModel m' k')
    (hsm : SimulationModel m k) (hsm' : SimulationModel m' k') (hna : m.anchoring = none) (hna' : m'.anchoring = none) (hc : NoClipping m) (hc' : NoClipping m')
    (hkappa : ∀ o x, m.estimationOptions = some o → o.sigmaPointsScale = some x → 0 ≤ x) (hkappa' : ∀ o x, m'.estimationOptions = some o → o.sigmaPointsScale = some x → 0 ≤ x) (hsame : SameVariables m m')
    (hsep : SeparateColumns m) (hv : ProperValues m k val) (hv' : ProperValues m' k' val') (custom custom' : String → CustomFn) (nan nan' : ℝ)
    (hlike : ∀ (df : LongData ℝ) (ids pers : List Int) (inputs inputs' : MaximizationInputs) (params params' : List (Loc × ℝ)) (out out' : LoglikeOutput), IndexOk df → NoUnusedPeriods df → IdsOf df ids → PeriodsOf df pers →
      DataOk m df ids pers → (∀ i < ids.length, ∃ cov y, Describes m df ids pers i cov y) → (params.map Prod.fst).Nodup → (params'.map Prod.fst).Nodup → (∀ l x, (l, x) ∈ params → x = val l) →
      (∀ l x, (l, x) ∈ params' → x = val' l) → getMaximizationInputs m df = .ok inputs → getMaximizationInputs m' df = .ok inputs' → inputs.loglike qr custom nan m params = .ok out →
      inputs'.loglike qr' custom' nan' m' params' = .ok out' → out'.value = out.value)
    {params params' : List (Loc × ℝ)} (hparams : HasParams m params val) (hparams' : HasParams m' params' val') {nObs : Option Nat} {data : Option (LongData ℝ)} {n : ℕ} {cov : Nat → Covariates} (hi : Individuals m nObs data n cov)
    (hi' : Individuals m' nObs data n cov) (hn : 0 < n)
    {Ω Ω' : Type} [MeasurableSpace Ω] [MeasurableSpace Ω'] {P : Measure Ω} {P' : Measure Ω'} [IsProbabilityMeasure P] [IsProbabilityMeasure P'] {E : Nat → Ω → Fin k} {Z : Nat → Draw → Ω → ℝ} {E' : Nat → Ω' → Fin k'} {Z' : Nat → Draw → Ω' → ℝ}
    (hZ : RandomDatasetDraws P val E Z) (hZ' : RandomDatasetDraws P' val' E' Z') :
    ∃ (out : Ω → SimulatedDataset) (out' : Ω' → SimulatedDataset) (X : Nat → Ω → Cell m → ℝ) (X' : Nat → Ω' → Cell m' → ℝ),
      (∀ ω, simulateDataset root custom nan m params nObs data [] (drawsWith (fun i => E i ω) (fun i j => Z i j ω)) = .ok (out ω) ∧ DatasetIs m val n (fun i => X i ω) (out ω)) ∧
      (∀ ω, simulateDataset root' custom' nan' m' params' nObs data [] (drawsWith (fun i => E' i ω) (fun i j => Z' i j ω)) = .ok (out' ω) ∧ DatasetIs m' val' n (fun i => X' i ω) (out' ω)) ∧
      P'.map (fun ω (i : Fin n) (q : {p : Nat × String // IsUpdate m p.1 p.2}) => X' i ω (.inr ⟨q.1, (hsame.isUpdate _ _).mp q.2⟩)) = P.map (fun ω (i : Fin n) (q : {p : Nat × String // IsUpdate m p.1 p.2}) => X i ω (.inr q)) := by
  obtain ⟨out, X, h1, h2, h3, h4⟩ := C91_simulation_law root hpm hsm custom nan (linear_simulationValues hm hsm.names custom hv) hparams hi hn hroot (linear_measurableCustom hm hsm.names custom) hZ
  obtain ⟨out', X', h1', h2', h3', h4'⟩ := C91_simulation_law root' hpm' hsm' custom' nan' (linear_simulationValues hm' hsm'.names custom' hv') hparams' hi' hn hroot' (linear_measurableCustom hm' hsm'.names custom') hZ'
  obtain ⟨Ω₀, _, P₀, E₀, Z₀, hP₀, hZ₀⟩ := exists_simulationNoise (k := k) (fun e he => (hv.positive e he).le) hv.sum
  obtain ⟨Ω₁, _, P₁, E₁, Z₁, hP₁, hZ₁⟩ := exists_simulationNoise (k := k') (fun e he => (hv'.positive e he).le) hv'.sum
  have hdist := (C106_same_likelihood_iff hqr hqr' hpm hpm' hm hm' hna hna' hsm.names hsm'.names hsm.safe hsm'.safe hc hc' hkappa hkappa' hsame hsep hv hv' hZ₀.model hZ₁.model custom custom' nan nan').mpr hlike
  obtain ⟨updates, hup, _⟩ := density_of_values hqr hpm hm hna hsm.names hkappa custom nan
  have hup' : Enumerates m' updates := ⟨hup.nodup, fun t v => (hup.all t v).trans (hsame.isUpdate t v)⟩
  have hmeas : ∀ i, Measurable (fun ω (j : Fin updates.length) => X i ω (measurementCell hup j)) := fun i => measurable_pi_iff.mpr (fun j => (measurable_pi_apply _).comp (h2 i))
  have hmeas' : ∀ i, Measurable (fun ω (j : Fin updates.length) => X' i ω (measurementCell hup' j)) := fun i => measurable_pi_iff.mpr (fun j => (measurable_pi_apply _).comp (h2' i))
  have hlaw : ∀ i < n, P'.map (fun ω (j : Fin updates.length) => X' i ω (measurementCell hup' j)) = P.map (fun ω (j : Fin updates.length) => X i ω (measurementCell hup j)) := by
    intro i hil
    rw [simulated_measurements_law hm hsm.names custom (cov i) (h2 i) hup (h4 i hil P₀ E₀ Z₀ hZ₀), simulated_measurements_law hm' hsm'.names custom' (cov i) (h2' i) hup' (h4' i hil P₁ E₁ Z₁ hZ₁)]
    exact (hdist updates hup { cov i with isObserved := fun _ _ => true } (fun t v hu _ => individuals_constant hi hil t (update_period hm t v hu))).symm
  have hI := h3.comp (fun _ (x : Cell m → ℝ) (j : Fin updates.length) => x (measurementCell hup j)) (fun _ => measurable_pi_iff.mpr (fun j => measurable_pi_apply _))
  have hI' := h3'.comp (fun _ (x : Cell m' → ℝ) (j : Fin updates.length) => x (measurementCell hup' j)) (fun _ => measurable_pi_iff.mpr (fun j => measurable_pi_apply _))
  have hall := individuals_law (n := n) (g := id) hmeas hmeas' hI hI' measurable_id hlaw
  refine ⟨out, out', X, X', h1, h1', ?_⟩
  have hget : ∀ q : {p : Nat × String // IsUpdate m p.1 p.2}, ∃ j : Fin updates.length, updates.get j = q.1 := fun q => List.mem_iff_get.mp ((hup.all q.1.1 q.1.2).mpr q.2)
  choose pos hpos using hget
  have hsel : Measurable (fun (y : Fin n → Fin updates.length → ℝ) (i : Fin n) (q : {p : Nat × String // IsUpdate m p.1 p.2}) => y i (pos q)) :=
    measurable_pi_iff.mpr (fun i => measurable_pi_iff.mpr (fun q => (measurable_pi_apply _).comp (measurable_pi_apply i)))
  have hfin := congrArg (Measure.map (fun (y : Fin n → Fin updates.length → ℝ) (i : Fin n) (q : {p : Nat × String // IsUpdate m p.1 p.2}) => y i (pos q))) hall
  rw [Measure.map_map hsel (f := fun ω (i : Fin n) (j : Fin updates.length) => X' i ω (measurementCell hup' j)) (measurable_pi_iff.mpr (fun i => hmeas' i)),
    Measure.map_map hsel (f := fun ω (i : Fin n) => id (fun (j : Fin updates.length) => X i ω (measurementCell hup j))) (measurable_pi_iff.mpr (fun i => hmeas i))] at hfin
  have e1 : ∀ q, measurementCell hup (pos q) = .inr q := fun q => congrArg Sum.inr (Subtype.ext (hpos q))
  have e2 : ∀ q : {p : Nat × String // IsUpdate m p.1 p.2}, measurementCell hup' (pos q) = .inr ⟨q.1, (hsame.isUpdate _ _).mp q.2⟩ := fun q => congrArg Sum.inr (Subtype.ext (hpos q))
  simp only [Function.comp_def, id, e1, e2] at hfin
  exact hfin

end

end Skill
