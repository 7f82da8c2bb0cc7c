import Verif.Props.LikelihoodRatio
import Verif.Props.SimulateDatasetExamples
import Mathlib.Logic.Equiv.List

/-! C99 for examples. -/

namespace Skill
open Matrix MeasureTheory ProbabilityTheory Spec

/-- The random numbers of all individuals. -/
theorem exists_individualNoise {k : ℕ} {val : Loc → ℝ} (hnn : ∀ e < k, 0 ≤ val ⟨.mixtureWeights, 0, Spec.mixtureName e, "-"⟩) (hsum : ∑ e : Fin k, val ⟨.mixtureWeights, 0, Spec.mixtureName e, "-"⟩ = 1) :
    ∃ (Ω : Type) (_ : MeasurableSpace Ω) (P : Measure Ω) (E : Nat → Ω → Fin k) (Z : Nat → Noise → Ω → ℝ), IsProbabilityMeasure P ∧ (∀ i, RandomNoise P val (E i) (Z i)) ∧ iIndepFun (fun i ω => (E i ω, fun j => Z i j ω)) P := by
  obtain ⟨Ω, _, P, E, Z, hP, hZ⟩ := exists_datasetDraws (val := val) (k := k) hnn hsum
  have : Countable Char := Function.Injective.countable (f := Char.toNat) (fun _ _ h => Char.toNat_inj.mp h)
  have : Countable String := Function.Injective.countable (f := String.toList) (fun _ _ h => String.toList_injective h)
  obtain ⟨h, hh⟩ := Countable.exists_injective_nat String
  let g : Noise → Draw := fun j => match j with
    | .start f => .start (h f)
    | .shock t f => .shock t (h f)
    | .error t v => .error t (h v)
  have hg : Function.Injective g := by
    intro a b hab
    cases a <;> cases b <;> simp only [g, Draw.start.injEq, Draw.shock.injEq, Draw.error.injEq, reduceCtorEq] at hab
    · rw [hh hab]
    · rw [hab.1, hh hab.2]
    · rw [hab.1, hh hab.2]
  have hsel : Measurable (fun (z : Draw → ℝ) (j : Noise) => z (g j)) := measurable_pi_iff.mpr (fun j => measurable_pi_apply _)
  refine ⟨Ω, _, P, E, fun i j => Z i (g j), hP, fun i => ⟨hZ.measurable_element i, fun j => hZ.measurable i _, fun j => hZ.normal i _, (hZ.independent i).precomp hg,
    (hZ.element_independent i).comp (φ := fun e => e) (ψ := fun (z : Draw → ℝ) (j : Noise) => z (g j)) measurable_id hsel, hZ.element_weights i⟩, ?_⟩
  exact hZ.individuals.comp (fun _ (d : Fin k × (Draw → ℝ)) => (d.1, fun j => d.2 (g j))) (fun _ => measurable_fst.prodMk (hsel.comp measurable_snd))

theorem measurable_measurement_pair {k : ℕ} (m : ModelDict ℝ) (val : Loc → ℝ) (cov : Covariates) (t : ℕ) (v : String) :
    Measurable (fun d : Fin k × (Noise → ℝ) => measurementValue m val cov d.1 d.2 t v) := by
  refine measurable_from_prod_countable_right (fun e => ?_)
  exact measurable_measurement m val cov e t v

/-- A measurement of two individuals with different random numbers differs almost surely. -/
theorem measurements_differ {k : ℕ} {qr : QR} {custom : String → CustomFn} {nan : ℝ} {m : ModelDict ℝ} {updates : List (ℕ × String)} {val : Loc → ℝ}
    {density : Covariates → (Fin updates.length → ℝ) → ℝ} (hd : DensityFor qr custom nan m k updates val density) {Ω : Type} [MeasurableSpace Ω] {P : Measure Ω} [IsProbabilityMeasure P] {E E' : Ω → Fin k} {Z Z' : Noise → Ω → ℝ}
    (hZ : RandomNoise P val E Z) (hZ' : RandomNoise P val E' Z') (hind : IndepFun (fun ω => (E ω, fun j => Z j ω)) (fun ω => (E' ω, fun j => Z' j ω)) P) (cov cov' : Covariates) (hobs : ∀ t v, cov'.isObserved t v = true) :
    ∀ᵐ ω ∂P, ∀ j : Fin updates.length, measurementValue m val cov (E ω) (fun j => Z j ω) (updates.get j).1 (updates.get j).2 ≠ measurementValue m val cov' (E' ω) (fun j => Z' j ω) (updates.get j).1 (updates.get j).2 := by
  rw [ae_all_iff]
  intro j
  have hmeas' : ∀ t v, Measurable (fun ω => measurementValue m val cov' (E' ω) (fun j => Z' j ω) t v) := fun t v =>
    (measurable_measurement_pair m val cov' t v).comp (hZ'.measurable_element.prodMk (measurable_pi_iff.mpr hZ'.measurable))
  have hi := hind.comp (measurable_measurement_pair m val cov (updates.get j).1 (updates.get j).2) (measurable_measurement_pair m val cov' (updates.get j).1 (updates.get j).2)
  refine ae_ne_of_indep ((measurable_measurement_pair m val cov _ _).comp (hZ.measurable_element.prodMk (measurable_pi_iff.mpr hZ.measurable))) (hmeas' _ _) hi (fun a => ?_)
  have hs : MeasurableSet {z : Fin updates.length → ℝ | z j = a} := measurableSet_eq_fun (measurable_pi_apply j) measurable_const
  have hdat : (fun ω => observedData updates cov' (measurementValue m val cov' (E' ω) (fun j => Z' j ω))) = fun ω j => measurementValue m val cov' (E' ω) (fun j => Z' j ω) (updates.get j).1 (updates.get j).2 := by
    funext ω j
    exact if_pos (hobs _ _)
  have hlaw := hd.law cov' P E' Z' hZ'
  rw [hdat] at hlaw
  rw [Measure.map_apply (hmeas' _ _) (measurableSet_singleton a)]
  have hset : (fun ω => measurementValue m val cov' (E' ω) (fun j => Z' j ω) (updates.get j).1 (updates.get j).2) ⁻¹' {a} =
    (fun ω j => measurementValue m val cov' (E' ω) (fun j => Z' j ω) (updates.get j).1 (updates.get j).2) ⁻¹' {z : Fin updates.length → ℝ | z j = a} := rfl
  rw [hset, ← Measure.map_apply (measurable_pi_iff.mpr (fun j => hmeas' _ _)) hs, hlaw]
  refine withDensity_absolutelyContinuous _ _ ?_
  unfold referenceMeasure
  simp only [hobs, if_true]
  exact Measure.pi_hyperplane (fun _ : Fin updates.length => (volume : Measure ℝ)) j a

namespace Ex

/-- Three individuals in two periods in no particular order, as in `linearData`, with the measurements `y`; measurement "y1" of individual 3 is missing in period 20. -/
noncomputable def randomRow (y : ℕ → ℕ → String → ℝ) (i t : ℕ) : LongRow ℝ where
  id := i + 1
  period := 10 * (t + 1)
  cell c := if c = "y1" ∧ i = 2 ∧ t = 1 then none else if c = "x" ∨ c = "o" then some ((i : ℝ) + 1 + 10 * (t + 1)) else some (y i t c)

noncomputable def randomData (y : ℕ → ℕ → String → ℝ) : LongData ℝ where
  columns := ["y1", "y2", "w", "x", "o"]
  idLevel := [1, 2, 3]
  periodLevel := [10, 20]
  rows := [randomRow y 2 0, randomRow y 1 1, randomRow y 0 0, randomRow y 2 1, randomRow y 0 1, randomRow y 1 0]

noncomputable def randomCovariates (i : ℕ) : Covariates where
  isObserved t v := !decide (v = "y1" ∧ i = 2 ∧ t = 1)
  control t c := if c = "constant" then 1 else i + 1 + 10 * (t + 1)
  factor t _ := i + 1 + 10 * (t + 1)

variable (y : ℕ → ℕ → String → ℝ)

theorem randomData_index : IndexOk (randomData y) ∧ NoUnusedPeriods (randomData y) ∧ UniqueKeys (randomData y) := by
  refine ⟨⟨by simp [randomData], by simp [randomData], ?_, ?_⟩, ?_, ?_⟩
  · intro r hr
    simp only [randomData, List.mem_cons, List.not_mem_nil, or_false] at hr ⊢
    rcases hr with rfl | rfl | rfl | rfl | rfl | rfl <;> simp [randomRow]
  · intro r hr
    simp only [randomData, List.mem_cons, List.not_mem_nil, or_false] at hr ⊢
    rcases hr with rfl | rfl | rfl | rfl | rfl | rfl <;> simp [randomRow]
  · intro p hp
    simp only [randomData, List.mem_cons, List.not_mem_nil, or_false] at hp ⊢
    rcases hp with rfl | rfl
    · exact ⟨randomRow y 2 0, by simp, rfl⟩
    · exact ⟨randomRow y 1 1, by simp, rfl⟩
  · unfold UniqueKeys randomData randomRow
    simp

theorem randomData_ids : IdsOf (randomData y) [1, 2, 3] ∧ PeriodsOf (randomData y) [10, 20] := by
  refine ⟨⟨by decide, fun x => ?_⟩, ⟨by decide, fun x => ?_⟩⟩
  · simp only [randomData, randomRow, List.mem_cons, List.not_mem_nil, or_false, exists_eq_or_imp, exists_eq_left]
    constructor <;> intro h <;> omega
  · simp only [randomData, randomRow, List.mem_cons, List.not_mem_nil, or_false, exists_eq_or_imp, exists_eq_left]
    constructor <;> intro h <;> omega

theorem randomData_row {i t : ℕ} (hi : i < 3) (ht : t < 2) : RowOf (randomData y) [1, 2, 3] [10, 20] i t (some (randomRow y i t)) := by
  obtain rfl | rfl : t = 0 ∨ t = 1 := by omega
  all_goals
    obtain rfl | rfl | rfl : i = 0 ∨ i = 1 ∨ i = 2 := by omega
    all_goals exact ⟨by simp [randomData], rfl, rfl⟩

theorem randomData_value {i t : ℕ} (hi : i < 3) (ht : t < 2) (c : String) : HasValue linearModel (randomData y) [1, 2, 3] [10, 20] i t c (baseValue (some (randomRow y i t)) c) :=
  ⟨hi, _, randomData_row y hi ht, (valueIs_of_none rfl _ _ _).mpr rfl⟩

theorem randomRow_covariate {i t : ℕ} {c : String} (hc : c = "x" ∨ c = "o") : baseValue (some (randomRow y i t)) c = some ((i : ℝ) + 1 + 10 * (t + 1)) := by
  unfold baseValue randomRow
  rw [if_neg (by rcases hc with rfl | rfl <;> decide), Option.bind_some]
  dsimp only
  rw [if_neg (by rcases hc with rfl | rfl <;> simp), if_pos hc]

theorem randomRow_measurement {i t : ℕ} {c : String} (hc : c ∈ ["y1", "y2", "w"]) : baseValue (some (randomRow y i t)) c = if c = "y1" ∧ i = 2 ∧ t = 1 then none else some (y i t c) := by
  unfold baseValue randomRow
  simp only [List.mem_cons, List.not_mem_nil, or_false] at hc
  rw [if_neg (by rcases hc with rfl | rfl | rfl <;> decide), Option.bind_some]
  dsimp only
  split_ifs with h1 h2
  · rfl
  · rcases hc with rfl | rfl | rfl <;> simp at h2
  · rfl

theorem randomData_ok (hne : ∀ t < 2, ∀ v ∈ ["y1", "y2", "w"], y 0 t v ≠ y 1 t v) : DataOk linearModel (randomData y) [1, 2, 3] [10, 20] where
  keys := (randomData_index y).2.2
  outcomes := by rintro f o ⟨a, ⟨⟩, _⟩
  controls := by
    intro t ht c hc
    have ht := (linearModel_period t).mp ht
    have hv := randomData_value y (i := 0) (by norm_num) ht c
    simp only [linearModel, Option.getD_some, List.mem_cons, List.not_mem_nil, or_false] at hc
    rcases hc with rfl | rfl
    · exact ⟨Or.inr (Or.inl rfl), 0, 1, hv⟩
    · rw [randomRow_covariate y (Or.inl rfl)] at hv
      exact ⟨Or.inl (by simp [randomData]), 0, _, hv⟩
  measurements := by
    intro t v hv
    obtain ⟨ht, hv⟩ := (linearModel_update t v).mp hv
    refine ⟨Or.inl (by simp only [randomData, List.mem_cons] at hv ⊢; tauto), ?_⟩
    rintro ⟨a, ha⟩
    have h0 := randomData_value y (i := 0) (by norm_num) ht v
    have h1 := randomData_value y (i := 1) (by norm_num) ht v
    rw [randomRow_measurement y (by simpa using hv), if_neg (by omega)] at h0 h1
    have h2 := (ha _).mp ⟨_, h0⟩
    have h3 := (ha _).mp ⟨_, h1⟩
    exact hne t ht v (by simpa using hv) (h2.trans h3.symm)
  observed := by
    intro t ht f hf
    have ht := (linearModel_period t).mp ht
    simp only [linearModel, Option.getD_some, List.mem_singleton] at hf
    subst hf
    refine ⟨Or.inl (by simp [randomData]), ?_⟩
    rintro i ⟨hi, r, hr, hv⟩
    rw [valueIs_of_none rfl] at hv
    cases r with
    | none =>
      have := randomData_row y hi ht
      exact hr.2 _ this.1 this.2
    | some r =>
      have hmem := hr.1
      simp only [randomData, List.mem_cons, List.not_mem_nil, or_false] at hmem
      rcases hmem with rfl | rfl | rfl | rfl | rfl | rfl <;> simp [baseValue, randomRow] at hv

theorem randomData_complete {i t : ℕ} : ¬IncompleteControls linearModel (some (randomRow y i t)) t := by
  rintro ⟨⟨c, hc, hv⟩, _⟩
  rw [valueIs_of_none rfl] at hv
  simp only [linearModel, Option.getD_some, List.mem_cons, List.not_mem_nil, or_false] at hc
  rcases hc with rfl | rfl <;> simp [baseValue, randomRow] at hv

theorem randomData_describes {i : ℕ} (hi : i < 3) : Describes linearModel (randomData y) [1, 2, 3] [10, 20] i (randomCovariates i) (y i) := by
  intro t ht
  have ht := (linearModel_period t).mp ht
  refine ⟨_, randomData_row y hi ht, ?_, ?_, ?_⟩
  · intro v hv
    obtain ⟨_, hv⟩ := (linearModel_update t v).mp hv
    refine ⟨_, _, (valueIs_of_none rfl _ _ _).mpr rfl, Or.inr ⟨randomData_complete y, rfl⟩, ?_⟩
    rw [randomRow_measurement y (by simpa using hv)]
    by_cases h : v = "y1" ∧ i = 2 ∧ t = 1
    · rw [if_pos h]
      exact ⟨by simp [randomCovariates, h], fun b hb => by cases hb⟩
    · rw [if_neg h]
      exact ⟨by simp only [randomCovariates, h, decide_false]; rfl, fun b hb => Option.some.inj hb⟩
  · intro _ c hc a ha
    rw [valueIs_of_none rfl] at ha
    simp only [linearModel, Option.getD_some, List.mem_cons, List.not_mem_nil, or_false] at hc
    rcases hc with rfl | rfl
    · simpa [baseValue, randomCovariates, eq_comm] using ha
    · rw [randomRow_covariate y (Or.inl rfl)] at ha
      rw [Option.some.inj ha]
      simp [randomCovariates]
  · intro f hf
    refine ⟨randomData_complete y, (valueIs_of_none rfl _ _ _).mpr ?_⟩
    simp only [linearModel, Option.getD_some, List.mem_singleton] at hf
    subst hf
    rw [randomRow_covariate y (Or.inr rfl)]
    rfl

/-- Other values: smaller standard deviations of the measurements. -/
noncomputable def otherValues (val : Loc → ℝ) (l : Loc) : ℝ := if l.cat = .measSds then 1 / 3 else val l

theorem otherValues_proper {m : ModelDict ℝ} {k : ℕ} {val : Loc → ℝ} (hna : m.anchoring = none) (h : ProperValues m k val) : ProperValues m k (otherValues val) where
  positive := by
    intro e he
    rw [otherValues, if_neg (by simp)]
    exact h.positive e he
  sum := by
    simp only [otherValues]
    exact h.sum
  sds := by
    intro t v _
    simp [otherValues]
  scales := by
    intro t f _
    unfold anchorScale outcome
    rw [hna]
    simp

/-- The data of three individuals in the model of C99_example. -/
noncomputable def randomValues {Ω : Type} (E : ℕ → Ω → Fin 1) (Z : ℕ → Noise → Ω → ℝ) (ω : Ω) (i : ℕ) : ℕ → String → ℝ := measurementValue linearModel linearValues (randomCovariates i) (E i ω) (fun j => Z i j ω)

/-- `loglike` can be evaluated with these data. -/
theorem randomData_outputs {qr : QR} (hqr : ValidQR qr) {pm : Processed ℝ} (hpm : processModel linearModel = .ok pm) (custom : String → CustomFn) (nan : ℝ) (other : Loc → ℝ) {Ω : Type} [MeasurableSpace Ω] (P : Measure Ω) [IsProbabilityMeasure P]
    (E : ℕ → Ω → Fin 1) (Z : ℕ → Noise → Ω → ℝ) (hZ : ∀ i, RandomNoise P linearValues (E i) (Z i)) (hind : iIndepFun (fun i ω => (E i ω, fun j => Z i j ω)) P) :
    ∃ (inputs : Ω → MaximizationInputs) (out0 out : Ω → LoglikeOutput), ∀ᵐ ω ∂P, getMaximizationInputs linearModel (randomData (randomValues E Z ω)) = .ok (inputs ω) ∧
      (inputs ω).loglike qr custom nan linearModel (pm.paramsIndex.map (fun l => (l, linearValues l))) = .ok (out0 ω) ∧ (inputs ω).loglike qr custom nan linearModel (pm.paramsIndex.map (fun l => (l, other l))) = .ok (out ω) := by
  have hkappa : ∀ o x, linearModel.estimationOptions = some o → o.sigmaPointsScale = some x → (0 : ℝ) ≤ x := by rintro o x ⟨⟩ ⟨⟩
  let y : Ω → ℕ → ℕ → String → ℝ := randomValues E Z
  obtain ⟨updates, hup, density, hdens⟩ := density_of_values hqr hpm linearModel_linear rfl linearModel_names hkappa custom nan
  have hne : ∀ᵐ ω ∂P, ∀ j : Fin updates.length, y ω 0 (updates.get j).1 (updates.get j).2 ≠ y ω 1 (updates.get j).1 (updates.get j).2 :=
    measurements_differ (hdens linearValues linearValues_proper) (hZ 0) (hZ 1) (hind.indepFun (show (0 : ℕ) ≠ 1 by decide)) (randomCovariates 0) (randomCovariates 1) (by simp [randomCovariates])
  have key : ∀ᵐ ω ∂P, ∃ inputs out0 out, getMaximizationInputs linearModel (randomData (y ω)) = .ok inputs ∧ inputs.loglike qr custom nan linearModel (pm.paramsIndex.map (fun l => (l, linearValues l))) = .ok out0 ∧
      inputs.loglike qr custom nan linearModel (pm.paramsIndex.map (fun l => (l, other l))) = .ok out := by
    filter_upwards [hne] with ω hω
    obtain ⟨inputs, updates0, hin, hen0, hout⟩ := C70_likelihood_evaluates qr hpm linearModel_names linearModel_clean (by rintro a os ⟨⟩) (noNameClash_of_none rfl)
      (by
        rintro f ⟨spec, hmem⟩
        simp only [linearModel, List.mem_cons, Prod.mk.injEq, List.not_mem_nil, or_false] at hmem
        rcases hmem with ⟨rfl, rfl⟩ | ⟨rfl, rfl⟩ <;> decide)
      linearModel_linear.periods linearModel_linear.mixture (Or.inl rfl) (randomData_index (y ω)).1 (randomData_index (y ω)).2.1 (randomData_ids (y ω)).1 (randomData_ids (y ω)).2 (randomData_ok (y ω) (fun t ht v hv => by
        obtain ⟨j, hj⟩ := List.get_of_mem ((hup.all t v).mpr ((linearModel_update t v).mpr ⟨ht, by simpa using hv⟩))
        have := hω j
        rwa [hj] at this))
    have hix : inputs.index = pm.paramsIndex := by
      have h := hin
      unfold getMaximizationInputs at h
      simp only [py_bind_ok, py_pure_ok] at h
      obtain ⟨pm', hpm', _, _, _, _, _, _, rfl⟩ := h
      exact congrArg Processed.paramsIndex (Except.ok.inj (hpm'.symm.trans hpm))
    have hall : ∀ val : Loc → ℝ, ∃ out, inputs.loglike qr custom nan linearModel (pm.paramsIndex.map (fun l => (l, val l))) = .ok out := by
      intro val
      have hfst : (pm.paramsIndex.map (fun l => (l, val l))).map Prod.fst = pm.paramsIndex := by rw [List.map_map]; exact List.map_id _
      obtain ⟨out, h, _⟩ := hout custom nan (pm.paramsIndex.map (fun l => (l, val l))) val (by rw [hfst]; exact C06_index_unique_partial hpm linearModel_names) (fun l => by rw [hfst, hix]) (fun l x hx => by
        obtain ⟨l', _, h⟩ := List.mem_map.mp hx
        cases h
        rfl) (by
          rintro ⟨f, spec⟩ hfs
          rcases linearModel_linear.transitions f spec hfs with h | h <;> (dsimp only; rw [h])
          · exact ⟨by decide, by rintro (h | h) <;> exact absurd h (by decide)⟩
          · exact ⟨by decide, by rintro (h | h) <;> exact absurd h (by decide)⟩)
      exact ⟨out, h⟩
    obtain ⟨out0, h0⟩ := hall linearValues
    obtain ⟨out, h⟩ := hall (other)
    exact ⟨inputs, out0, out, hin, h0, h⟩
  classical
  obtain ⟨ω0, i0, o0, o1, _⟩ := key.exists
  have hchoice : ∀ ω, ∃ d : MaximizationInputs × LoglikeOutput × LoglikeOutput, (∃ inputs out0 out, getMaximizationInputs linearModel (randomData (y ω)) = .ok inputs ∧
      inputs.loglike qr custom nan linearModel (pm.paramsIndex.map (fun l => (l, linearValues l))) = .ok out0 ∧ inputs.loglike qr custom nan linearModel (pm.paramsIndex.map (fun l => (l, other l))) = .ok out) →
      getMaximizationInputs linearModel (randomData (y ω)) = .ok d.1 ∧ d.1.loglike qr custom nan linearModel (pm.paramsIndex.map (fun l => (l, linearValues l))) = .ok d.2.1 ∧
      d.1.loglike qr custom nan linearModel (pm.paramsIndex.map (fun l => (l, other l))) = .ok d.2.2 := by
    intro ω
    by_cases h : ∃ inputs out0 out, getMaximizationInputs linearModel (randomData (y ω)) = .ok inputs ∧
      inputs.loglike qr custom nan linearModel (pm.paramsIndex.map (fun l => (l, linearValues l))) = .ok out0 ∧ inputs.loglike qr custom nan linearModel (pm.paramsIndex.map (fun l => (l, other l))) = .ok out
    · obtain ⟨a, b, c, h1⟩ := h
      exact ⟨(a, b, c), fun _ => h1⟩
    · exact ⟨(i0, o0, o1), fun h' => absurd h' h⟩
  choose d hd using hchoice
  have hall : ∀ᵐ ω ∂P, getMaximizationInputs linearModel (randomData (y ω)) = .ok (d ω).1 ∧ (d ω).1.loglike qr custom nan linearModel (pm.paramsIndex.map (fun l => (l, linearValues l))) = .ok (d ω).2.1 ∧
      (d ω).1.loglike qr custom nan linearModel (pm.paramsIndex.map (fun l => (l, other l))) = .ok (d ω).2.2 := by
    filter_upwards [key] with ω h using hd ω h
  exact ⟨fun ω => (d ω).1, fun ω => (d ω).2.1, fun ω => (d ω).2.2, hall⟩

/-- C99 for an example with control variables, an observed factor and a missing measurement: random data of three individuals. -/
theorem C99_example (custom : String → CustomFn) (nan : ℝ) : ∃ (qr : QR) (params0 params : List (Loc × ℝ)) (Ω : Type) (_ : MeasurableSpace Ω) (P : Measure Ω) (_ : IsProbabilityMeasure P) (df : Ω → LongData ℝ)
    (inputs : Ω → MaximizationInputs) (out0 out : Ω → LoglikeOutput),
      (∀ l x, (l, x) ∈ params0 → x = linearValues l) ∧ (∀ l x, (l, x) ∈ params → x = otherValues linearValues l) ∧ (∀ ω, (df ω).rows.length = 6) ∧
      (∀ᵐ ω ∂P, getMaximizationInputs linearModel (df ω) = .ok (inputs ω) ∧ (inputs ω).loglike qr custom nan linearModel params0 = .ok (out0 ω) ∧ (inputs ω).loglike qr custom nan linearModel params = .ok (out ω)) ∧
      TruthIsBest P (fun ω => (out ω).value) (fun ω => (out0 ω).value) := by
  obtain ⟨qr, hqr⟩ := validQR
  obtain ⟨pm, hpm, _, hupd⟩ := linearModel_ok
  obtain ⟨Ω, _, P, E, Z, hP, hZ, hind⟩ := exists_individualNoise (k := 1) (val := linearValues) (by intro e _; simp [linearValues]) (by simp [linearValues])
  have hproper := otherValues_proper (m := linearModel) rfl linearValues_proper
  have hkappa : ∀ o x, linearModel.estimationOptions = some o → o.sigmaPointsScale = some x → (0 : ℝ) ≤ x := by rintro o x ⟨⟩ ⟨⟩
  obtain ⟨inputs, out0, out, hall⟩ := randomData_outputs hqr hpm custom nan (otherValues linearValues) P E Z hZ hind
  have hvals : ∀ (val : Loc → ℝ) l x, (l, x) ∈ pm.paramsIndex.map (fun l => (l, val l)) → x = val l := by
    intro val l x hx
    obtain ⟨l', _, h⟩ := List.mem_map.mp hx
    cases h
    rfl
  have hnd : ∀ val : Loc → ℝ, ((pm.paramsIndex.map (fun l => (l, val l))).map Prod.fst).Nodup := by
    intro val
    rw [List.map_map, show (Prod.fst ∘ fun l => (l, val l)) = id from rfl, List.map_id]
    exact C06_index_unique_partial hpm linearModel_names
  refine ⟨qr, _, _, Ω, _, P, hP, fun ω => randomData (randomValues E Z ω), inputs, out0, out, hvals linearValues, hvals (otherValues linearValues), fun _ => rfl, hall, ?_⟩
  exact C99_true_parameters_best hqr hpm linearModel_linear rfl linearModel_names hkappa ⟨_, rfl, rfl, Or.inl rfl⟩ linearValues_proper hproper custom nan P E Z hZ hind (fun ω => randomData (randomValues E Z ω)) [1, 2, 3] [10, 20] randomCovariates
    (fun ω => ⟨(randomData_index _).1, (randomData_index _).2.1, (randomData_ids _).1, (randomData_ids _).2⟩) (fun ω i hi => randomData_describes (randomValues E Z ω) (by simpa using hi)) _ _ (hnd linearValues) (hvals linearValues)
    (hnd (otherValues linearValues)) (hvals (otherValues linearValues)) _ _ _ hall

/-- C99 for simulated data of an example with two mixture elements. -/
theorem C99_simulated_example (custom : String → CustomFn) (nan : ℝ) : ∃ (qr : QR) (root : NormalRoot) (params0 params : List (Loc × ℝ)) (Ω : Type) (_ : MeasurableSpace Ω) (P : Measure Ω) (_ : IsProbabilityMeasure P)
    (E : Nat → Ω → Fin 2) (Z : Nat → Draw → Ω → ℝ) (value0 value : Ω → ℝ), RandomDatasetDraws P cesValues E Z ∧ TruthIsBest P value value0 ∧
      ∀ᵐ ω ∂P, ∃ data inputs out0 out, simulateDataset root custom nan plainModel params0 (some 2) none [] (drawsWith (fun i => E i ω) (fun i j => Z i j ω)) = .ok data ∧
        getMaximizationInputs plainModel (asDataset data.measurements) = .ok inputs ∧ inputs.loglike qr custom nan plainModel params0 = .ok out0 ∧ inputs.loglike qr custom nan plainModel params = .ok out ∧
        value0 ω = out0.value ∧ value ω = out.value := by
  obtain ⟨qr, hqr⟩ := validQR
  obtain ⟨root, hroot⟩ := exists_validRoot
  obtain ⟨pm, hpm, _, hu⟩ := plainModel_ok
  obtain ⟨Ω, _, P, E, Z, hP, hZ⟩ := exists_datasetDraws (val := cesValues) (k := 2) (fun e he => (plainValues_proper.positive e he).le) plainValues_proper.sum
  have hfst : ∀ val : Loc → ℝ, (pm.paramsIndex.map (fun l => (l, val l))).map Prod.fst = pm.paramsIndex := fun val => by rw [List.map_map]; exact List.map_id _
  have hvals : ∀ (val : Loc → ℝ) l x, (l, x) ∈ pm.paramsIndex.map (fun l => (l, val l)) → x = val l := by
    intro val l x hx
    obtain ⟨l', _, h⟩ := List.mem_map.mp hx
    cases h
    rfl
  obtain ⟨value0, value, h1, h2⟩ := C99_simulated_data hqr hroot hpm plainModel_linear plainModel_simulation rfl rfl rfl (fun t v h => by rcases plainModel_update t v h with rfl | rfl | rfl <;> decide)
    (by rintro o x ⟨⟩ ⟨⟩) ⟨_, rfl, rfl, Or.inl rfl⟩ plainValues_proper (otherValues_proper (m := plainModel) rfl plainValues_proper) custom nan (pm.paramsIndex.map (fun l => (l, cesValues l)))
    (pm.paramsIndex.map (fun l => (l, otherValues cesValues l))) (by rw [hfst]; exact C06_index_unique_partial hpm plainModel_names) (fun l => by rw [hfst]; exact mem_paramsIndex_iff hpm l) (hvals _)
    (by rw [hfst]; exact C06_index_unique_partial hpm plainModel_names) (fun l => by rw [hfst]; exact mem_paramsIndex_iff hpm l) (hvals _) 2 le_rfl P E Z hZ
  exact ⟨qr, root, _, _, Ω, _, P, hP, E, Z, value0, value, hZ, h1, h2⟩

end Ex
end Skill
