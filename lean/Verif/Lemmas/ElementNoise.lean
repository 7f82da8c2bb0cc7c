import Verif.Lemmas.FilterLabel
import Verif.Lemmas.Masking
import Mathlib.Probability.ConditionalProbability
import Mathlib.Probability.Independence.InfinitePi
/-
The noise of the individuals that belong to one mixture element, and the states of one mixture element in the filter.
-/
namespace Skill
open Matrix MeasureTheory ProbabilityTheory Spec

/-- Weights that put everyone into mixture element `e`. -/
noncomputable def elementVal (e : ℕ) (l : Loc) : ℝ := if l = ⟨.mixtureWeights, 0, Spec.mixtureName e, "-"⟩ then 1 else 0

theorem elementVal_weights (e e' : ℕ) : elementVal e ⟨.mixtureWeights, 0, Spec.mixtureName e', "-"⟩ = if e' = e then 1 else 0 := by
  unfold elementVal
  refine if_congr ⟨fun h => mixtureName_inj (congrArg Loc.name1 h), fun h => by rw [h]⟩ rfl rfl

/-- The distribution of the noise is the same in each mixture element. -/
theorem randomNoise_element {Ω : Type} [MeasurableSpace Ω] {P : Measure Ω} [IsProbabilityMeasure P] {val : Loc → ℝ} {k : ℕ} {E : Ω → Fin k} {Z : Noise → Ω → ℝ} (hZ : RandomNoise P val E Z) {e : Fin k}
    (he : 0 < val ⟨.mixtureWeights, 0, Spec.mixtureName e, "-"⟩) : IsProbabilityMeasure (cond P (E ⁻¹' {e})) ∧ RandomNoise (cond P (E ⁻¹' {e})) (elementVal e) E Z := by
  have hs : MeasurableSet (E ⁻¹' {e}) := hZ.measurable_element (measurableSet_singleton e)
  have h0 : P (E ⁻¹' {e}) ≠ 0 := by rw [hZ.element_weights]; simpa using he
  have hprob : IsProbabilityMeasure (cond P (E ⁻¹' {e})) := cond_isProbabilityMeasure h0
  have hall : Measurable (fun ω j => Z j ω) := measurable_pi_lambda _ hZ.measurable
  have hB : ∀ B : Set (Noise → ℝ), MeasurableSet B → cond P (E ⁻¹' {e}) ((fun ω j => Z j ω) ⁻¹' B) = P ((fun ω j => Z j ω) ⁻¹' B) := by
    intro B hB
    rw [cond_apply hs, indepFun_iff_measure_inter_preimage_eq_mul.mp hZ.element_independent _ _ (measurableSet_singleton e) hB, ← mul_assoc, ENNReal.inv_mul_cancel h0 (measure_ne_top _ _), one_mul]
  have hmap : (cond P (E ⁻¹' {e})).map (fun ω j => Z j ω) = P.map (fun ω j => Z j ω) := by
    refine Measure.ext (fun B h => ?_)
    rw [Measure.map_apply hall h, Measure.map_apply hall h, hB B h]
  have hmapj : ∀ j, (cond P (E ⁻¹' {e})).map (Z j) = P.map (Z j) := by
    intro j
    have := congrArg (Measure.map (fun z : Noise → ℝ => z j)) hmap
    rw [Measure.map_map (measurable_pi_apply j) hall, Measure.map_map (measurable_pi_apply j) hall] at this
    exact this
  refine ⟨hprob, hZ.measurable_element, hZ.measurable, fun j => (hmapj j).trans (hZ.normal j), ?_, ?_, ?_⟩
  · rw [iIndepFun_iff_map_fun_eq_infinitePi_map hZ.measurable, hmap, (iIndepFun_iff_map_fun_eq_infinitePi_map hZ.measurable).mp hZ.independent]
    simp only [hmapj]
  · rw [indepFun_iff_measure_inter_preimage_eq_mul]
    intro A B _ hBm
    by_cases hA : e ∈ A
    · have e1 : E ⁻¹' {e} ∩ (E ⁻¹' A ∩ (fun ω j => Z j ω) ⁻¹' B) = E ⁻¹' {e} ∩ (fun ω j => Z j ω) ⁻¹' B := by
        ext ω
        simp only [Set.mem_inter_iff, Set.mem_preimage, Set.mem_singleton_iff]
        exact ⟨fun h => ⟨h.1, h.2.2⟩, fun h => ⟨h.1, h.1 ▸ hA, h.2⟩⟩
      have e2 : E ⁻¹' {e} ∩ E ⁻¹' A = E ⁻¹' {e} := by
        ext ω
        simp only [Set.mem_inter_iff, Set.mem_preimage, Set.mem_singleton_iff]
        exact ⟨fun h => h.1, fun h => ⟨h, h ▸ hA⟩⟩
      rw [cond_apply hs, e1, ← cond_apply hs, cond_apply hs P (E ⁻¹' A), e2, ENNReal.inv_mul_cancel h0 (measure_ne_top _ _), one_mul]
    · have e2 : E ⁻¹' {e} ∩ E ⁻¹' A = ∅ := by
        ext ω
        simp only [Set.mem_inter_iff, Set.mem_preimage, Set.mem_singleton_iff, Set.mem_empty_iff_false, iff_false]
        exact fun h => hA (h.1 ▸ h.2)
      rw [cond_apply hs, cond_apply hs P (E ⁻¹' A), ← Set.inter_assoc, e2, Set.empty_inter, measure_empty, mul_zero, zero_mul]
  · intro e'
    rw [elementVal_weights, cond_apply hs]
    by_cases h : e' = e
    · subst h
      rw [Set.inter_self, ENNReal.inv_mul_cancel h0 (measure_ne_top _ _), if_pos rfl, ENNReal.ofReal_one]
    · have e2 : E ⁻¹' {e} ∩ E ⁻¹' {e'} = ∅ := by
        ext ω
        simp only [Set.mem_inter_iff, Set.mem_preimage, Set.mem_singleton_iff, Set.mem_empty_iff_false, iff_false]
        exact fun h' => h (h'.2.symm.trans h'.1)
      rw [e2, measure_empty, mul_zero, if_neg (fun h' => h (Fin.ext h')), ENNReal.ofReal_zero]

section
variable {nObs nMix n nT nObserved nC : ℕ} {θ : Type}

theorem scanUpdate_keep_states (qr : QR) (fixed : ScanFixed nObs nT n nObserved nC θ) {a : LoopArgs nObs n nC} {c c' : Carry nObs nMix n} (hs : c'.states = c.states) (hU : c'.upperChols = c.upperChols) :
    (scanUpdate qr fixed c' (a.keep a.isMeasurement)).1.states = (scanUpdate qr fixed c a).1.states ∧ (scanUpdate qr fixed c' (a.keep a.isMeasurement)).1.upperChols = (scanUpdate qr fixed c a).1.upperChols := by
  cases hm : a.isMeasurement with
  | true =>
    rw [keep_self hm]
    unfold scanUpdate
    simp only [hm, if_true, hs, hU]
    exact ⟨rfl, rfl⟩
  | false =>
    obtain ⟨h1, h2, _⟩ := kalmanUpdate_missing qr c' a.loadings a.controlParams a.measSd (fixed.controls (jaxIndex (nT + 1) a.period))
    unfold scanUpdate LoopArgs.keep
    simp only [hm, Bool.false_eq_true, if_false, if_true]
    exact ⟨h1.trans hs, h2.trans hU⟩

theorem step_states (qr : QR) (fixed : ScanFixed nObs nT n nObserved nC θ) {a : LoopArgs nObs n nC} {c c' : Carry nObs nMix n}
    (k1 : (scanUpdate qr fixed c' (a.keep a.isMeasurement)).1.states = (scanUpdate qr fixed c a).1.states) (k2 : (scanUpdate qr fixed c' (a.keep a.isMeasurement)).1.upperChols = (scanUpdate qr fixed c a).1.upperChols) :
    (step qr fixed c' (a.keep a.isMeasurement)).states = (step qr fixed c a).states ∧ (step qr fixed c' (a.keep a.isMeasurement)).upperChols = (step qr fixed c a).upperChols := by
  constructor
  · unfold step
    show (if a.isPredict then _ else _ : Carry nObs nMix n).states = _
    by_cases hp : a.isPredict = true
    · simp only [hp, if_true]
      unfold predictCarry
      simp only [k1, k2]
      rfl
    · simp only [hp, Bool.false_eq_true, if_false]
      exact k1
  · unfold step
    show (if a.isPredict then _ else _ : Carry nObs nMix n).upperChols = _
    by_cases hp : a.isPredict = true
    · simp only [hp, if_true]
      unfold predictCarry
      simp only [k1, k2]
      rfl
    · simp only [hp, Bool.false_eq_true, if_false]
      exact k2

/-- The states do not depend on the weights, and anchoring updates do not change them. -/
theorem outs_keep_states (qr : QR) (fixed : ScanFixed nObs nT n nObserved nC θ) {args : List (LoopArgs nObs n nC)} {c c' : Carry nObs nMix n} (hs : c'.states = c.states) (hU : c'.upperChols = c.upperChols) {j : ℕ}
    {o : StepOut nObs nMix n} (ho : (outs qr fixed c args)[j]? = some o) : ∃ o', (outs qr fixed c' (args.map (fun a => a.keep a.isMeasurement)))[j]? = some o' ∧ o'.states = o.states := by
  induction args generalizing c c' j with
  | nil => simp [outs] at ho
  | cons a as ih =>
    have key := scanUpdate_keep_states qr fixed (a := a) hs hU
    rw [List.map_cons, outs]
    rw [outs] at ho
    cases j with
    | zero =>
      rw [List.getElem?_cons_zero, Option.some.injEq] at ho
      subst ho
      exact ⟨_, List.getElem?_cons_zero, key.1⟩
    | succ j =>
      rw [List.getElem?_cons_succ] at ho
      simp only [List.getElem?_cons_succ]
      exact ih (step_states qr fixed key.1 key.2).1 (step_states qr fixed key.1 key.2).2 ho

/-- The residuals do not depend on the weights or on the outcomes of anchoring equations. -/
theorem outs_keep_elements (qr : QR) (fixed : ScanFixed nObs nT n nObserved nC θ) {args : List (LoopArgs nObs n nC)} {c c' : Carry nObs nMix n} (hs : c'.states = c.states) (hU : c'.upperChols = c.upperChols) {j : ℕ}
    {o : StepOut nObs nMix n} (ho : (outs qr fixed c args)[j]? = some o) {a : LoopArgs nObs n nC} (ha : args[j]? = some a) (hm : a.isMeasurement = true) :
    ∃ o', (outs qr fixed c' (args.map (fun a => a.keep a.isMeasurement)))[j]? = some o' ∧ o'.residuals = o.residuals ∧ o'.residualSds = o.residualSds := by
  induction args generalizing c c' j with
  | nil => simp at ha
  | cons b as ih =>
    rw [List.map_cons, outs]
    rw [outs] at ho
    cases j with
    | zero =>
      rw [List.getElem?_cons_zero, Option.some.injEq] at ho ha
      subst ha
      subst ho
      rw [hm, keep_self hm]
      refine ⟨_, List.getElem?_cons_zero, ?_, ?_⟩
      · show (scanUpdate qr fixed c' b).2.residuals = (scanUpdate qr fixed c b).2.residuals
        unfold scanUpdate
        simp only [hm, if_true, hs, hU]
        rfl
      · show (scanUpdate qr fixed c' b).2.residualSds = (scanUpdate qr fixed c b).2.residualSds
        unfold scanUpdate
        simp only [hm, if_true, hs, hU]
        rfl
    | succ j =>
      rw [List.getElem?_cons_succ] at ho ha
      simp only [List.getElem?_cons_succ]
      obtain ⟨k1, k2⟩ := scanUpdate_keep_states qr fixed (a := b) hs hU
      exact ih (step_states qr fixed k1 k2).1 (step_states qr fixed k1 k2).2 ho ha

end

end Skill
