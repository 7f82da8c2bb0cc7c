import Verif.Lemmas.FilterOuts
import Verif.Lemmas.FilterContinuity
import Verif.Lemmas.Masking
import Verif.Props.KalmanUpdate
/-
The residuals of the filter in a linear model.
-/
namespace Skill
open Matrix MeasureTheory ProbabilityTheory Spec
variable {n : ℕ}

/-- The differences between the measurements and their predictions. -/
noncomputable def stepResiduals : (steps : List (Step n)) → (m : Fin n → ℝ) → (P : Matrix (Fin n) (Fin n) ℝ) → (Fin steps.length → ℝ) → Fin steps.length → ℝ
  | [], _, _, _ => Fin.elim0
  | s :: ss, m, P, y => Fin.cons (α := fun _ => ℝ) (y 0 - (m ⬝ᵥ s.h + s.c)) (stepResiduals ss (stepMean s (updMean s m P (y 0))) (stepCov s (updCov s P)) (fun k => y k.succ))

/-- The standard deviations of the residuals. -/
noncomputable def stepSds : (steps : List (Step n)) → (P : Matrix (Fin n) (Fin n) ℝ) → Fin steps.length → ℝ
  | [], _ => Fin.elim0
  | s :: ss, P => Fin.cons (α := fun _ => ℝ) (Real.sqrt (residualVariance P s.h s.sd)) (stepSds ss (stepCov s (updCov s P)))

/-- The standardized residuals; 0 for missing measurements. -/
noncomputable def stdResiduals (steps : List (Step n)) (m : Fin n → ℝ) (P : Matrix (Fin n) (Fin n) ℝ) (y : Fin steps.length → ℝ) (k : Fin steps.length) : ℝ :=
  if (steps.get k).observed then stepResiduals steps m P y k / stepSds steps P k else 0

theorem stdResiduals_cons (s : Step n) (ss : List (Step n)) (m : Fin n → ℝ) (P : Matrix (Fin n) (Fin n) ℝ) (y : Fin (ss.length + 1) → ℝ) :
    stdResiduals (s :: ss) m P y = (Fin.cons (if s.observed then (y 0 - (m ⬝ᵥ s.h + s.c)) / Real.sqrt (residualVariance P s.h s.sd) else 0)
      (stdResiduals ss (stepMean s (updMean s m P (y 0))) (stepCov s (updCov s P)) (fun k => y k.succ)) : Fin (ss.length + 1) → ℝ) := by
  funext k
  refine Fin.cases ?_ (fun k => ?_) k
  · rfl
  · rfl

theorem stepSds_pos {steps : List (Step n)} (hsd : ∀ s ∈ steps, s.sd ≠ 0) : ∀ {P : Matrix (Fin n) (Fin n) ℝ}, P.PosSemidef → ∀ k, 0 < stepSds steps P k := by
  induction steps with
  | nil => intro P _ k; exact k.elim0
  | cons s ss ih =>
    intro P hP k
    refine Fin.cases ?_ (fun k => ?_) k
    · exact Real.sqrt_pos.mpr (residualVariance_pos hP s.h (hsd s (by simp)))
    · exact ih (fun s' h => hsd s' (by simp [h])) (stepCov_posSemidef s (updCov_posSemidef (hsd s (by simp)) hP)) k

theorem continuous_stepResiduals {steps : List (Step n)} (hs : ∀ s ∈ steps, s.Affine) : ∀ P : Matrix (Fin n) (Fin n) ℝ,
    Continuous (fun p : (Fin n → ℝ) × (Fin steps.length → ℝ) => stepResiduals steps p.1 P p.2) := by
  induction steps with
  | nil => intro P; exact continuous_const
  | cons s ss ih =>
    intro P
    have h0 : Continuous (fun p : (Fin n → ℝ) × (Fin (ss.length + 1) → ℝ) => (p.1, p.2 0)) := by fun_prop
    refine continuous_pi (fun k => ?_)
    refine Fin.cases ?_ (fun k => ?_) k
    · show Continuous (fun p : (Fin n → ℝ) × (Fin (ss.length + 1) → ℝ) => p.2 0 - (p.1 ⬝ᵥ s.h + s.c))
      fun_prop
    · refine (continuous_apply k).comp ((ih (fun s' h => hs s' (List.mem_cons_of_mem _ h)) (stepCov s (updCov s P))).comp (Continuous.prodMk ?_ ?_))
      · exact (hs s (by simp)).continuous_stepMean.comp ((continuous_updMean s P).comp h0)
      · exact continuous_pi (fun j => (continuous_apply j.succ).comp continuous_snd)

theorem continuous_stdResiduals {steps : List (Step n)} (hs : ∀ s ∈ steps, s.Affine) (m : Fin n → ℝ) (P : Matrix (Fin n) (Fin n) ℝ) : Continuous (stdResiduals steps m P) := by
  refine continuous_pi (fun k => ?_)
  unfold stdResiduals
  split_ifs
  · exact ((continuous_apply k).comp ((continuous_stepResiduals hs P).comp (continuous_const.prodMk continuous_id))).div_const _
  · exact continuous_const

/-- The prediction of a measurement only depends on earlier measurements. -/
theorem stepResiduals_sequential {steps : List (Step n)} : ∀ (m : Fin n → ℝ) (P : Matrix (Fin n) (Fin n) ℝ) (y y' : Fin steps.length → ℝ) (k : Fin steps.length), (∀ j, j < k → y j = y' j) →
    y k - stepResiduals steps m P y k = y' k - stepResiduals steps m P y' k := by
  induction steps with
  | nil => intro m P y y' k; exact k.elim0
  | cons s ss ih =>
    intro m P y y' k
    refine Fin.cases ?_ (fun k => ?_) k
    · intro _
      show y 0 - (y 0 - _) = y' 0 - (y' 0 - _)
      ring
    · intro h
      have h0 : y (0 : Fin (ss.length + 1)) = y' (0 : Fin (ss.length + 1)) := h 0 (Fin.succ_pos k)
      have := ih (stepMean s (updMean s m P (y (0 : Fin (ss.length + 1))))) (stepCov s (updCov s P)) (fun k => y k.succ) (fun k => y' k.succ) k (fun j hj => h j.succ (Fin.succ_lt_succ_iff.mpr hj))
      refine this.trans ?_
      rw [h0]
      rfl

/-- One step. -/
theorem lintegral_stdResidual {s : Step n} (hsd : s.sd ≠ 0) (m : Fin n → ℝ) {P : Matrix (Fin n) (Fin n) ℝ} (hP : P.PosSemidef) {F : ℝ → ENNReal} (hF : Measurable F) :
    ∫⁻ y, ENNReal.ofReal (updDensity s m P y) * F (if s.observed then (y - (m ⬝ᵥ s.h + s.c)) / Real.sqrt (residualVariance P s.h s.sd) else 0) ∂(if s.observed then volume else Measure.dirac 0) =
      ∫⁻ z, F z ∂(if s.observed then gaussianReal 0 1 else Measure.dirac 0) := by
  cases ho : s.observed with
  | false => simp [updDensity, ho]
  | true =>
    simp only [updDensity, ho, if_true]
    set v := residualVariance P s.h s.sd with hv
    have hv0 : 0 < v := residualVariance_pos hP s.h hsd
    set μ := m ⬝ᵥ s.h + s.c with hμ
    have hvn : v.toNNReal ≠ 0 := by simpa using hv0
    have e1 : gaussianReal 0 1 = (gaussianReal μ v.toNNReal).map (fun y => (y - μ) / Real.sqrt v) := by
      have h1 : (gaussianReal μ v.toNNReal).map (fun y => y - μ) = gaussianReal 0 v.toNNReal := by
        rw [gaussianReal_map_sub_const, sub_self]
      have h2 : (gaussianReal 0 v.toNNReal).map (fun y => y / Real.sqrt v) = gaussianReal 0 1 := by
        rw [gaussianReal_map_div_const, zero_div]
        congr 1
        apply NNReal.eq
        simp [Real.sq_sqrt hv0.le, hv0.le, hv0.ne']
      rw [← h2, ← h1, Measure.map_map (by fun_prop) (by fun_prop)]
      rfl
    have hm : Measurable (fun y : ℝ => (y - μ) / Real.sqrt v) := by fun_prop
    rw [e1, lintegral_map hF hm, gaussianReal_of_var_ne_zero _ hvn]
    refine Eq.trans ?_ (lintegral_withDensity_eq_lintegral_mul _ (measurable_gaussianPDF _ _) (hF.comp hm)).symm
    refine lintegral_congr (fun y => ?_)
    rw [Pi.mul_apply, gaussianPDF, normalDensity]
    congr 2
    rw [gaussianPDFReal, gaussianPDFReal, sub_zero]

/-- The measure for standardized residuals: independent standard normal numbers for observed measurements, 0 for missing ones. -/
noncomputable def residualMeasure (steps : List (Step n)) : Measure (Fin steps.length → ℝ) := Measure.pi (fun k => if (steps.get k).observed then gaussianReal 0 1 else Measure.dirac 0)

/-- Standardized residuals are independent standard normal numbers. -/
theorem lintegral_stdResiduals {steps : List (Step n)} (hs : ∀ s ∈ steps, s.Affine) (hsd : ∀ s ∈ steps, s.sd ≠ 0) :
    ∀ (m : Fin n → ℝ) {P : Matrix (Fin n) (Fin n) ℝ}, P.PosSemidef → ∀ {F : (Fin steps.length → ℝ) → ENNReal}, Measurable F →
      ∫⁻ y, ENNReal.ofReal (kalmanDensity steps m P y) * F (stdResiduals steps m P y) ∂baseMeasure steps = ∫⁻ z, F z ∂residualMeasure steps := by
  induction steps with
  | nil =>
    intro m P hP F hF
    have e : ∀ y : Fin ([] : List (Step n)).length → ℝ, F y = F Fin.elim0 := fun y => congrArg F (funext (fun j => j.elim0))
    simp only [kalmanDensity, ENNReal.ofReal_one, one_mul, e, lintegral_const]
    unfold baseMeasure residualMeasure
    have h1 := Measure.pi_univ (fun k : Fin ([] : List (Step n)).length => (if (([] : List (Step n)).get k).observed then volume else Measure.dirac 0 : Measure ℝ))
    have h2 := Measure.pi_univ (fun k : Fin ([] : List (Step n)).length => (if (([] : List (Step n)).get k).observed then gaussianReal 0 1 else Measure.dirac 0 : Measure ℝ))
    rw [h1, h2]
    rfl
  | cons s ss ih =>
    intro m P hP F hF
    have hss : ∀ s ∈ ss, s.Affine := fun s' h => hs s' (by simp [h])
    have hsds : ∀ s ∈ ss, s.sd ≠ 0 := fun s' h => hsd s' (by simp [h])
    have hP' := stepCov_posSemidef s (updCov_posSemidef (hsd s (by simp)) hP)
    have hG : Measurable (fun y : Fin (ss.length + 1) → ℝ => ENNReal.ofReal (kalmanDensity (s :: ss) m P y) * F (stdResiduals (s :: ss) m P y)) :=
      ((measurable_kalmanDensity hs P).comp (measurable_const.prodMk measurable_id)).ennreal_ofReal.mul (hF.comp (continuous_stdResiduals hs m P).measurable)
    have hL := lintegral_base_cons s ss hG
    have hR : ∫⁻ z, F z ∂residualMeasure (s :: ss) = ∫⁻ z, ∫⁻ zs, F (Fin.cons z zs) ∂residualMeasure ss ∂(if s.observed then gaussianReal 0 1 else Measure.dirac 0) := by
      unfold residualMeasure
      have : ∀ k : Fin (ss.length + 1), SigmaFinite (if ((s :: ss).get k).observed then gaussianReal 0 1 else Measure.dirac 0 : Measure ℝ) := fun k => by split_ifs <;> infer_instance
      exact lintegral_pi_cons (fun k : Fin (ss.length + 1) => (if ((s :: ss).get k).observed then gaussianReal 0 1 else Measure.dirac 0 : Measure ℝ)) hF
    have hFc : ∀ z : ℝ, Measurable (fun zs : Fin ss.length → ℝ => F (Fin.cons z zs)) := fun z => hF.comp (measurable_cons measurable_const measurable_id)
    have : ∀ k : Fin ss.length, SigmaFinite (if (ss.get k).observed then gaussianReal 0 1 else Measure.dirac 0 : Measure ℝ) := fun k => by split_ifs <;> infer_instance
    have hsf : SigmaFinite (residualMeasure ss) := by unfold residualMeasure; infer_instance
    have hH : Measurable (fun z : ℝ => ∫⁻ zs, F (Fin.cons z zs) ∂residualMeasure ss) := by
      refine Measurable.lintegral_prod_right' (f := fun p : ℝ × (Fin ss.length → ℝ) => F (Fin.cons p.1 p.2)) ?_
      exact hF.comp (measurable_cons measurable_fst measurable_snd)
    rw [hR, ← lintegral_stdResidual (hsd s (by simp)) m hP hH]
    refine hL.trans (lintegral_congr (fun y => ?_))
    rw [← ih hss hsds (stepMean s (updMean s m P y)) hP' (hFc _), ← lintegral_const_mul' _ _ ENNReal.ofReal_ne_top]
    refine lintegral_congr (fun ys => ?_)
    have e1 : kalmanDensity (s :: ss) m P (Fin.cons y ys) = updDensity s m P y * kalmanDensity ss (stepMean s (updMean s m P y)) (stepCov s (updCov s P)) ys := rfl
    have e2 : stdResiduals (s :: ss) m P (Fin.cons y ys) = (Fin.cons (if s.observed then (y - (m ⬝ᵥ s.h + s.c)) / Real.sqrt (residualVariance P s.h s.sd) else 0)
      (stdResiduals ss (stepMean s (updMean s m P y)) (stepCov s (updCov s P)) ys) : Fin (ss.length + 1) → ℝ) := stdResiduals_cons s ss m P _
    rw [e1, e2, ENNReal.ofReal_mul (updDensity_pos (hsd s (by simp)) m hP y).le, mul_assoc]

theorem stepResiduals_congr {steps steps' : List (Step n)} (h : List.Forall₂ SameStep steps steps') (m : Fin n → ℝ) (P : Matrix (Fin n) (Fin n) ℝ) {y : Fin steps.length → ℝ} {y' : Fin steps'.length → ℝ}
    (hy : ∀ (k : ℕ) (h : k < steps.length) (h' : k < steps'.length), y ⟨k, h⟩ = y' ⟨k, h'⟩) {k : ℕ} (hk : k < steps.length) (hk' : k < steps'.length) (hobs : steps[k].observed = true) :
    stepResiduals steps m P y ⟨k, hk⟩ = stepResiduals steps' m P y' ⟨k, hk'⟩ ∧ stepSds steps P ⟨k, hk⟩ = stepSds steps' P ⟨k, hk'⟩ := by
  induction h generalizing m P k with
  | nil => simp at hk
  | @cons s s' ss ss' hs hss ih =>
    obtain ⟨h1, h2, h3⟩ := hs
    have hy0 : y (0 : Fin (ss.length + 1)) = y' (0 : Fin (ss'.length + 1)) := hy 0 (Nat.succ_pos _) (Nat.succ_pos _)
    have hys : ∀ (k : ℕ) (h : k < ss.length) (h' : k < ss'.length), (fun k : Fin ss.length => y k.succ) ⟨k, h⟩ = (fun k : Fin ss'.length => y' k.succ) ⟨k, h'⟩ :=
      fun k h h' => hy (k + 1) (Nat.succ_lt_succ h) (Nat.succ_lt_succ h')
    have hm : ∀ a, stepMean s a = stepMean s' a := fun a => by unfold stepMean; rw [h2]
    have hc : ∀ a, stepCov s a = stepCov s' a := fun a => by unfold stepCov; rw [h2]
    have hu : ∀ y, updMean s m P y = updMean s' m P y ∧ updCov s P = updCov s' P := by
      intro y
      unfold updMean updCov
      rw [← h1]
      cases ho : s.observed with
      | false => exact ⟨rfl, rfl⟩
      | true =>
        obtain ⟨e1, e2, e3⟩ := h3 ho
        simp only [if_true, e1, e2, e3, and_self]
    cases k with
    | zero =>
      obtain ⟨e1, e2, e3⟩ := h3 hobs
      refine ⟨?_, ?_⟩
      · show y (0 : Fin (ss.length + 1)) - (m ⬝ᵥ s.h + s.c) = y' (0 : Fin (ss'.length + 1)) - (m ⬝ᵥ s'.h + s'.c)
        rw [hy0, e1, e2]
      · show Real.sqrt (residualVariance P s.h s.sd) = Real.sqrt (residualVariance P s'.h s'.sd)
        rw [e1, e3]
    | succ k =>
      have hk1 : k < ss.length := Nat.lt_of_succ_lt_succ hk
      have hk2 : k < ss'.length := Nat.lt_of_succ_lt_succ hk'
      have := ih (stepMean s (updMean s m P (y (0 : Fin (ss.length + 1))))) (stepCov s (updCov s P)) (y := fun k : Fin ss.length => y k.succ) (y' := fun k : Fin ss'.length => y' k.succ) hys hk1 hk2 hobs
      refine ⟨this.1.trans ?_, this.2.trans ?_⟩
      · show _ = stepResiduals ss' (stepMean s' (updMean s' m P (y' (0 : Fin (ss'.length + 1))))) (stepCov s' (updCov s' P)) _ _
        rw [hm, hc, (hu _).1, (hu 0).2, ← hy0]
      · show _ = stepSds ss' (stepCov s' (updCov s' P)) _
        rw [hc, (hu 0).2]

/-- The measurements are a function of the standardized residuals. -/
theorem stdResiduals_inverse {steps : List (Step n)} (hs : ∀ s ∈ steps, s.Affine) (hsd : ∀ s ∈ steps, s.sd ≠ 0) (m : Fin n → ℝ) {P : Matrix (Fin n) (Fin n) ℝ} (hP : P.PosSemidef) (i : ℕ) :
    ∃ g : (Fin steps.length → ℝ) → Fin steps.length → ℝ, Measurable g ∧ (∀ z z', (∀ k : Fin steps.length, k.val < i → z k = z' k) → g z = g z') ∧
      ∀ y, (∀ k, (steps.get k).observed = false → y k = 0) → ∀ k : Fin steps.length, k.val < i → y k = g (stdResiduals steps m P y) k := by
  induction i with
  | zero => exact ⟨fun _ _ => 0, measurable_const, fun _ _ _ => rfl, fun y _ k hk => absurd hk (Nat.not_lt_zero _)⟩
  | succ i ih =>
    obtain ⟨g, hg1, hg2, hg3⟩ := ih
    by_cases hi : i < steps.length
    · have hR : Measurable (fun y => stepResiduals steps m P y) := ((continuous_stepResiduals hs P).comp (continuous_const.prodMk continuous_id)).measurable
      refine ⟨fun z => Function.update (g z) ⟨i, hi⟩ (if (steps.get ⟨i, hi⟩).observed then stepSds steps P ⟨i, hi⟩ * z ⟨i, hi⟩ + (g z ⟨i, hi⟩ - stepResiduals steps m P (g z) ⟨i, hi⟩) else 0), ?_, ?_, ?_⟩
      · refine measurable_update'.comp (hg1.prodMk ?_)
        cases (steps.get ⟨i, hi⟩).observed
        · exact measurable_const
        · exact ((measurable_pi_apply _).const_mul _).add (((measurable_pi_apply _).comp hg1).sub ((measurable_pi_apply _).comp (hR.comp hg1)))
      · intro z z' hz
        dsimp only
        rw [hg2 z z' (fun k hk => hz k (by omega)), hz ⟨i, hi⟩ (Nat.lt_succ_self i)]
      · intro y hy k hk
        dsimp only
        rcases (Nat.lt_succ_iff.mp hk).lt_or_eq with h | h
        · rw [Function.update_of_ne (by intro e; rw [e] at h; exact lt_irrefl _ h)]
          exact hg3 y hy k h
        · obtain rfl : k = ⟨i, hi⟩ := Fin.ext h
          rw [Function.update_self, ← stepResiduals_sequential m P y (g (stdResiduals steps m P y)) ⟨i, hi⟩ (fun j hj => hg3 y hy j hj)]
          cases ho : (steps.get ⟨i, hi⟩).observed with
          | false => simp [hy _ ho]
          | true =>
            rw [if_pos rfl, stdResiduals, if_pos ho, mul_div_cancel₀ _ (stepSds_pos hsd hP _).ne']
            ring
    · exact ⟨g, hg1, fun z z' hz => hg2 z z' (fun k hk => hz k (by omega)), fun y hy k hk => hg3 y hy k (by omega)⟩

section
variable {nObs nMix nT nObserved nC : ℕ} {θ : Type}

/-- The residuals of measurements do not depend on the outcomes of anchoring equations. -/
theorem outs_keep_residuals (qr : QR) (fixed : ScanFixed nObs nT n nObserved nC θ) {args : List (LoopArgs nObs n nC)} (h : nMix = 1 ∨ ∀ a ∈ args, a.isMeasurement = true) (c : Carry nObs nMix n) {j : ℕ} {o : StepOut nObs nMix n}
    (ho : (outs qr fixed c args)[j]? = some o) {a : LoopArgs nObs n nC} (ha : args[j]? = some a) (hm : a.isMeasurement = true) :
    (outs qr fixed c (args.map (fun a => a.keep a.isMeasurement)))[j]? = some o := by
  induction args generalizing c j with
  | nil => simp at ha
  | cons b as ih =>
    rw [List.map_cons, outs]
    rw [outs] at ho
    cases j with
    | zero =>
      rw [List.getElem?_cons_zero, Option.some.injEq] at ho ha
      subst ha
      rw [List.getElem?_cons_zero, hm, keep_self hm, ho]
    | succ j =>
      rw [List.getElem?_cons_succ] at ho ha ⊢
      rw [step_keep qr fixed c (h.imp id (fun h => h b (by simp)))]
      exact ih (h.imp id (fun h a ha => h a (by simp [ha]))) _ ho ha

/-- The residuals that the code computes. -/
theorem residual_out {qr : QR} (hqr : ValidQR qr) {fixed : ScanFixed nObs nT n nObserved nC θ} {kappa : ℝ} (hk : SigmaOptions fixed kappa)
    (hlin : AffineTransitions fixed) (h : nMix = 1 ∨ nObserved = 0) (i : Fin nObs) {args : List (LoopArgs nObs n nC)}
    (hsd : ∀ a ∈ args, a.measSd ≠ 0) (hm : ∀ a ∈ args, a.isMeasurement = true) :
    ∀ {c : Carry nObs nMix n}, WeightsOk c.logWeights → ∀ {k : ℕ} {o : StepOut nObs nMix n} {a : LoopArgs nObs n nC}, (outs qr fixed c args)[k]? = some o → args[k]? = some a →
      ∀ (hkl : k < (args.map (stepOf fixed i)).length) e,
      o.residuals i e = (if (a.measurements i).isSome then some (stepResiduals (args.map (stepOf fixed i)) (c.states i e) ((c.upperChols i e)ᵀ * c.upperChols i e) (dataOf fixed i args) ⟨k, hkl⟩) else none) ∧
      o.residualSds i e = (if (a.measurements i).isSome then some (stepSds (args.map (stepOf fixed i)) ((c.upperChols i e)ᵀ * c.upperChols i e) ⟨k, hkl⟩) else none) := by
  induction args with
  | nil => intro c _ k o a ho; simp [outs] at ho
  | cons b as ih =>
    intro c hw k o a ho ha hkl e
    have hsda := hsd b (by simp)
    have ih := @ih (fun a' h' => hsd a' (by simp [h'])) (fun a' h' => hm a' (by simp [h'])) _ (step_weights (a := b) hqr fixed hw hsda)
    obtain ⟨_, hupd⟩ := scanUpdate_step hqr fixed hw hsda (hm b (by simp)) i
    rw [outs] at ho
    cases k with
    | zero =>
      rw [List.getElem?_cons_zero, Option.some.injEq] at ho ha
      subst ha
      subst ho
      show (scanUpdate qr fixed c b).2.residuals i e = _ ∧ (scanUpdate qr fixed c b).2.residualSds i e = _
      rw [(scanUpdate_eq qr fixed c b).1]
      cases hy : b.measurements i with
      | none =>
        obtain ⟨_, _, _, _, h5⟩ := C30_missing_changes_nothing c.states c.upperChols b.loadings b.controlParams b.measSd b.measurements (fixed.controls (jaxIndex (nT + 1) b.period)) c.logWeights qr i hy
        exact h5 e
      | some y =>
        obtain ⟨_, _, _, h4, _⟩ := C28_update_is_kalman_update c.states c.upperChols b.loadings b.controlParams b.measSd b.measurements (fixed.controls (jaxIndex (nT + 1) b.period)) c.logWeights hqr i y hy
          (fun e => residualVariance_pos (posSemidef_conjTranspose_mul_self _) _ hsda)
        obtain ⟨h5, h6⟩ := h4 e
        refine ⟨h5.trans (congrArg some ?_), h6⟩
        show _ = (b.measurements i).getD 0 - (c.states i e ⬝ᵥ b.loadings + fixed.controls (jaxIndex (nT + 1) b.period) i ⬝ᵥ b.controlParams)
        dsimp only
        rw [hy, Option.getD_some, dotProduct_comm b.loadings]
    | succ k =>
      rw [List.getElem?_cons_succ] at ho ha
      set s := stepOf fixed i b with hs
      set y0 := (b.measurements i).getD 0 with hy0
      have hnext : (step qr fixed c b).states i e = stepMean s (updMean s (c.states i e) ((c.upperChols i e)ᵀ * c.upperChols i e) y0) ∧
          ((step qr fixed c b).upperChols i e)ᵀ * (step qr fixed c b).upperChols i e = stepCov s (updCov s ((c.upperChols i e)ᵀ * c.upperChols i e)) := by
        rw [← (hupd e).1, ← (hupd e).2.1]
        simp only [step, stepMean, stepCov, hs, stepOf]
        cases b.isPredict with
        | false => exact ⟨rfl, rfl⟩
        | true => exact predict_affine hqr hk hlin h _ b.period i e
      obtain ⟨i1, i2⟩ := ih ho ha (by simpa using hkl) e
      rw [hnext.1, hnext.2] at i1
      rw [hnext.2] at i2
      exact ⟨i1, i2⟩

end

end Skill
