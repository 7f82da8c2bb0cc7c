import Verif.Props.ExactLikelihood
import Verif.Lemmas.FilterLaw
import Verif.Lemmas.PipelineLaw
/-
The states and mixture weights that the filter returns, in a linear model.
-/
namespace Skill
open Matrix MeasureTheory ProbabilityTheory Spec
variable {nObs nMix n nT nObserved nC : ℕ} {θ : Type}

/-- One update. -/
theorem scanUpdate_step {qr : QR} (hqr : ValidQR qr) (fixed : ScanFixed nObs nT n nObserved nC θ) {c : Carry nObs nMix n} (hw : WeightsOk c.logWeights) {a : LoopArgs nObs n nC} (hsd : a.measSd ≠ 0)
    (hm : a.isMeasurement = true) (i : Fin nObs) :
    0 < ∑ e, Real.exp (c.logWeights i e) * updDensity (stepOf fixed i a) (c.states i e) ((c.upperChols i e)ᵀ * c.upperChols i e) ((a.measurements i).getD 0) ∧
    ∀ e, (scanUpdate qr fixed c a).1.states i e = updMean (stepOf fixed i a) (c.states i e) ((c.upperChols i e)ᵀ * c.upperChols i e) ((a.measurements i).getD 0) ∧
      ((scanUpdate qr fixed c a).1.upperChols i e)ᵀ * (scanUpdate qr fixed c a).1.upperChols i e = updCov (stepOf fixed i a) ((c.upperChols i e)ᵀ * c.upperChols i e) ∧
      Real.exp ((scanUpdate qr fixed c a).1.logWeights i e) *
          ∑ e, Real.exp (c.logWeights i e) * updDensity (stepOf fixed i a) (c.states i e) ((c.upperChols i e)ᵀ * c.upperChols i e) ((a.measurements i).getD 0) =
        Real.exp (c.logWeights i e) * updDensity (stepOf fixed i a) (c.states i e) ((c.upperChols i e)ᵀ * c.upperChols i e) ((a.measurements i).getD 0) := by
  obtain ⟨hb, _⟩ := scanUpdate_refines hqr fixed hw hsd i
  set c1 := (scanUpdate qr fixed c a).1 with hc1
  have hb1 : c1.belief i = (c.belief i).update (a.measurement fixed i) := by
    rw [← hb, hc1, (scanUpdate_eq qr fixed c a).2, hm]
    rfl
  have k1 : ∀ e, c1.logWeights i e = (c1.belief i).logWeight e := fun _ => rfl
  have k2 : ∀ e, c1.states i e = (c1.belief i).mean e := fun _ => rfl
  have k3 : ∀ e, (c1.upperChols i e)ᵀ * c1.upperChols i e = (c1.belief i).cov e := fun _ => rfl
  have l1 : ∀ e, c.logWeights i e = (c.belief i).logWeight e := fun _ => rfl
  have l2 : ∀ e, c.states i e = (c.belief i).mean e := fun _ => rfl
  have l3 : ∀ e, (c.upperChols i e)ᵀ * c.upperChols i e = (c.belief i).cov e := fun _ => rfl
  simp only [k1, k2, k3, l1, l2, l3, hb1]
  have hprop := Carry.belief_proper hw i
  generalize c.belief i = β at hprop
  obtain ho | ⟨y, ho⟩ : a.measurements i = none ∨ ∃ y, a.measurements i = some y := by cases a.measurements i <;> simp
  · have hm' : a.measurement fixed i = ⟨a.loadings, fixed.controls (jaxIndex (nT + 1) a.period) i ⬝ᵥ a.controlParams, a.measSd, none⟩ := by simp only [LoopArgs.measurement, ho]
    have hob : (stepOf fixed i a).observed = false := by simp [stepOf, ho]
    simp only [updDensity, updMean, updCov, hob, hm', Belief.update, Bool.false_eq_true, if_false, mul_one]
    rw [hprop.weights]
    exact ⟨one_pos, fun e => ⟨trivial, trivial, mul_one _⟩⟩
  · set M : Measurement n := ⟨a.loadings, fixed.controls (jaxIndex (nT + 1) a.period) i ⬝ᵥ a.controlParams, a.measSd, some y⟩ with hM
    have hm' : a.measurement fixed i = M := by simp only [LoopArgs.measurement, ho, hM]
    have hob : (stepOf fixed i a).observed = true := by simp [stepOf, ho]
    have hMsd : M.sd ≠ 0 := hsd
    have hL := likelihood_pos hprop (m := M) hMsd y
    simp only [updDensity, updMean, updCov, hob, hm', ho, Option.getD_some, if_true]
    refine ⟨hL, fun e => ⟨rfl, rfl, ?_⟩⟩
    have hD := density_pos hprop.cov (m := M) hMsd y e
    have : Real.exp ((β.update M).logWeight e) = Real.exp (β.logWeight e) * β.density M y e / β.likelihood M y := Real.exp_log (div_pos (mul_pos (Real.exp_pos _) hD) hL)
    rw [this]
    exact div_mul_cancel₀ _ hL.ne'

/-- The states and weights after any update. -/
theorem filter_out {qr : QR} (hqr : ValidQR qr) {fixed : ScanFixed nObs nT n nObserved nC θ} {kappa : ℝ} (hk : SigmaOptions fixed kappa)
    (hlin : AffineTransitions fixed) (h : nMix = 1 ∨ nObserved = 0) (i : Fin nObs) {args : List (LoopArgs nObs n nC)}
    (hsd : ∀ a ∈ args, a.measSd ≠ 0) (hm : ∀ a ∈ args, a.isMeasurement = true) :
    ∀ {c : Carry nObs nMix n}, WeightsOk c.logWeights → ∀ {k : ℕ} {o : StepOut nObs nMix n}, (outs qr fixed c args)[k]? = some o → ∀ e,
      o.states i e = filterMean ((args.take (k + 1)).map (stepOf fixed i)) (c.states i e) ((c.upperChols i e)ᵀ * c.upperChols i e) (dataOf fixed i (args.take (k + 1))) ∧
      Real.exp (o.logWeights i e) *
          ∑ e, Real.exp (c.logWeights i e) * kalmanDensity ((args.take (k + 1)).map (stepOf fixed i)) (c.states i e) ((c.upperChols i e)ᵀ * c.upperChols i e) (dataOf fixed i (args.take (k + 1))) =
        Real.exp (c.logWeights i e) * kalmanDensity ((args.take (k + 1)).map (stepOf fixed i)) (c.states i e) ((c.upperChols i e)ᵀ * c.upperChols i e) (dataOf fixed i (args.take (k + 1))) := by
  induction args with
  | nil => intro c _ k o ho; simp [outs] at ho
  | cons a as ih =>
    intro c hw k o ho e
    have hsda := hsd a (by simp)
    have ih := @ih (fun a' h' => hsd a' (by simp [h'])) (fun a' h' => hm a' (by simp [h'])) _ (step_weights (a := a) hqr fixed hw hsda)
    obtain ⟨hL, hupd⟩ := scanUpdate_step hqr fixed hw hsda (hm a (by simp)) i
    set s := stepOf fixed i a with hs
    set y0 := (a.measurements i).getD 0 with hy0
    set L := ∑ e, Real.exp (c.logWeights i e) * updDensity s (c.states i e) ((c.upperChols i e)ᵀ * c.upperChols i e) y0 with hLdef
    rw [outs] at ho
    cases k with
    | zero =>
      simp only [List.getElem?_cons_zero, Option.some.injEq] at ho
      have e1 : o.states i e = (scanUpdate qr fixed c a).1.states i e := by rw [← ho]; rfl
      have e2 : o.logWeights i e = (scanUpdate qr fixed c a).1.logWeights i e := by rw [scanUpdate_logWeights, ← ho]; rfl
      have hd : ∀ m P, kalmanDensity (((a :: as).take (0 + 1)).map (stepOf fixed i)) m P (dataOf fixed i ((a :: as).take (0 + 1))) = updDensity s m P y0 := fun m P => mul_one _
      simp only [hd]
      rw [e1, e2]
      exact ⟨(hupd e).1, (hupd e).2.2⟩
    | succ k =>
      rw [List.getElem?_cons_succ] at ho
      have hnext : ∀ e, (step qr fixed c a).logWeights i e = (scanUpdate qr fixed c a).1.logWeights i e ∧
          (step qr fixed c a).states i e = stepMean s (updMean s (c.states i e) ((c.upperChols i e)ᵀ * c.upperChols i e) y0) ∧
          ((step qr fixed c a).upperChols i e)ᵀ * (step qr fixed c a).upperChols i e = stepCov s (updCov s ((c.upperChols i e)ᵀ * c.upperChols i e)) := by
        intro e
        rw [← (hupd e).1, ← (hupd e).2.1]
        simp only [step, stepMean, stepCov, hs, stepOf]
        cases a.isPredict with
        | false => exact ⟨rfl, rfl, rfl⟩
        | true => exact ⟨rfl, predict_affine hqr hk hlin h _ a.period i e⟩
      have hkl : k < as.length := by
        have := (List.getElem?_eq_some_iff.mp ho).1
        rwa [outs_length] at this
      obtain ⟨i1, i2⟩ := ih ho e
      have hd : ∀ m P, kalmanDensity (((a :: as).take (k + 1 + 1)).map (stepOf fixed i)) m P (dataOf fixed i ((a :: as).take (k + 1 + 1))) =
          updDensity s m P y0 * kalmanDensity ((as.take (k + 1)).map (stepOf fixed i)) (stepMean s (updMean s m P y0)) (stepCov s (updCov s P)) (dataOf fixed i (as.take (k + 1))) := fun m P => rfl
      have hf : ∀ m P, filterMean (((a :: as).take (k + 1 + 1)).map (stepOf fixed i)) m P (dataOf fixed i ((a :: as).take (k + 1 + 1))) =
          filterMean ((as.take (k + 1)).map (stepOf fixed i)) (stepMean s (updMean s m P y0)) (stepCov s (updCov s P)) (dataOf fixed i (as.take (k + 1))) := by
        intro m P
        cases as with
        | nil => simp at hkl
        | cons b bs => rfl
      simp only [hd, hf]
      simp only [(hnext _).2.1, (hnext _).2.2] at i1 i2
      refine ⟨i1, ?_⟩
      have hwt : ∀ e, Real.exp ((step qr fixed c a).logWeights i e) = Real.exp (c.logWeights i e) * updDensity s (c.states i e) ((c.upperChols i e)ᵀ * c.upperChols i e) y0 / L := by
        intro e
        rw [(hnext e).1, eq_div_iff hL.ne']
        exact (hupd e).2.2
      simp only [hwt, div_mul_eq_mul_div, ← Finset.sum_div, mul_div_assoc'] at i2
      rw [div_left_inj' hL.ne'] at i2
      simp only [mul_assoc] at i2 ⊢
      exact i2

theorem filterMean_congr {steps steps' : List (Step n)} (h : List.Forall₂ SameStep steps steps') (m : Fin n → ℝ) (P : Matrix (Fin n) (Fin n) ℝ) {y : Fin steps.length → ℝ} {y' : Fin steps'.length → ℝ}
    (hy : ∀ (k : ℕ) (h : k < steps.length) (h' : k < steps'.length), y ⟨k, h⟩ = y' ⟨k, h'⟩) : filterMean steps m P y = filterMean steps' m P y' := by
  induction h generalizing m P with
  | nil => rfl
  | @cons s s' ss ss' hs hss ih =>
    obtain ⟨h1, h2, h3⟩ := hs
    have hy0 : y (0 : Fin (ss.length + 1)) = y' (0 : Fin (ss'.length + 1)) := hy 0 (Nat.succ_pos _) (Nat.succ_pos _)
    have hys : ∀ (k : ℕ) (h : k < ss.length) (h' : k < ss'.length), (fun k : Fin ss.length => y k.succ) ⟨k, h⟩ = (fun k : Fin ss'.length => y' k.succ) ⟨k, h'⟩ :=
      fun k h h' => hy (k + 1) (Nat.succ_lt_succ h) (Nat.succ_lt_succ h')
    have hm : ∀ a, stepMean s a = stepMean s' a := fun a => by unfold stepMean; rw [h2]
    have hc : ∀ a, stepCov s a = stepCov s' a := fun a => by unfold stepCov; rw [h2]
    have hu : ∀ y, updMean s m P y = updMean s' m P y ∧ updCov s P = updCov s' P := by
      intro y
      unfold updMean updCov
      rw [← h1]
      cases ho : s.observed with
      | false => exact ⟨rfl, rfl⟩
      | true =>
        obtain ⟨e1, e2, e3⟩ := h3 ho
        simp only [if_true, e1, e2, e3, and_self]
    cases hss with
    | nil =>
      show updMean s m P _ = updMean s' m P _
      rw [(hu _).1, hy0]
    | cons a b =>
      show filterMean _ (stepMean s (updMean s m P (y (0 : Fin (_ + 1))))) (stepCov s (updCov s P)) _ = filterMean _ (stepMean s' (updMean s' m P (y' (0 : Fin (_ + 1))))) (stepCov s' (updCov s' P)) _
      rw [hm, hc, (hu _).1, (hu 0).2, ← hy0]
      exact ih _ _ hys

end Skill
