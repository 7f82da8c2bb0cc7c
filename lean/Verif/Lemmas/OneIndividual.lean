import Verif.Props.Filter
import Verif.Lemmas.ExactLikelihood2
import Verif.Spec.SequentialDensity

/-! The filter, for one individual and arbitrary transition functions: contributions only depend on the individual, and are the logarithm of a density. -/

namespace Skill
open Matrix MeasureTheory Spec

section agree
variable {nObs nObs' nMix n nT nObserved nC : ℕ} {θ : Type}

/-- Two sets of inputs of the filter agree for individual `i` and `i'`. -/
structure AgreeFixed (i : Fin nObs) (i' : Fin nObs') (fixed : ScanFixed nObs nT n nObserved nC θ) (fixed' : ScanFixed nObs' nT n nObserved nC θ) : Prop where
  observed : ∀ t, fixed.observed t i = fixed'.observed t i'
  transition : fixed.transition = fixed'.transition
  shockSds : fixed.shockSds = fixed'.shockSds
  scaling : fixed.scaling = fixed'.scaling
  constants : fixed.constants = fixed'.constants
  sigmaScalingFactor : fixed.sigmaScalingFactor = fixed'.sigmaScalingFactor
  sigmaWeights : fixed.sigmaWeights = fixed'.sigmaWeights
  func : fixed.func = fixed'.func

structure AgreeArgs (i : Fin nObs) (i' : Fin nObs') (fixed : ScanFixed nObs nT n nObserved nC θ) (fixed' : ScanFixed nObs' nT n nObserved nC θ) (a : LoopArgs nObs n nC) (a' : LoopArgs nObs' n nC) : Prop where
  period : a.period = a'.period
  loadings : a.loadings = a'.loadings
  controlParams : a.controlParams = a'.controlParams
  measSd : a.measSd = a'.measSd
  isMeasurement : a.isMeasurement = a'.isMeasurement
  isPredict : a.isPredict = a'.isPredict
  measurements : a.measurements i = a'.measurements i'
  controls : (a.measurements i).isSome = true → fixed.controls (jaxIndex (nT + 1) a.period) i = fixed'.controls (jaxIndex (nT + 1) a'.period) i'

structure AgreeCarry (i : Fin nObs) (i' : Fin nObs') (c : Carry nObs nMix n) (c' : Carry nObs' nMix n) : Prop where
  states : c.states i = c'.states i'
  upperChols : c.upperChols i = c'.upperChols i'
  logWeights : c.logWeights i = c'.logWeights i'

variable {i : Fin nObs} {i' : Fin nObs'} {fixed : ScanFixed nObs nT n nObserved nC θ} {fixed' : ScanFixed nObs' nT n nObserved nC θ}

theorem kalmanUpdate_agree (qr : QR) {c : Carry nObs nMix n} {c' : Carry nObs' nMix n} (hc : AgreeCarry i i' c c') {a : LoopArgs nObs n nC} {a' : LoopArgs nObs' n nC} (ha : AgreeArgs i i' fixed fixed' a a') :
    (scanUpdate qr fixed c a).2.states i = (scanUpdate qr fixed' c' a').2.states i' ∧ (scanUpdate qr fixed c a).2.upperChols i = (scanUpdate qr fixed' c' a').2.upperChols i' ∧
    (scanUpdate qr fixed c a).2.logWeights i = (scanUpdate qr fixed' c' a').2.logWeights i' ∧ (scanUpdate qr fixed c a).2.loglikes i = (scanUpdate qr fixed' c' a').2.loglikes i' := by
  rw [(scanUpdate_eq qr fixed c a).1, (scanUpdate_eq qr fixed' c' a').1]
  have hm := ha.measurements
  have hcon := ha.controls
  rcases h : a'.measurements i' with _ | y
  · rw [h] at hm
    obtain ⟨h1, h2, h3, h4, _⟩ := C30_missing_changes_nothing c.states c.upperChols a.loadings a.controlParams a.measSd a.measurements (fixed.controls (jaxIndex (nT + 1) a.period)) c.logWeights qr i hm
    obtain ⟨h1', h2', h3', h4', _⟩ := C30_missing_changes_nothing c'.states c'.upperChols a'.loadings a'.controlParams a'.measSd a'.measurements (fixed'.controls (jaxIndex (nT + 1) a'.period)) c'.logWeights qr i' h
    exact ⟨h1.trans (hc.states.trans h1'.symm), h2.trans (hc.upperChols.trans h2'.symm), h3.trans (hc.logWeights.trans h3'.symm), h4.trans h4'.symm⟩
  · rw [h] at hm
    rw [hm] at hcon
    have hcon := hcon rfl
    unfold kalmanUpdate
    simp only [hm, h, hcon, hc.states, hc.upperChols, hc.logWeights, ha.loadings, ha.controlParams, ha.measSd]
    exact ⟨trivial, trivial, trivial, trivial⟩

theorem scanUpdate_agree (qr : QR) {c : Carry nObs nMix n} {c' : Carry nObs' nMix n} (hc : AgreeCarry i i' c c') {a : LoopArgs nObs n nC} {a' : LoopArgs nObs' n nC} (ha : AgreeArgs i i' fixed fixed' a a') :
    AgreeCarry i i' (scanUpdate qr fixed c a).1 (scanUpdate qr fixed' c' a').1 := by
  obtain ⟨h1, h2, h3, _⟩ := kalmanUpdate_agree qr hc ha
  rw [(scanUpdate_eq qr fixed c a).1, (scanUpdate_eq qr fixed' c' a').1] at h1 h2 h3
  rw [(scanUpdate_eq qr fixed c a).2, (scanUpdate_eq qr fixed' c' a').2, (scanUpdate_eq qr fixed c a).1, (scanUpdate_eq qr fixed' c' a').1, ha.isMeasurement]
  cases a'.isMeasurement with
  | true => exact ⟨h1, h2, h3⟩
  | false => exact ⟨hc.states, hc.upperChols, h3⟩

theorem predict_agree (qr : QR) (hf : AgreeFixed i i' fixed fixed') {c : Carry nObs nMix n} {c' : Carry nObs' nMix n} (hc : AgreeCarry i i' c c') (t : Int) :
    AgreeCarry i i' (predictCarry qr fixed c t) (predictCarry qr fixed' c' t) := by
  unfold predictCarry predictMoments transformSigmaPoints latentSigmaPoints
  dsimp only
  refine ⟨?_, ?_, hc.logWeights⟩
  · dsimp only
    rw [hc.states, hc.upperChols, hf.observed, hf.transition, hf.scaling, hf.constants, hf.sigmaScalingFactor, hf.sigmaWeights, hf.func]
  · dsimp only
    rw [hc.states, hc.upperChols, hf.observed, hf.transition, hf.scaling, hf.constants, hf.sigmaScalingFactor, hf.sigmaWeights, hf.func, hf.shockSds]

theorem step_agree (qr : QR) (hf : AgreeFixed i i' fixed fixed') {c : Carry nObs nMix n} {c' : Carry nObs' nMix n} (hc : AgreeCarry i i' c c') {a : LoopArgs nObs n nC} {a' : LoopArgs nObs' n nC}
    (ha : AgreeArgs i i' fixed fixed' a a') : AgreeCarry i i' (step qr fixed c a) (step qr fixed' c' a') := by
  unfold step
  rw [ha.isPredict, ha.period]
  cases a'.isPredict with
  | true => exact predict_agree qr hf (scanUpdate_agree qr hc ha) _
  | false => exact scanUpdate_agree qr hc ha

/-- The contributions of an individual only depend on the inputs for this individual, without the control variables of periods in which the measurement is missing. -/
theorem outs_agree (qr : QR) (hf : AgreeFixed i i' fixed fixed') {args : List (LoopArgs nObs n nC)} {args' : List (LoopArgs nObs' n nC)} (ha : List.Forall₂ (AgreeArgs i i' fixed fixed') args args')
    {c : Carry nObs nMix n} {c' : Carry nObs' nMix n} (hc : AgreeCarry i i' c c') : (outs qr fixed c args).map (fun o => o.loglikes i) = (outs qr fixed' c' args').map (fun o => o.loglikes i') := by
  induction ha generalizing c c' with
  | nil => rfl
  | cons h _ ih =>
    unfold outs
    rw [List.map_cons, List.map_cons, ih (step_agree qr hf hc h)]
    congr 1
    exact (kalmanUpdate_agree qr hc h).2.2.2

end agree

section density
variable {nMix n nT nObserved nC : ℕ} {θ : Type}

/-- The argument of a step for one individual with the given measurement. -/
def LoopArgs.fill (a : LoopArgs 1 n nC) (observed : Bool) (y : ℝ) : LoopArgs 1 n nC := { a with measurements := fun _ => if observed then some y else none }

def fill : List (LoopArgs 1 n nC) → (ℕ → Bool) → (ℕ → ℝ) → List (LoopArgs 1 n nC)
  | [], _, _ => []
  | a :: as, o, y => a.fill (o 0) (y 0) :: fill as (fun j => o (j + 1)) (fun j => y (j + 1))

theorem fill_congr (as : List (LoopArgs 1 n nC)) {o : ℕ → Bool} {y y' : ℕ → ℝ} (h : ∀ j < as.length, o j = true → y j = y' j) : fill as o y = fill as o y' := by
  induction as generalizing o y y' with
  | nil => rfl
  | cons a as ih =>
    unfold fill
    rw [ih (fun j hj => h (j + 1) (by simpa using hj))]
    congr 1
    unfold LoopArgs.fill
    cases ho : o 0 with
    | false => rfl
    | true => rw [h 0 (by simp) ho]

theorem fill_congr_observed (as : List (LoopArgs 1 n nC)) {o o' : ℕ → Bool} {y : ℕ → ℝ} (h : ∀ j < as.length, o j = o' j) : fill as o y = fill as o' y := by
  induction as generalizing o o' y with
  | nil => rfl
  | cons a as ih =>
    unfold fill
    rw [ih (fun j hj => h (j + 1) (by simpa using hj)), h 0 (by simp)]

/-- The log likelihood of one individual. -/
noncomputable def logSum (qr : QR) (fixed : ScanFixed 1 nT n nObserved nC θ) (c : Carry 1 nMix n) (as : List (LoopArgs 1 n nC)) (o : ℕ → Bool) (y : ℕ → ℝ) : ℝ :=
  ((outs qr fixed c (fill as o y)).map (fun s => s.loglikes 0)).sum

theorem logSum_cons (qr : QR) (fixed : ScanFixed 1 nT n nObserved nC θ) (c : Carry 1 nMix n) (a : LoopArgs 1 n nC) (as : List (LoopArgs 1 n nC)) (o : ℕ → Bool) (y : ℕ → ℝ) :
    logSum qr fixed c (a :: as) o y = (scanUpdate qr fixed c (a.fill (o 0) (y 0))).2.loglikes 0 + logSum qr fixed (step qr fixed c (a.fill (o 0) (y 0))) as (fun j => o (j + 1)) (fun j => y (j + 1)) := by
  unfold logSum
  rw [fill, outs, List.map_cons, List.sum_cons]
  rfl

theorem loglikes_missing (qr : QR) (fixed : ScanFixed 1 nT n nObserved nC θ) (c : Carry 1 nMix n) (a : LoopArgs 1 n nC) (y : ℝ) : (scanUpdate qr fixed c (a.fill false y)).2.loglikes 0 = 0 := by
  rw [(scanUpdate_eq qr fixed c _).1]
  exact (C30_missing_changes_nothing _ _ _ _ _ _ _ _ qr 0 rfl).2.2.2.1

theorem logSum_missing (qr : QR) (fixed : ScanFixed 1 nT n nObserved nC θ) (c : Carry 1 nMix n) (as : List (LoopArgs 1 n nC)) {o : ℕ → Bool} (ho : ∀ j < as.length, o j = false) (y : ℕ → ℝ) :
    logSum qr fixed c as o y = 0 := by
  induction as generalizing c o y with
  | nil => rfl
  | cons a as ih => rw [logSum_cons, ho 0 (by simp), loglikes_missing, ih _ (fun j hj => ho (j + 1) (by simpa using hj)), add_zero]

/-- The contribution of an update is the logarithm of a probability density of the measurement, given the past. -/
theorem lintegral_loglikes {qr : QR} (hqr : ValidQR qr) (fixed : ScanFixed 1 nT n nObserved nC θ) {c : Carry 1 nMix n} (hw : WeightsOk c.logWeights) {a : LoopArgs 1 n nC} (hsd : a.measSd ≠ 0) :
    ∫⁻ y, ENNReal.ofReal (Real.exp ((scanUpdate qr fixed c (a.fill true y)).2.loglikes 0)) = 1 := by
  have hs : ∀ e, 0 < residualVariance ((c.belief 0).cov e) a.loadings a.measSd := fun e => variance_pos_of_gram _ hsd
  have hv : ∀ e, (residualVariance ((c.belief 0).cov e) a.loadings a.measSd).toNNReal ≠ 0 := fun e => by simpa using hs e
  have hne : Nonempty (Fin nMix) := by
    by_contra hn
    rw [not_nonempty_iff] at hn
    have := hw 0
    rw [Finset.univ_eq_empty, Finset.sum_empty] at this
    exact zero_ne_one this
  let cc := fixed.controls (jaxIndex (nT + 1) a.period) 0 ⬝ᵥ a.controlParams
  have hl : ∀ y, ENNReal.ofReal (Real.exp ((scanUpdate qr fixed c (a.fill true y)).2.loglikes 0)) = ∑ e, ENNReal.ofReal (Real.exp ((c.belief 0).logWeight e)) *
      ENNReal.ofReal (ProbabilityTheory.gaussianPDFReal ((c.belief 0).mean e ⬝ᵥ a.loadings + cc) (residualVariance ((c.belief 0).cov e) a.loadings a.measSd).toNNReal y) := by
    intro y
    rw [(scanUpdate_refines hqr fixed hw (a := a.fill true y) hsd 0).2]
    have h1 : (c.belief 0).contribution ((a.fill true y).measurement fixed 0) = Real.log (∑ e, Real.exp ((c.belief 0).logWeight e) *
        ProbabilityTheory.gaussianPDFReal ((c.belief 0).mean e ⬝ᵥ a.loadings + cc) (residualVariance ((c.belief 0).cov e) a.loadings a.measSd).toNNReal y) := by
      show Real.log (∑ e, Real.exp ((c.belief 0).logWeight e) * normalDensity (residualVariance ((c.belief 0).cov e) a.loadings a.measSd) (y - ((c.belief 0).mean e ⬝ᵥ a.loadings + cc))) = _
      congr 1
      refine Finset.sum_congr rfl (fun e _ => ?_)
      congr 1
      unfold normalDensity
      rw [ProbabilityTheory.gaussianPDFReal_sub, zero_add]
    rw [h1, Real.exp_log, ENNReal.ofReal_sum_of_nonneg]
    · refine Finset.sum_congr rfl (fun e _ => ?_)
      rw [ENNReal.ofReal_mul (Real.exp_pos _).le]
    · exact fun e _ => mul_nonneg (Real.exp_pos _).le (ProbabilityTheory.gaussianPDFReal_nonneg _ _ _)
    · exact Finset.sum_pos (fun e _ => mul_pos (Real.exp_pos _) (ProbabilityTheory.gaussianPDFReal_pos _ _ _ (hv e))) Finset.univ_nonempty
  simp_rw [hl]
  rw [lintegral_finsetSum]
  · simp_rw [lintegral_const_mul _ (ProbabilityTheory.measurable_gaussianPDFReal _ _).ennreal_ofReal, ProbabilityTheory.lintegral_gaussianPDFReal_eq_one _ (hv _), mul_one]
    rw [← ENNReal.ofReal_sum_of_nonneg (fun e _ => (Real.exp_pos _).le)]
    have : ∑ e, Real.exp ((c.belief 0).logWeight e) = 1 := hw 0
    rw [this, ENNReal.ofReal_one]
  · exact fun e _ => (ProbabilityTheory.measurable_gaussianPDFReal _ _).ennreal_ofReal.const_mul _

/-- A sequence of numbers from finitely many. -/
def extend {K : ℕ} (y : Fin K → ℝ) (j : ℕ) : ℝ := if h : j < K then y ⟨j, h⟩ else 0

theorem extend_cons_zero {K : ℕ} (x : ℝ) (y : Fin K → ℝ) : extend (Fin.cons x y : Fin (K + 1) → ℝ) 0 = x := rfl

theorem extend_cons_succ {K : ℕ} (x : ℝ) (y : Fin K → ℝ) : (fun j => extend (Fin.cons x y : Fin (K + 1) → ℝ) (j + 1)) = extend y := by
  funext j
  unfold extend
  by_cases h : j < K
  · rw [dif_pos (by omega), dif_pos h]
    rfl
  · rw [dif_neg (by omega), dif_neg h]

theorem iteratedIntegral_const_mul {K : ℕ} (μ : Fin K → Measure ℝ) (r : ENNReal) (hr : r ≠ ⊤) (f : (Fin K → ℝ) → ENNReal) : iteratedIntegral μ (fun y => r * f y) = r * iteratedIntegral μ f := by
  induction K with
  | zero => rfl
  | succ K ih =>
    unfold iteratedIntegral
    rw [← lintegral_const_mul' _ _ hr]
    exact lintegral_congr (fun x => ih _ _)

/-- The likelihood of one individual has mass one. -/
theorem total_mass {qr : QR} (hqr : ValidQR qr) (fixed : ScanFixed 1 nT n nObserved nC θ) {as : List (LoopArgs 1 n nC)} (hsd : ∀ a ∈ as, a.measSd ≠ 0) {c : Carry 1 nMix n} (hw : WeightsOk c.logWeights) (o : ℕ → Bool)
    {K : ℕ} (hK : as.length = K) :
    iteratedIntegral (fun j : Fin K => if o j then volume else Measure.dirac 0) (fun y => ENNReal.ofReal (Real.exp (logSum qr fixed c as o (extend y)))) = 1 := by
  induction as generalizing c o K with
  | nil =>
    subst hK
    show ENNReal.ofReal (Real.exp 0) = 1
    simp
  | cons a as ih =>
    subst hK
    show ∫⁻ x, iteratedIntegral (fun j : Fin as.length => if o j.succ then volume else Measure.dirac 0) (fun y => ENNReal.ofReal (Real.exp (logSum qr fixed c (a :: as) o (extend (Fin.cons x y : Fin (as.length + 1) → ℝ))))) ∂(if o 0 then volume else Measure.dirac 0) = 1
    have hx : ∀ x, iteratedIntegral (fun j : Fin as.length => if o j.succ then volume else Measure.dirac 0) (fun y => ENNReal.ofReal (Real.exp (logSum qr fixed c (a :: as) o (extend (Fin.cons x y : Fin (as.length + 1) → ℝ))))) =
        ENNReal.ofReal (Real.exp ((scanUpdate qr fixed c (a.fill (o 0) x)).2.loglikes 0)) := by
      intro x
      simp_rw [logSum_cons, extend_cons_zero, extend_cons_succ, Real.exp_add, ENNReal.ofReal_mul (Real.exp_pos _).le]
      rw [iteratedIntegral_const_mul _ _ ENNReal.ofReal_ne_top]
      have := ih (fun b hb => hsd b (by simp [hb])) (step_weights hqr fixed hw (a := a.fill (o 0) x) (hsd a (by simp))) (fun j => o (j + 1)) rfl
      simp only [Fin.val_succ]
      rw [this, mul_one]
    simp_rw [hx]
    cases ho : o 0 with
    | true => exact lintegral_loglikes hqr fixed hw (hsd a (by simp))
    | false =>
      simp_rw [loglikes_missing]
      simp

/-- Integrating out the last measurement of an individual. -/
theorem last_marginal {qr : QR} (hqr : ValidQR qr) (fixed : ScanFixed 1 nT n nObserved nC θ) {as : List (LoopArgs 1 n nC)} (hsd : ∀ a ∈ as, a.measSd ≠ 0) {c : Carry 1 nMix n} (hw : WeightsOk c.logWeights) (o : ℕ → Bool) (y : ℕ → ℝ)
    {J : ℕ} (hJ : J < as.length) (ho : o J = true) (hlast : ∀ j, J < j → j < as.length → o j = false) :
    ∫⁻ x, ENNReal.ofReal (Real.exp (logSum qr fixed c as o (Function.update y J x))) = ENNReal.ofReal (Real.exp (logSum qr fixed c as (Function.update o J false) y)) := by
  induction as generalizing c o y J with
  | nil => cases hJ
  | cons a as ih =>
    cases J with
    | zero =>
      have h1 : ∀ x, logSum qr fixed c (a :: as) o (Function.update y 0 x) = (scanUpdate qr fixed c (a.fill true x)).2.loglikes 0 := by
        intro x
        rw [logSum_cons, logSum_missing _ _ _ _ (fun j hj => hlast (j + 1) (by omega) (by simpa using hj)), add_zero, ho, Function.update_self]
      simp_rw [h1]
      rw [lintegral_loglikes hqr fixed hw (hsd a (by simp)), logSum_missing]
      · simp
      · intro j hj
        cases j with
        | zero => rfl
        | succ j => rw [Function.update_of_ne (by omega)]; exact hlast (j + 1) (by omega) hj
    | succ J =>
      have hshift : ∀ x, (fun j => Function.update y (J + 1) x (j + 1)) = Function.update (fun j => y (j + 1)) J x := by
        intro x
        funext j
        by_cases h : j = J
        · subst h; simp
        · rw [Function.update_of_ne h, Function.update_of_ne (by omega)]
      have hshift' : (fun j => Function.update o (J + 1) false (j + 1)) = Function.update (fun j => o (j + 1)) J false := by
        funext j
        by_cases h : j = J
        · subst h; simp
        · rw [Function.update_of_ne h, Function.update_of_ne (by omega)]
      simp_rw [logSum_cons, hshift, hshift', Function.update_of_ne (show (0 : ℕ) ≠ J + 1 by omega), Real.exp_add, ENNReal.ofReal_mul (Real.exp_pos _).le]
      rw [lintegral_const_mul' _ _ ENNReal.ofReal_ne_top]
      congr 1
      exact ih (fun b hb => hsd b (by simp [hb])) (step_weights hqr fixed hw (a := a.fill (o 0) (y 0)) (hsd a (by simp))) _ _ (by simpa using hJ) ho (fun j h1 h2 => hlast (j + 1) (by omega) (by simpa using h2))

end density

end Skill
