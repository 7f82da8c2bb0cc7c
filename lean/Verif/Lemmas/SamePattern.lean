import Verif.Props.ExactLikelihood
/- In linear models the covariances of the filter depend only on which measurements are observed. -/
namespace Skill
open Matrix Spec
variable {nObs nMix n nT nObserved nC : ℕ} {θ : Type}

/-- The same arguments of a step, except for the values of the measurements; the same measurements are observed. -/
def SameShape (a a' : LoopArgs nObs n nC) : Prop := a' = { a with measurements := a'.measurements } ∧ ∀ i, (a.measurements i).isSome = (a'.measurements i).isSome

theorem kalmanUpdate_pattern (qr : QR) (states states' : Fin nObs → Fin nMix → Fin n → ℝ) (upperChols : Fin nObs → Fin nMix → Matrix (Fin n) (Fin n) ℝ) (loadings : Fin n → ℝ) (controlParams : Fin nC → ℝ) (measSd : ℝ)
    {y y' : Fin nObs → Option ℝ} (hy : ∀ i, (y i).isSome = (y' i).isSome) (controls controls' : Fin nObs → Fin nC → ℝ) (w w' : Fin nObs → Fin nMix → ℝ) :
    (kalmanUpdate qr states upperChols loadings controlParams measSd y controls w).upperChols = (kalmanUpdate qr states' upperChols loadings controlParams measSd y' controls' w').upperChols ∧
    (kalmanUpdate qr states upperChols loadings controlParams measSd y controls w).residualSds = (kalmanUpdate qr states' upperChols loadings controlParams measSd y' controls' w').residualSds := by
  constructor
  · funext i
    show (if (y i).isSome then _ else _) = (if (y' i).isSome then _ else _)
    rw [hy i]
  · funext i e
    show (if (y i).isSome then _ else _) = (if (y' i).isSome then _ else _)
    rw [hy i]

/-- The deviations of transformed sigma points from their mean depend only on the Cholesky factor. -/
theorem predict_pattern (qr : QR) {fixed : ScanFixed nObs nT n nObserved nC θ} {kappa : ℝ} (hk : SigmaOptions fixed kappa) (hlin : AffineTransitions fixed) (con : Fin (nT + 2) → Fin nObs → Fin nC → ℝ)
    (obs : Fin (nT + 2) → Fin nObs → Fin nObserved → ℝ) {c c' : Carry nObs nMix n} (hU : c.upperChols = c'.upperChols) (t : Int) :
    (predictCarry qr fixed c t).upperChols = (predictCarry qr { fixed with controls := con, observed := obs } c' t).upperChols := by
  obtain ⟨A, b, hA⟩ := hlin (jaxIndex nT t)
  have hw : ∑ s, fixed.sigmaWeights s = 1 := by rw [hk.weights]; exact weights_sum hk.positive.ne'
  unfold predictCarry predictMoments
  dsimp only
  rw [hA]
  funext i e
  congr 1
  ext s f
  rw [of_apply, of_apply]
  refine Fin.addCases (fun s => ?_) (fun s => ?_) s
  swap
  · rw [Fin.append_right, Fin.append_right]
  rw [Fin.append_left, Fin.append_left]
  congr 1
  -- the transformed points of the two individuals differ by a constant
  obtain ⟨d, hd⟩ : ∃ d : ℝ, ∀ s, transformSigmaPoints (fun i e s => Fin.append (latentSigmaPoints c.states c.upperChols fixed.sigmaScalingFactor i e s) (fixed.observed (jaxIndex (nT + 1) t) i))
      (fun z f => A f ⬝ᵥ z + b f) ![fixed.scaling (jaxIndex (nT + 1) t), fixed.scaling (jaxIndex (nT + 1) (t + 1))] ![fixed.constants (jaxIndex (nT + 1) t), fixed.constants (jaxIndex (nT + 1) (t + 1))] i e s f =
      transformSigmaPoints (fun i e s => Fin.append (latentSigmaPoints c'.states c'.upperChols fixed.sigmaScalingFactor i e s) (obs (jaxIndex (nT + 1) t) i))
      (fun z f => A f ⬝ᵥ z + b f) ![fixed.scaling (jaxIndex (nT + 1) t), fixed.scaling (jaxIndex (nT + 1) (t + 1))] ![fixed.constants (jaxIndex (nT + 1) t), fixed.constants (jaxIndex (nT + 1) (t + 1))] i e s f + d := by
    refine ⟨(∑ g, A f (Fin.castAdd nObserved g) * ((c.states i e g - c'.states i e g) * fixed.scaling (jaxIndex (nT + 1) t) (Fin.castAdd nObserved g)) +
      ∑ o, A f (Fin.natAdd n o) * ((fixed.observed (jaxIndex (nT + 1) t) i o - obs (jaxIndex (nT + 1) t) i o) * fixed.scaling (jaxIndex (nT + 1) t) (Fin.natAdd n o))) /
      fixed.scaling (jaxIndex (nT + 1) (t + 1)) (Fin.castAdd nObserved f), fun s => ?_⟩
    unfold transformSigmaPoints
    simp only [Matrix.cons_val_zero, Matrix.cons_val_one, dotProduct, Fin.sum_univ_add, Fin.append_left, Fin.append_right]
    rw [← add_div]
    congr 1
    have e1 : ∀ g, A f (Fin.castAdd nObserved g) * (latentSigmaPoints c.states c.upperChols fixed.sigmaScalingFactor i e s g * fixed.scaling (jaxIndex (nT + 1) t) (Fin.castAdd nObserved g) + fixed.constants (jaxIndex (nT + 1) t) (Fin.castAdd nObserved g)) =
        A f (Fin.castAdd nObserved g) * (latentSigmaPoints c'.states c'.upperChols fixed.sigmaScalingFactor i e s g * fixed.scaling (jaxIndex (nT + 1) t) (Fin.castAdd nObserved g) + fixed.constants (jaxIndex (nT + 1) t) (Fin.castAdd nObserved g)) +
        A f (Fin.castAdd nObserved g) * ((c.states i e g - c'.states i e g) * fixed.scaling (jaxIndex (nT + 1) t) (Fin.castAdd nObserved g)) := by
      intro g
      unfold latentSigmaPoints
      rw [hU]
      ring
    have e2 : ∀ o, A f (Fin.natAdd n o) * (fixed.observed (jaxIndex (nT + 1) t) i o * fixed.scaling (jaxIndex (nT + 1) t) (Fin.natAdd n o) + fixed.constants (jaxIndex (nT + 1) t) (Fin.natAdd n o)) =
        A f (Fin.natAdd n o) * (obs (jaxIndex (nT + 1) t) i o * fixed.scaling (jaxIndex (nT + 1) t) (Fin.natAdd n o) + fixed.constants (jaxIndex (nT + 1) t) (Fin.natAdd n o)) +
        A f (Fin.natAdd n o) * ((fixed.observed (jaxIndex (nT + 1) t) i o - obs (jaxIndex (nT + 1) t) i o) * fixed.scaling (jaxIndex (nT + 1) t) (Fin.natAdd n o)) := fun o => by ring
    rw [Finset.sum_congr rfl (fun g _ => e1 g), Finset.sum_congr rfl (fun o _ => e2 o), Finset.sum_add_distrib, Finset.sum_add_distrib]
    ring
  rw [hd s, Finset.sum_congr rfl (fun s _ => by rw [hd s, mul_add]), Finset.sum_add_distrib, ← Finset.sum_mul, hw]
  ring

theorem step_pattern (qr : QR) {fixed : ScanFixed nObs nT n nObserved nC θ} {kappa : ℝ} (hk : SigmaOptions fixed kappa) (hlin : AffineTransitions fixed) (con : Fin (nT + 2) → Fin nObs → Fin nC → ℝ)
    (obs : Fin (nT + 2) → Fin nObs → Fin nObserved → ℝ) {c c' : Carry nObs nMix n} (hU : c.upperChols = c'.upperChols) {a a' : LoopArgs nObs n nC} (ha : SameShape a a') :
    (step qr fixed c a).upperChols = (step qr { fixed with controls := con, observed := obs } c' a').upperChols ∧
    (stepOut qr fixed c a).residualSds = (stepOut qr { fixed with controls := con, observed := obs } c' a').residualSds := by
  obtain ⟨e, hy⟩ := ha
  have hu : (scanUpdate qr fixed c a).1.upperChols = (scanUpdate qr { fixed with controls := con, observed := obs } c' a').1.upperChols ∧
      (scanUpdate qr fixed c a).2.residualSds = (scanUpdate qr { fixed with controls := con, observed := obs } c' a').2.residualSds := by
    obtain ⟨k1, k2⟩ := kalmanUpdate_pattern qr c.states c'.states c.upperChols a.loadings a.controlParams a.measSd hy (fixed.controls (jaxIndex (nT + 1) a.period)) (con (jaxIndex (nT + 1) a.period)) c.logWeights c'.logWeights
    rw [e]
    unfold scanUpdate
    dsimp only
    rw [← hU]
    cases a.isMeasurement with
    | true => exact ⟨k1, k2⟩
    | false => exact ⟨rfl, k2⟩
  refine ⟨?_, hu.2⟩
  unfold step
  have e1 : a'.isPredict = a.isPredict := by rw [e]
  have e2 : a'.period = a.period := by rw [e]
  rw [e1, e2]
  split
  · exact predict_pattern qr hk hlin con obs hu.1 _
  · exact hu.1

/-- The standard deviations of residuals at the first `K` steps. -/
theorem outs_pattern (qr : QR) {fixed : ScanFixed nObs nT n nObserved nC θ} {kappa : ℝ} (hk : SigmaOptions fixed kappa) (hlin : AffineTransitions fixed) (con : Fin (nT + 2) → Fin nObs → Fin nC → ℝ)
    (obs : Fin (nT + 2) → Fin nObs → Fin nObserved → ℝ) (K : ℕ) {as as' : List (LoopArgs nObs n nC)} (h : ∀ k < K, ∃ a a', as[k]? = some a ∧ as'[k]? = some a' ∧ SameShape a a') {c c' : Carry nObs nMix n}
    (hU : c.upperChols = c'.upperChols) :
    ∀ k < K, ((outs qr fixed c as)[k]?).map StepOut.residualSds = ((outs qr { fixed with controls := con, observed := obs } c' as')[k]?).map StepOut.residualSds := by
  induction K generalizing as as' c c' with
  | zero => intro k hk; omega
  | succ K ih =>
    intro k hkK
    obtain ⟨a, a', ha, ha', hs⟩ := h 0 (by omega)
    obtain ⟨as, rfl⟩ : ∃ l, as = a :: l := by
      cases as with
      | nil => simp at ha
      | cons x l => exact ⟨l, by simp at ha; rw [ha]⟩
    obtain ⟨as', rfl⟩ : ∃ l, as' = a' :: l := by
      cases as' with
      | nil => simp at ha'
      | cons x l => exact ⟨l, by simp at ha'; rw [ha']⟩
    obtain ⟨s1, s2⟩ := step_pattern qr hk hlin con obs hU hs
    cases k with
    | zero =>
      simp only [outs, List.getElem?_cons_zero, Option.map_some]
      rw [s2]
    | succ k =>
      simp only [outs, List.getElem?_cons_succ]
      exact ih (fun j hj => by simpa using h (j + 1) (by omega)) s1 k (by omega)

end Skill
