import Verif.Lemmas.SamePattern
import Verif.Spec.Combination
/- In linear models the states and residuals of the filter are affine functions of the data. -/
namespace Skill
open Matrix Spec
variable {nObs nMix n nT nObserved nC : ℕ} {θ : Type}

theorem combines_isSome {a : ℝ} {x y z : Option ℝ} (h : Combines a x y z) : x.isSome = y.isSome ∧ x.isSome = z.isSome := by
  rcases h with ⟨rfl, rfl, rfl⟩ | ⟨u, v, rfl, rfl, rfl⟩ <;> exact ⟨rfl, rfl⟩

/-- The third carry has the same Cholesky factors and a combination of the states. -/
structure CombinesCarry (a : ℝ) (c₁ c₂ c₃ : Carry nObs nMix n) : Prop where
  first : c₁.upperChols = c₂.upperChols
  second : c₁.upperChols = c₃.upperChols
  states : ∀ i e f, c₃.states i e f = a * c₁.states i e f + (1 - a) * c₂.states i e f

theorem kalmanUpdate_combines (qr : QR) {a : ℝ} {s₁ s₂ s₃ : Fin nObs → Fin nMix → Fin n → ℝ} (hs : ∀ i e f, s₃ i e f = a * s₁ i e f + (1 - a) * s₂ i e f) (upperChols : Fin nObs → Fin nMix → Matrix (Fin n) (Fin n) ℝ)
    (loadings : Fin n → ℝ) (controlParams : Fin nC → ℝ) (measSd : ℝ) {y₁ y₂ y₃ : Fin nObs → Option ℝ} (hy : ∀ i, Combines a (y₁ i) (y₂ i) (y₃ i)) {x₁ x₂ x₃ : Fin nObs → Fin nC → ℝ}
    (hx : ∀ i c, x₃ i c = a * x₁ i c + (1 - a) * x₂ i c) (w₁ w₂ w₃ : Fin nObs → Fin nMix → ℝ) :
    (∀ i e f, (kalmanUpdate qr s₃ upperChols loadings controlParams measSd y₃ x₃ w₃).states i e f =
      a * (kalmanUpdate qr s₁ upperChols loadings controlParams measSd y₁ x₁ w₁).states i e f + (1 - a) * (kalmanUpdate qr s₂ upperChols loadings controlParams measSd y₂ x₂ w₂).states i e f) ∧
    ∀ i e, Combines a ((kalmanUpdate qr s₁ upperChols loadings controlParams measSd y₁ x₁ w₁).residuals i e) ((kalmanUpdate qr s₂ upperChols loadings controlParams measSd y₂ x₂ w₂).residuals i e)
      ((kalmanUpdate qr s₃ upperChols loadings controlParams measSd y₃ x₃ w₃).residuals i e) := by
  have hexp : ∀ i e, (∑ f, s₃ i e f * loadings f) + ∑ c, x₃ i c * controlParams c =
      a * ((∑ f, s₁ i e f * loadings f) + ∑ c, x₁ i c * controlParams c) + (1 - a) * ((∑ f, s₂ i e f * loadings f) + ∑ c, x₂ i c * controlParams c) := by
    intro i e
    simp only [hs, hx, add_mul, Finset.sum_add_distrib, mul_add, Finset.mul_sum, mul_assoc]
    ring
  constructor
  · intro i e f
    rcases hy i with ⟨h1, h2, h3⟩ | ⟨u, v, h1, h2, h3⟩
    · unfold kalmanUpdate
      simp only [h1, h2, h3, Option.isSome_none, Bool.false_eq_true, if_false]
      exact hs i e f
    · unfold kalmanUpdate
      simp only [h1, h2, h3, Option.isSome_some, if_true, hexp]
      rw [hs]
      ring
  · intro i e
    rcases hy i with ⟨h1, h2, h3⟩ | ⟨u, v, h1, h2, h3⟩
    · refine Or.inl ?_
      unfold kalmanUpdate
      simp only [h1, h2, h3, Option.isSome_none, Bool.false_eq_true, if_false, and_self]
    · refine Or.inr ⟨u - ((∑ f, s₁ i e f * loadings f) + ∑ c, x₁ i c * controlParams c), v - ((∑ f, s₂ i e f * loadings f) + ∑ c, x₂ i c * controlParams c), ?_, ?_, ?_⟩
      · unfold kalmanUpdate
        simp only [h1, Option.isSome_some, if_true]
      · unfold kalmanUpdate
        simp only [h2, Option.isSome_some, if_true]
      · unfold kalmanUpdate
        simp only [h3, Option.isSome_some, if_true, hexp, Option.some.injEq]
        ring

theorem predict_combines (qr : QR) {a : ℝ} {fixed : ScanFixed nObs nT n nObserved nC θ} {kappa : ℝ} (hk : SigmaOptions fixed kappa) (hlin : AffineTransitions fixed) (con₂ con₃ : Fin (nT + 2) → Fin nObs → Fin nC → ℝ)
    (obs₂ obs₃ : Fin (nT + 2) → Fin nObs → Fin nObserved → ℝ) {c₁ c₂ c₃ : Carry nObs nMix n} (h : CombinesCarry a c₁ c₂ c₃) (t : Int)
    (hobs : ∀ i o, obs₃ (jaxIndex (nT + 1) t) i o = a * fixed.observed (jaxIndex (nT + 1) t) i o + (1 - a) * obs₂ (jaxIndex (nT + 1) t) i o) :
    CombinesCarry a (predictCarry qr fixed c₁ t) (predictCarry qr { fixed with controls := con₂, observed := obs₂ } c₂ t) (predictCarry qr { fixed with controls := con₃, observed := obs₃ } c₃ t) := by
  refine ⟨predict_pattern qr hk hlin con₂ obs₂ h.first t, predict_pattern qr hk hlin con₃ obs₃ h.second t, fun i e f => ?_⟩
  obtain ⟨A, b, hA⟩ := hlin (jaxIndex nT t)
  unfold predictCarry predictMoments
  dsimp only
  rw [hA, Finset.mul_sum, Finset.mul_sum, ← Finset.sum_add_distrib]
  refine Finset.sum_congr rfl (fun s _ => ?_)
  unfold transformSigmaPoints
  dsimp only
  have hp : ∀ j, Fin.append (latentSigmaPoints c₃.states c₃.upperChols fixed.sigmaScalingFactor i e s) (obs₃ (jaxIndex (nT + 1) t) i) j =
      a * Fin.append (latentSigmaPoints c₁.states c₁.upperChols fixed.sigmaScalingFactor i e s) (fixed.observed (jaxIndex (nT + 1) t) i) j +
      (1 - a) * Fin.append (latentSigmaPoints c₂.states c₂.upperChols fixed.sigmaScalingFactor i e s) (obs₂ (jaxIndex (nT + 1) t) i) j := by
    intro j
    refine Fin.addCases (fun j => ?_) (fun j => ?_) j
    · rw [Fin.append_left, Fin.append_left, Fin.append_left]
      unfold latentSigmaPoints
      rw [h.states, ← h.first, ← h.second]
      ring
    · rw [Fin.append_right, Fin.append_right, Fin.append_right]
      exact hobs i j
  simp only [Matrix.cons_val_zero, Matrix.cons_val_one, dotProduct, hp]
  have hsum : ∀ (x y k q : Fin (n + nObserved) → ℝ), ∑ j, A f j * ((a * x j + (1 - a) * y j) * k j + q j) = a * (∑ j, A f j * (x j * k j + q j)) + (1 - a) * ∑ j, A f j * (y j * k j + q j) := by
    intro x y k q
    rw [Finset.mul_sum, Finset.mul_sum, ← Finset.sum_add_distrib]
    exact Finset.sum_congr rfl (fun j _ => by ring)
  rw [hsum]
  ring

/-- The arguments of a step of the three individuals. -/
def CombinesArgs (a : ℝ) (x₁ x₂ x₃ : LoopArgs nObs n nC) : Prop :=
  x₂ = { x₁ with measurements := x₂.measurements } ∧ x₃ = { x₁ with measurements := x₃.measurements } ∧ ∀ i, Combines a (x₁.measurements i) (x₂.measurements i) (x₃.measurements i)

theorem step_combines (qr : QR) {a : ℝ} {fixed : ScanFixed nObs nT n nObserved nC θ} {kappa : ℝ} (hk : SigmaOptions fixed kappa) (hlin : AffineTransitions fixed) (con₂ con₃ : Fin (nT + 2) → Fin nObs → Fin nC → ℝ)
    (obs₂ obs₃ : Fin (nT + 2) → Fin nObs → Fin nObserved → ℝ) {c₁ c₂ c₃ : Carry nObs nMix n} (h : CombinesCarry a c₁ c₂ c₃) {x₁ x₂ x₃ : LoopArgs nObs n nC} (hx : CombinesArgs a x₁ x₂ x₃)
    (hcon : ∀ i c, con₃ (jaxIndex (nT + 1) x₁.period) i c = a * fixed.controls (jaxIndex (nT + 1) x₁.period) i c + (1 - a) * con₂ (jaxIndex (nT + 1) x₁.period) i c)
    (hobs : ∀ i o, obs₃ (jaxIndex (nT + 1) x₁.period) i o = a * fixed.observed (jaxIndex (nT + 1) x₁.period) i o + (1 - a) * obs₂ (jaxIndex (nT + 1) x₁.period) i o) :
    CombinesCarry a (step qr fixed c₁ x₁) (step qr { fixed with controls := con₂, observed := obs₂ } c₂ x₂) (step qr { fixed with controls := con₃, observed := obs₃ } c₃ x₃) ∧
    (∀ i e f, (stepOut qr { fixed with controls := con₃, observed := obs₃ } c₃ x₃).states i e f =
      a * (stepOut qr fixed c₁ x₁).states i e f + (1 - a) * (stepOut qr { fixed with controls := con₂, observed := obs₂ } c₂ x₂).states i e f) ∧
    ∀ i e, Combines a ((stepOut qr fixed c₁ x₁).residuals i e) ((stepOut qr { fixed with controls := con₂, observed := obs₂ } c₂ x₂).residuals i e)
      ((stepOut qr { fixed with controls := con₃, observed := obs₃ } c₃ x₃).residuals i e) := by
  obtain ⟨e₂, e₃, hy⟩ := hx
  have hu : CombinesCarry a (scanUpdate qr fixed c₁ x₁).1 (scanUpdate qr { fixed with controls := con₂, observed := obs₂ } c₂ x₂).1 (scanUpdate qr { fixed with controls := con₃, observed := obs₃ } c₃ x₃).1 ∧
      ∀ i e, Combines a ((scanUpdate qr fixed c₁ x₁).2.residuals i e) ((scanUpdate qr { fixed with controls := con₂, observed := obs₂ } c₂ x₂).2.residuals i e)
        ((scanUpdate qr { fixed with controls := con₃, observed := obs₃ } c₃ x₃).2.residuals i e) := by
    obtain ⟨k1, k2⟩ := kalmanUpdate_combines qr h.states c₁.upperChols x₁.loadings x₁.controlParams x₁.measSd hy hcon c₁.logWeights c₂.logWeights c₃.logWeights
    have p2 := (kalmanUpdate_pattern qr c₁.states c₂.states c₁.upperChols x₁.loadings x₁.controlParams x₁.measSd (fun i => (combines_isSome (hy i)).1) (fixed.controls (jaxIndex (nT + 1) x₁.period))
      (con₂ (jaxIndex (nT + 1) x₁.period)) c₁.logWeights c₂.logWeights).1
    have p3 := (kalmanUpdate_pattern qr c₁.states c₃.states c₁.upperChols x₁.loadings x₁.controlParams x₁.measSd (fun i => (combines_isSome (hy i)).2) (fixed.controls (jaxIndex (nT + 1) x₁.period))
      (con₃ (jaxIndex (nT + 1) x₁.period)) c₁.logWeights c₃.logWeights).1
    rw [e₂, e₃]
    unfold scanUpdate
    dsimp only
    rw [← h.first, ← h.second]
    cases x₁.isMeasurement with
    | true => exact ⟨⟨p2, p3, k1⟩, k2⟩
    | false => exact ⟨⟨rfl, rfl, h.states⟩, k2⟩
  refine ⟨?_, hu.1.states, hu.2⟩
  unfold step
  have q1 : x₂.isPredict = x₁.isPredict := by rw [e₂]
  have q2 : x₂.period = x₁.period := by rw [e₂]
  have q3 : x₃.isPredict = x₁.isPredict := by rw [e₃]
  have q4 : x₃.period = x₁.period := by rw [e₃]
  rw [q1, q2, q3, q4]
  split
  · exact predict_combines qr hk hlin con₂ con₃ obs₂ obs₃ hu.1 _ hobs
  · exact hu.1

/-- States and residuals at the first `K` steps. -/
theorem outs_combines (qr : QR) {a : ℝ} {fixed : ScanFixed nObs nT n nObserved nC θ} {kappa : ℝ} (hk : SigmaOptions fixed kappa) (hlin : AffineTransitions fixed) (con₂ con₃ : Fin (nT + 2) → Fin nObs → Fin nC → ℝ)
    (obs₂ obs₃ : Fin (nT + 2) → Fin nObs → Fin nObserved → ℝ) (K : ℕ) {l₁ l₂ l₃ : List (LoopArgs nObs n nC)}
    (hl : ∀ k < K, ∃ x₁ x₂ x₃, l₁[k]? = some x₁ ∧ l₂[k]? = some x₂ ∧ l₃[k]? = some x₃ ∧ CombinesArgs a x₁ x₂ x₃ ∧
      (∀ i c, con₃ (jaxIndex (nT + 1) x₁.period) i c = a * fixed.controls (jaxIndex (nT + 1) x₁.period) i c + (1 - a) * con₂ (jaxIndex (nT + 1) x₁.period) i c) ∧
      ∀ i o, obs₃ (jaxIndex (nT + 1) x₁.period) i o = a * fixed.observed (jaxIndex (nT + 1) x₁.period) i o + (1 - a) * obs₂ (jaxIndex (nT + 1) x₁.period) i o)
    {c₁ c₂ c₃ : Carry nObs nMix n} (h : CombinesCarry a c₁ c₂ c₃) :
    ∀ k < K, ∃ o₁ o₂ o₃, (outs qr fixed c₁ l₁)[k]? = some o₁ ∧ (outs qr { fixed with controls := con₂, observed := obs₂ } c₂ l₂)[k]? = some o₂ ∧
      (outs qr { fixed with controls := con₃, observed := obs₃ } c₃ l₃)[k]? = some o₃ ∧ (∀ i e f, o₃.states i e f = a * o₁.states i e f + (1 - a) * o₂.states i e f) ∧
      ∀ i e, Combines a (o₁.residuals i e) (o₂.residuals i e) (o₃.residuals i e) := by
  induction K generalizing l₁ l₂ l₃ c₁ c₂ c₃ with
  | zero => intro k hk; omega
  | succ K ih =>
    intro k hkK
    obtain ⟨x₁, x₂, x₃, h1, h2, h3, hx, hcon, hobs⟩ := hl 0 (by omega)
    obtain ⟨l₁, rfl⟩ : ∃ l, l₁ = x₁ :: l := by
      cases l₁ with
      | nil => simp at h1
      | cons x l => exact ⟨l, by simp at h1; rw [h1]⟩
    obtain ⟨l₂, rfl⟩ : ∃ l, l₂ = x₂ :: l := by
      cases l₂ with
      | nil => simp at h2
      | cons x l => exact ⟨l, by simp at h2; rw [h2]⟩
    obtain ⟨l₃, rfl⟩ : ∃ l, l₃ = x₃ :: l := by
      cases l₃ with
      | nil => simp at h3
      | cons x l => exact ⟨l, by simp at h3; rw [h3]⟩
    obtain ⟨s1, s2, s3⟩ := step_combines qr hk hlin con₂ con₃ obs₂ obs₃ h hx hcon hobs
    cases k with
    | zero => exact ⟨_, _, _, rfl, rfl, rfl, s2, s3⟩
    | succ k =>
      simp only [outs, List.getElem?_cons_succ]
      exact ih (fun j hj => by simpa using hl (j + 1) (by omega)) s1 k (by omega)

/-- With one mixture element the weight never changes. -/
theorem outs_oneWeight (qr : QR) (hm : nMix < 2) (fixed : ScanFixed nObs nT n nObserved nC θ) {l : List (LoopArgs nObs n nC)} {c : Carry nObs nMix n} {k : ℕ} {o : StepOut nObs nMix n} (h : (outs qr fixed c l)[k]? = some o) :
    o.logWeights = c.logWeights := by
  have hu : ∀ (c : Carry nObs nMix n) (x : LoopArgs nObs n nC), (scanUpdate qr fixed c x).1.logWeights = c.logWeights ∧ (scanUpdate qr fixed c x).2.logWeights = c.logWeights := by
    intro c x
    have hk : (kalmanUpdate qr c.states c.upperChols x.loadings x.controlParams x.measSd x.measurements (fixed.controls (jaxIndex (nT + 1) x.period)) c.logWeights).logWeights = c.logWeights := by
      funext i
      unfold kalmanUpdate
      simp only [ge_iff_le, if_neg (by omega : ¬2 ≤ nMix), ite_self]
    unfold scanUpdate
    cases x.isMeasurement <;> exact ⟨hk, hk⟩
  induction l generalizing c k with
  | nil => simp [outs] at h
  | cons x l ih =>
    cases k with
    | zero =>
      simp only [outs, List.getElem?_cons_zero, Option.some.injEq] at h
      rw [← h]
      exact (hu c x).2
    | succ k =>
      simp only [outs, List.getElem?_cons_succ] at h
      rw [ih h]
      unfold step
      split
      · exact (hu c x).1
      · exact (hu c x).1

end Skill
