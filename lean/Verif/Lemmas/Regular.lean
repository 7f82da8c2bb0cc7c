import Verif.Props.Likelihood
/-
Carries with regular Cholesky factors; two carries that agree up to the signs of the rows of the
Cholesky factors lead to the same results.
-/
namespace Skill
open Matrix Spec
variable {nObs nMix n nT nObserved nC : ℕ} {θ : Type}

/-- Upper triangular with non-zero diagonal. -/
structure Spec.RegularUpper (U : Matrix (Fin n) (Fin n) ℝ) : Prop where
  upper : ∀ i j, j < i → U i j = 0
  diag : ∀ i, U i i ≠ 0

theorem det_upper {R : Matrix (Fin n) (Fin n) ℝ} (hR : ∀ i j, j < i → R i j = 0) : R.det = ∏ i, R i i :=
  Matrix.det_of_isUpperTriangular (fun i j h => hR i j h)

theorem diag_ne_zero {R : Matrix (Fin n) (Fin n) ℝ} (hR : ∀ i j, j < i → R i j = 0) (h : (Rᵀ * R).det ≠ 0) (i : Fin n) : R i i ≠ 0 := by
  rw [det_mul, det_transpose, det_upper hR] at h
  exact (Finset.prod_ne_zero_iff.mp (left_ne_zero_of_mul h)) i (Finset.mem_univ i)

theorem Spec.RegularUpper.det_ne_zero {U : Matrix (Fin n) (Fin n) ℝ} (h : RegularUpper U) : U.det ≠ 0 := by
  rw [det_upper h.upper, Finset.prod_ne_zero_iff]
  exact fun i _ => h.diag i

theorem det_updateMatrix (sd : ℝ) (f : Fin n → ℝ) (U : Matrix (Fin n) (Fin n) ℝ) : (updateMatrix sd f U).det = sd * U.det := by
  rw [det_succ_row_zero, Fin.sum_univ_succ]
  simp only [um_00, um_0s, Fin.val_zero, pow_zero, one_mul, mul_zero, zero_mul, Finset.sum_const_zero, add_zero]
  congr 1

/-- The updated Cholesky factor is regular. -/
theorem update_regular {qr : QR} (hqr : ValidQR qr) (states : Fin nObs → Fin nMix → Fin n → ℝ)
    (upperChols : Fin nObs → Fin nMix → Matrix (Fin n) (Fin n) ℝ) (loadings : Fin n → ℝ) (controlParams : Fin nC → ℝ) {measSd : ℝ}
    (hsd : measSd ≠ 0) (measurements : Fin nObs → Option ℝ) (controls : Fin nObs → Fin nC → ℝ) (logWeights : Fin nObs → Fin nMix → ℝ)
    (i : Fin nObs) (e : Fin nMix) (h : RegularUpper (upperChols i e)) :
    RegularUpper ((kalmanUpdate qr states upperChols loadings controlParams measSd measurements controls logWeights).upperChols i e) := by
  cases hm : measurements i with
  | none =>
    rw [(C30_missing_changes_nothing states upperChols loadings controlParams measSd measurements controls logWeights qr i hm).2.1]
    exact h
  | some y =>
    have hR : ∀ a b, b < a → qr (n + 1) (n + 1) (updateMatrix measSd (upperChols i e *ᵥ loadings) (upperChols i e)) a b = 0 :=
      fun a b hab => hqr.upper _ _ _ le_rfl _ _ hab
    have hd := diag_ne_zero hR (by
      rw [hqr.gram _ _ _ le_rfl, det_mul, det_transpose, det_updateMatrix]
      exact mul_ne_zero (mul_ne_zero hsd h.det_ne_zero) (mul_ne_zero hsd h.det_ne_zero))
    have e1 : (kalmanUpdate qr states upperChols loadings controlParams measSd measurements controls logWeights).upperChols i e =
        Matrix.of (fun f g => qr (n + 1) (n + 1) (updateMatrix measSd (upperChols i e *ᵥ loadings) (upperChols i e)) f.succ g.succ) := by
      simp only [kalmanUpdate, hm, Option.isSome_some, if_true]
      rfl
    rw [e1]
    exact ⟨fun a b hab => hR _ _ (Fin.succ_lt_succ_iff.mpr hab), fun a => hd _⟩

/-- The predicted Cholesky factor is regular if the shocks and the sigma points span all directions. -/
theorem predict_regular {qr : QR} (hqr : ValidQR qr) {nSigma : ℕ} {weights : Fin nSigma → ℝ} (hw : ∀ s, 0 ≤ weights s) {shockSds : Fin n → ℝ}
    (transformed : Fin nObs → Fin nMix → Fin nSigma → Fin n → ℝ) (i : Fin nObs) (e : Fin nMix)
    (hs : ∀ v : Fin n → ℝ, (∀ f, shockSds f ≠ 0 → v f = 0) →
      (∀ s, 0 < weights s → v ⬝ᵥ (fun f => transformed i e s f - (predictMoments qr weights shockSds transformed).1 i e f) = 0) → v = 0) :
    RegularUpper ((predictMoments qr weights shockSds transformed).2 i e) := by
  have hR : ∀ f g, g < f → (predictMoments qr weights shockSds transformed).2 i e f g = 0 :=
    fun f g h => hqr.upper _ _ _ (Nat.le_add_left _ _) _ _ h
  refine ⟨hR, diag_ne_zero hR ?_⟩
  set R := (predictMoments qr weights shockSds transformed).2 i e with hRdef
  intro hdet
  obtain ⟨v, hv0, hv⟩ := Matrix.exists_mulVec_eq_zero_iff.mpr hdet
  refine hv0 ?_
  have key : v ⬝ᵥ ((Rᵀ * R) *ᵥ v) = (∑ s, weights s * (v ⬝ᵥ (fun f => transformed i e s f - (predictMoments qr weights shockSds transformed).1 i e f)) ^ 2) +
      ∑ f, (shockSds f * v f) ^ 2 := by
    have h1 : ∀ f g, (Rᵀ * R) f g = _ := fun f g => predict_gram hqr hw shockSds transformed i e f g
    simp only [dotProduct, mulVec, h1, add_mul, Finset.sum_add_distrib, mul_add]
    congr 1
    · simp only [sq, Finset.sum_mul, Finset.mul_sum]
      rw [Finset.sum_comm_cycle]
      refine Finset.sum_congr rfl (fun s _ => Finset.sum_congr rfl (fun f _ => Finset.sum_congr rfl (fun g _ => by ring)))
    · refine Finset.sum_congr rfl (fun f _ => ?_)
      rw [Finset.sum_eq_single f]
      · rw [diagonal_apply_eq]; ring
      · intro g _ hgf
        rw [diagonal_apply_ne _ hgf.symm]; ring
      · intro hn; exact absurd (Finset.mem_univ _) hn
  rw [hv, dotProduct_zero] at key
  have n1 : ∀ s ∈ Finset.univ, 0 ≤ weights s * (v ⬝ᵥ (fun f => transformed i e s f - (predictMoments qr weights shockSds transformed).1 i e f)) ^ 2 :=
    fun s _ => mul_nonneg (hw s) (sq_nonneg _)
  have n2 : ∀ f ∈ Finset.univ, 0 ≤ (shockSds f * v f) ^ 2 := fun f _ => sq_nonneg _
  have z1 : (∑ s, weights s * (v ⬝ᵥ (fun f => transformed i e s f - (predictMoments qr weights shockSds transformed).1 i e f)) ^ 2) = 0 := by
    have := Finset.sum_nonneg n1
    have := Finset.sum_nonneg n2
    linarith
  have z2 : ∑ f, (shockSds f * v f) ^ 2 = 0 := by linarith
  rw [Finset.sum_eq_zero_iff_of_nonneg n1] at z1
  rw [Finset.sum_eq_zero_iff_of_nonneg n2] at z2
  refine hs v (fun f hf => ?_) (fun s hs => ?_)
  · have := z2 f (Finset.mem_univ _)
    simpa [hf] using this
  · have := z1 s (Finset.mem_univ _)
    simpa [hs.ne'] using this

/-- The `f`-th latent factor keeps its value in the predict step with the quantities of period `t`: it has the transition function `constant`, and the anchoring does not destroy the information about it. -/
structure Spec.KeptFactor (fixed : ScanFixed nObs nT n nObserved nC θ) (t : Int) (f : Fin n) : Prop where
  func : ∀ x, fixed.func (fixed.transition (jaxIndex nT t)) x f = x (Fin.castAdd nObserved f)
  now : fixed.scaling (jaxIndex (nT + 1) t) (Fin.castAdd nObserved f) ≠ 0
  next : fixed.scaling (jaxIndex (nT + 1) (t + 1)) (Fin.castAdd nObserved f) ≠ 0

/-- Conditions on the model quantities: sigma points as in the code with a non-negative scale, no
shock standard deviation is zero, except for factors that keep their value. -/
structure Spec.RegularFixed (fixed : ScanFixed nObs nT n nObserved nC θ) (kappa : ℝ) : Prop where
  nonneg : 0 ≤ kappa
  scaling : fixed.sigmaScalingFactor = sigmaScalingFactor n kappa
  weights : fixed.sigmaWeights = sigmaWeights n kappa
  noise : ∀ (t : Int) (f : Fin n), fixed.shockSds (jaxIndex nT t) f ≠ 0 ∨ KeptFactor fixed t f

theorem predictCarry_regular {qr : QR} (hqr : ValidQR qr) {fixed : ScanFixed nObs nT n nObserved nC θ} {kappa : ℝ} (hf : RegularFixed fixed kappa) (t : Int) {c : Carry nObs nMix n}
    (h : ∀ i e, RegularUpper (c.upperChols i e)) (i : Fin nObs) (e : Fin nMix) : RegularUpper ((predictCarry qr fixed c t).upperChols i e) := by
  have hw : ∀ s, 0 ≤ fixed.sigmaWeights s := by
    intro s; rw [hf.weights]; exact weights_nonneg hf.nonneg s
  refine predict_regular hqr hw _ i e ?_
  intro v hv1 hv2
  rcases Nat.eq_zero_or_pos n with h0 | hpos
  · subst h0; exact Subsingleton.elim _ _
  have hn : 0 < (n : ℝ) + kappa := by have := hf.nonneg; positivity
  set a : Fin n → ℝ := fun f => fixed.scaling (jaxIndex (nT + 1) t) (Fin.castAdd nObserved f) / fixed.scaling (jaxIndex (nT + 1) (t + 1)) (Fin.castAdd nObserved f) with ha
  set b : Fin n → ℝ := fun f => (fixed.constants (jaxIndex (nT + 1) t) (Fin.castAdd nObserved f) - fixed.constants (jaxIndex (nT + 1) (t + 1)) (Fin.castAdd nObserved f)) /
    fixed.scaling (jaxIndex (nT + 1) (t + 1)) (Fin.castAdd nObserved f) with hb
  obtain ⟨T, hT⟩ : ∃ T, T = transformSigmaPoints (fun i e s => Fin.append (latentSigmaPoints c.states c.upperChols fixed.sigmaScalingFactor i e s)
      (fixed.observed (jaxIndex (nT + 1) t) i)) (fixed.func (fixed.transition (jaxIndex nT t)))
    ![fixed.scaling (jaxIndex (nT + 1) t), fixed.scaling (jaxIndex (nT + 1) (t + 1))]
    ![fixed.constants (jaxIndex (nT + 1) t), fixed.constants (jaxIndex (nT + 1) (t + 1))] := ⟨_, rfl⟩
  rw [← hT] at hv2
  have hkept : ∀ f, v f ≠ 0 → KeptFactor fixed t f := fun f hvf =>
    (hf.noise t f).resolve_left (fun hq => hvf (hv1 f hq))
  have hpt : ∀ f, KeptFactor fixed t f → ∀ s, T i e s f = a f * latentSigmaPoints c.states c.upperChols fixed.sigmaScalingFactor i e s f + b f := by
    intro f hk s
    rw [hT]
    simp only [transformSigmaPoints, hk.func, Fin.append_left, ha, hb, Matrix.cons_val_zero, Matrix.cons_val_one]
    ring
  have hmean : ∀ f, KeptFactor fixed t f → (predictMoments qr fixed.sigmaWeights (fixed.shockSds (jaxIndex nT t)) T).1 i e f = a f * c.states i e f + b f := by
    intro f hk
    simp only [predictMoments, hpt f hk, hf.weights]
    have := weighted_affine hn c.states c.upperChols fixed.sigmaScalingFactor i e (Pi.single f (a f)) (b f)
    simpa [single_dotProduct] using this
  have hrow : c.upperChols i e *ᵥ (fun f => a f * v f) = 0 := by
    funext j
    have hwj : 0 < fixed.sigmaWeights ⟨j + 1, by omega⟩ := by
      rw [hf.weights, weight_succ]
      positivity
    have h1 := hv2 _ hwj
    have h2 : (v ⬝ᵥ fun f => T i e ⟨j + 1, by omega⟩ f - (predictMoments qr fixed.sigmaWeights (fixed.shockSds (jaxIndex nT t)) T).1 i e f) =
        fixed.sigmaScalingFactor * (c.upperChols i e *ᵥ (fun f => a f * v f)) j := by
      simp only [dotProduct, mulVec, Finset.mul_sum]
      refine Finset.sum_congr rfl (fun f _ => ?_)
      by_cases hvf : v f = 0
      · rw [hvf]; ring
      · rw [hpt f (hkept f hvf), hmean f (hkept f hvf), latent_plus]
        simp only [Pi.add_apply, Pi.smul_apply, smul_eq_mul]
        ring
    rw [h2] at h1
    refine (mul_eq_zero.mp h1).resolve_left ?_
    rw [hf.scaling, sigmaScalingFactor]
    exact (Real.sqrt_pos.mpr (by linarith)).ne'
  have hav : (fun f => a f * v f) = 0 := by
    by_contra hne
    exact (h i e).det_ne_zero (Matrix.exists_mulVec_eq_zero_iff.mp ⟨_, hne, hrow⟩)
  funext f
  by_contra hvf
  have hk := hkept f hvf
  have h3 := congrFun hav f
  simp only [Pi.zero_apply, mul_eq_zero] at h3
  rcases h3 with h3 | h3
  · exact (div_ne_zero hk.now hk.next) h3
  · exact hvf h3

/-- Same states and weights, and Cholesky factors of the same covariance matrices. -/
structure CarryEquiv (c d : Carry nObs nMix n) : Prop where
  states : c.states = d.states
  logWeights : c.logWeights = d.logWeights
  left : ∀ i e, RegularUpper (c.upperChols i e)
  right : ∀ i e, RegularUpper (d.upperChols i e)
  gram : ∀ i e, (c.upperChols i e)ᵀ * c.upperChols i e = (d.upperChols i e)ᵀ * d.upperChols i e

theorem variance_pos_of_gram {U : Matrix (Fin n) (Fin n) ℝ} (h : Fin n → ℝ) {sd : ℝ} (hsd : sd ≠ 0) :
    0 < residualVariance (Uᵀ * U) h sd := residualVariance_pos (posSemidef_gram U) h hsd

/-- Everything that an update reports depends only on the covariance matrices. -/
theorem update_equiv {qr qr' : QR} (hqr : ValidQR qr) (hqr' : ValidQR qr') {c d : Carry nObs nMix n} (h : CarryEquiv c d)
    (loadings : Fin n → ℝ) (controlParams : Fin nC → ℝ) {measSd : ℝ} (hsd : measSd ≠ 0) (measurements : Fin nObs → Option ℝ)
    (controls : Fin nObs → Fin nC → ℝ) :
    let r := kalmanUpdate qr c.states c.upperChols loadings controlParams measSd measurements controls c.logWeights
    let r' := kalmanUpdate qr' d.states d.upperChols loadings controlParams measSd measurements controls d.logWeights
    r.states = r'.states ∧ r.logWeights = r'.logWeights ∧ r.loglikes = r'.loglikes ∧ r.residuals = r'.residuals ∧
    r.residualSds = r'.residualSds ∧ ∀ i e, (r.upperChols i e)ᵀ * r.upperChols i e = (r'.upperChols i e)ᵀ * r'.upperChols i e := by
  intro r r'
  have key : ∀ i, r.states i = r'.states i ∧ r.logWeights i = r'.logWeights i ∧ r.loglikes i = r'.loglikes i ∧
      (∀ e, r.residuals i e = r'.residuals i e) ∧ (∀ e, r.residualSds i e = r'.residualSds i e) ∧
      ∀ e, (r.upperChols i e)ᵀ * r.upperChols i e = (r'.upperChols i e)ᵀ * r'.upperChols i e := by
    intro i
    cases hm : measurements i with
    | none =>
      obtain ⟨a1, a2, a3, a4, a5⟩ := C30_missing_changes_nothing c.states c.upperChols loadings controlParams measSd measurements controls c.logWeights qr i hm
      obtain ⟨b1, b2, b3, b4, b5⟩ := C30_missing_changes_nothing d.states d.upperChols loadings controlParams measSd measurements controls d.logWeights qr' i hm
      refine ⟨?_, ?_, ?_, ?_, ?_, ?_⟩
      · rw [a1, b1, h.states]
      · rw [a3, b3, h.logWeights]
      · rw [a4, b4]
      · intro e; rw [(a5 e).1, (b5 e).1]
      · intro e; rw [(a5 e).2, (b5 e).2]
      · intro e; rw [a2, b2]; exact h.gram i e
    | some y =>
      have hc : ∀ e, 0 < residualVariance ((c.upperChols i e)ᵀ * c.upperChols i e) loadings measSd := fun e =>
        variance_pos_of_gram _ hsd
      have hd : ∀ e, 0 < residualVariance ((d.upperChols i e)ᵀ * d.upperChols i e) loadings measSd := fun e =>
        variance_pos_of_gram _ hsd
      obtain ⟨a1, a2, _, a4, a5, a6⟩ := C28_update_is_kalman_update c.states c.upperChols loadings controlParams measSd measurements controls c.logWeights hqr i y hm hc
      obtain ⟨b1, b2, _, b4, b5, b6⟩ := C28_update_is_kalman_update d.states d.upperChols loadings controlParams measSd measurements controls d.logWeights hqr' i y hm hd
      simp only [h.states, h.logWeights, h.gram] at a1 a2 a4 a5 a6
      have hll : r.loglikes i = r'.loglikes i := by
        rcases Nat.lt_or_ge nMix 2 with hlt | hge
        · rcases Nat.eq_zero_or_pos nMix with h0 | hpos
          · subst h0
            simp [r, r', kalmanUpdate]
          · have e1 : nMix = 1 := by omega
            subst e1
            have := (a5 rfl 0).1
            have h2 := (b5 rfl 0).1
            simp only [r, r', h.states, h.logWeights]
            rw [this, h2]
        · have := (a6 hge).1
          have h2 := (b6 hge).1
          simp only [r, r', h.states, h.logWeights]
          rw [this, h2]
      refine ⟨?_, ?_, hll, ?_, ?_, ?_⟩
      · funext e
        simp only [r, r', h.states, h.logWeights]
        rw [a1 e, b1 e]
      · rcases Nat.lt_or_ge nMix 2 with hlt | hge
        · rcases Nat.eq_zero_or_pos nMix with h0 | hpos
          · subst h0
            funext e
            exact e.elim0
          · have e1 : nMix = 1 := by omega
            subst e1
            have := (a5 rfl 0).2
            have h2 := (b5 rfl 0).2
            simp only [r, r', h.states, h.logWeights]
            rw [this, h2]
        · funext e
          have q1 := (a6 hge).2 e
          have q2 := (b6 hge).2 e
          simp only [r, r', h.states, h.logWeights] at hll ⊢
          rw [q1, q2, hll]
      · intro e
        have q1 := (a4 e).1
        have q2 := (b4 e).1
        simp only [r, r', h.states, h.logWeights]
        rw [q1, q2]
      · intro e
        have q1 := (a4 e).2
        have q2 := (b4 e).2
        simp only [r, r', h.states, h.logWeights]
        rw [q1, q2]
      · intro e
        have q1 := a2 e
        have q2 := b2 e
        simp only [r, r', h.states, h.logWeights]
        rw [q1, q2]
  refine ⟨funext fun i => (key i).1, funext fun i => (key i).2.1, funext fun i => (key i).2.2.1, funext fun i => funext (key i).2.2.2.1,
    funext fun i => funext (key i).2.2.2.2.1, fun i => (key i).2.2.2.2.2⟩

theorem scanUpdate_eq (qr : QR) (fixed : ScanFixed nObs nT n nObserved nC θ) (c : Carry nObs nMix n) (a : LoopArgs nObs n nC) :
    (scanUpdate qr fixed c a).2 = kalmanUpdate qr c.states c.upperChols a.loadings a.controlParams a.measSd a.measurements
      (fixed.controls (jaxIndex (nT + 1) a.period)) c.logWeights ∧
    (scanUpdate qr fixed c a).1 = if a.isMeasurement then
      ⟨(scanUpdate qr fixed c a).2.states, (scanUpdate qr fixed c a).2.upperChols, (scanUpdate qr fixed c a).2.logWeights⟩
      else ⟨c.states, c.upperChols, (scanUpdate qr fixed c a).2.logWeights⟩ := by
  unfold scanUpdate
  split <;> exact ⟨rfl, rfl⟩

theorem scanUpdate_equiv {qr qr' : QR} (hqr : ValidQR qr) (hqr' : ValidQR qr') {c d : Carry nObs nMix n} (h : CarryEquiv c d)
    (fixed : ScanFixed nObs nT n nObserved nC θ) {a : LoopArgs nObs n nC} (hsd : a.measSd ≠ 0) :
    CarryEquiv (scanUpdate qr fixed c a).1 (scanUpdate qr' fixed d a).1 ∧ stepOut qr fixed c a = stepOut qr' fixed d a := by
  obtain ⟨e1, e2⟩ := scanUpdate_eq qr fixed c a
  obtain ⟨f1, f2⟩ := scanUpdate_eq qr' fixed d a
  obtain ⟨u1, u2, u3, u4, u5, u6⟩ := update_equiv hqr hqr' h a.loadings a.controlParams hsd a.measurements (fixed.controls (jaxIndex (nT + 1) a.period))
  rw [← e1, ← f1] at u1 u2 u3 u4 u5 u6
  have r1 : ∀ i e, RegularUpper ((scanUpdate qr fixed c a).2.upperChols i e) := fun i e => by
    rw [e1]; exact update_regular hqr _ _ _ _ hsd _ _ _ i e (h.left i e)
  have r2 : ∀ i e, RegularUpper ((scanUpdate qr' fixed d a).2.upperChols i e) := fun i e => by
    rw [f1]; exact update_regular hqr' _ _ _ _ hsd _ _ _ i e (h.right i e)
  have hc : CarryEquiv (scanUpdate qr fixed c a).1 (scanUpdate qr' fixed d a).1 := by
    rw [e2, f2]
    by_cases ha : a.isMeasurement
    · rw [if_pos ha, if_pos ha]
      exact ⟨u1, u2, r1, r2, u6⟩
    · rw [if_neg ha, if_neg ha]
      exact ⟨h.states, u2, h.left, h.right, h.gram⟩
  refine ⟨hc, ?_⟩
  simp only [stepOut, u2, u3, u4, u5, hc.states]

theorem sum_signs {kappa : ℝ} {c d : Carry nObs nMix n} (h : CarryEquiv c d) (s : ℝ) (i : Fin nObs) (e : Fin nMix) (G : (Fin n → ℝ) → ℝ) :
    ∑ k, sigmaWeights n kappa k * G (latentSigmaPoints c.states c.upperChols s i e k) =
      ∑ k, sigmaWeights n kappa k * G (latentSigmaPoints d.states d.upperChols s i e k) := by
  rw [weighted_sum kappa, weighted_sum kappa]
  obtain ⟨ε, hε, hr⟩ := upper_unique (h.left i e).upper (h.right i e).upper (h.gram i e) (h.right i e).diag
  rw [h.states]
  congr 2
  refine Finset.sum_congr rfl (fun j _ => ?_)
  rcases hε j with h1 | h1
  · have : c.upperChols i e j = d.upperChols i e j := by
      funext k; rw [hr, h1, one_mul]
    rw [this]
  · have : c.upperChols i e j = - d.upperChols i e j := by
      funext k; rw [hr, h1]; simp
    rw [this, smul_neg, ← sub_eq_add_neg, sub_neg_eq_add]
    exact add_comm _ _

theorem predict_equiv {qr qr' : QR} (hqr : ValidQR qr) (hqr' : ValidQR qr') {c d : Carry nObs nMix n} (h : CarryEquiv c d)
    {fixed : ScanFixed nObs nT n nObserved nC θ} {kappa : ℝ} (hf : RegularFixed fixed kappa) (t : Int) :
    CarryEquiv (predictCarry qr fixed c t) (predictCarry qr' fixed d t) := by
  have hw : ∀ s, 0 ≤ fixed.sigmaWeights s := by
    intro s; rw [hf.weights]; exact weights_nonneg hf.nonneg s
  have hst : (predictCarry qr fixed c t).states = (predictCarry qr' fixed d t).states := by
    funext i e f
    simp only [predictCarry, predictMoments, hf.weights, hf.scaling]
    exact sum_signs h _ i e (fun x => transformSigmaPoints (fun (_ : Fin 1) (_ : Fin 1) (_ : Fin 1) => Fin.append x
      (fixed.observed (jaxIndex (nT + 1) t) i)) (fixed.func (fixed.transition (jaxIndex nT t)))
      ![fixed.scaling (jaxIndex (nT + 1) t), fixed.scaling (jaxIndex (nT + 1) (t + 1))]
      ![fixed.constants (jaxIndex (nT + 1) t), fixed.constants (jaxIndex (nT + 1) (t + 1))] 0 0 0 f)
  refine ⟨hst, h.logWeights, predictCarry_regular hqr hf t h.left, predictCarry_regular hqr' hf t h.right, ?_⟩
  intro i e
  ext f g
  simp only [predictCarry]
  rw [predict_gram hqr hw, predict_gram hqr' hw]
  congr 1
  have h1 : ∀ f, _ := fun f => congrFun (congrFun (congrFun hst i) e) f
  simp only [predictCarry] at h1
  rw [h1 f, h1 g]
  simp only [hf.weights, hf.scaling]
  exact sum_signs h _ i e (fun x => (transformSigmaPoints (fun (_ : Fin 1) (_ : Fin 1) (_ : Fin 1) => Fin.append x
      (fixed.observed (jaxIndex (nT + 1) t) i)) (fixed.func (fixed.transition (jaxIndex nT t)))
      ![fixed.scaling (jaxIndex (nT + 1) t), fixed.scaling (jaxIndex (nT + 1) (t + 1))]
      ![fixed.constants (jaxIndex (nT + 1) t), fixed.constants (jaxIndex (nT + 1) (t + 1))] 0 0 0 f - _) *
      (transformSigmaPoints (fun (_ : Fin 1) (_ : Fin 1) (_ : Fin 1) => Fin.append x
      (fixed.observed (jaxIndex (nT + 1) t) i)) (fixed.func (fixed.transition (jaxIndex nT t)))
      ![fixed.scaling (jaxIndex (nT + 1) t), fixed.scaling (jaxIndex (nT + 1) (t + 1))]
      ![fixed.constants (jaxIndex (nT + 1) t), fixed.constants (jaxIndex (nT + 1) (t + 1))] 0 0 0 g - _))

theorem step_equiv {qr qr' : QR} (hqr : ValidQR qr) (hqr' : ValidQR qr') {c d : Carry nObs nMix n} (h : CarryEquiv c d)
    {fixed : ScanFixed nObs nT n nObserved nC θ} {kappa : ℝ} (hf : RegularFixed fixed kappa) {a : LoopArgs nObs n nC} (hsd : a.measSd ≠ 0) :
    CarryEquiv (step qr fixed c a) (step qr' fixed d a) := by
  unfold step
  have h1 := (scanUpdate_equiv hqr hqr' h fixed hsd).1
  split
  · exact predict_equiv hqr hqr' h1 hf _
  · exact h1

theorem foldl_equiv {qr qr' : QR} (hqr : ValidQR qr) (hqr' : ValidQR qr') {fixed : ScanFixed nObs nT n nObserved nC θ} {kappa : ℝ}
    (hf : RegularFixed fixed kappa) {args : List (LoopArgs nObs n nC)} (ha : ∀ a ∈ args, a.measSd ≠ 0) :
    ∀ {c d : Carry nObs nMix n}, CarryEquiv c d →
    CarryEquiv (args.foldl (step qr fixed) c) (args.foldl (step qr' fixed) d) ∧ outs qr fixed c args = outs qr' fixed d args := by
  induction args with
  | nil => intro c d h; exact ⟨h, rfl⟩
  | cons a as ih =>
    intro c d h
    have h1 := step_equiv hqr hqr' h hf (ha a (by simp))
    have h2 := ih (fun a' ha' => ha a' (by simp [ha'])) h1
    refine ⟨h2.1, ?_⟩
    simp only [outs, h2.2, (scanUpdate_equiv hqr hqr' h fixed (ha a (by simp))).2]

end Skill
