import Verif.Lemmas.Regular
/- The signs of standard deviations and of the columns of Cholesky factors do not matter for the likelihood function. -/
namespace Skill
open Matrix Spec
variable {nObs nMix n nT nObserved nC : ℕ} {θ : Type}

theorem residualVariance_abs {sd sd' : ℝ} (h : |sd'| = |sd|) (P : Matrix (Fin n) (Fin n) ℝ) (l : Fin n → ℝ) : residualVariance P l sd' = residualVariance P l sd := by
  unfold residualVariance
  rw [← sq_abs sd', h, sq_abs]

theorem posteriorMean_abs {sd sd' : ℝ} (h : |sd'| = |sd|) (x : Fin n → ℝ) (P : Matrix (Fin n) (Fin n) ℝ) (l : Fin n → ℝ) (v : ℝ) : posteriorMean x P l sd' v = posteriorMean x P l sd v := by
  unfold posteriorMean
  simp only [residualVariance_abs h]

theorem posteriorCov_abs {sd sd' : ℝ} (h : |sd'| = |sd|) (P : Matrix (Fin n) (Fin n) ℝ) (l : Fin n → ℝ) : posteriorCov P l sd' = posteriorCov P l sd := by
  unfold posteriorCov
  simp only [residualVariance_abs h]

theorem ne_zero_abs {x y : ℝ} (h : |y| = |x|) (hx : x ≠ 0) : y ≠ 0 := by
  rw [← abs_ne_zero, h, abs_ne_zero]
  exact hx

/-- The sign of the standard deviation of a measurement does not matter for an update. -/
theorem kalmanUpdate_sign {qr : QR} (hqr : ValidQR qr) (c : Carry nObs nMix n) (loadings : Fin n → ℝ) (controlParams : Fin nC → ℝ) {measSd measSd' : ℝ} (hsd : measSd ≠ 0) (habs : |measSd'| = |measSd|)
    (measurements : Fin nObs → Option ℝ) (controls : Fin nObs → Fin nC → ℝ) :
    let r := kalmanUpdate qr c.states c.upperChols loadings controlParams measSd measurements controls c.logWeights
    let r' := kalmanUpdate qr c.states c.upperChols loadings controlParams measSd' measurements controls c.logWeights
    r.states = r'.states ∧ r.logWeights = r'.logWeights ∧ r.loglikes = r'.loglikes ∧ r.residuals = r'.residuals ∧
    r.residualSds = r'.residualSds ∧ ∀ i e, (r.upperChols i e)ᵀ * r.upperChols i e = (r'.upperChols i e)ᵀ * r'.upperChols i e := by
  intro r r'
  have key : ∀ i, r.states i = r'.states i ∧ r.logWeights i = r'.logWeights i ∧ r.loglikes i = r'.loglikes i ∧
      (∀ e, r.residuals i e = r'.residuals i e) ∧ (∀ e, r.residualSds i e = r'.residualSds i e) ∧
      ∀ e, (r.upperChols i e)ᵀ * r.upperChols i e = (r'.upperChols i e)ᵀ * r'.upperChols i e := by
    intro i
    cases hm : measurements i with
    | none =>
      obtain ⟨a1, a2, a3, a4, a5⟩ := C30_missing_changes_nothing c.states c.upperChols loadings controlParams measSd measurements controls c.logWeights qr i hm
      obtain ⟨b1, b2, b3, b4, b5⟩ := C30_missing_changes_nothing c.states c.upperChols loadings controlParams measSd' measurements controls c.logWeights qr i hm
      refine ⟨?_, ?_, ?_, ?_, ?_, ?_⟩
      · rw [a1, b1]
      · rw [a3, b3]
      · rw [a4, b4]
      · intro e; rw [(a5 e).1, (b5 e).1]
      · intro e; rw [(a5 e).2, (b5 e).2]
      · intro e; rw [a2, b2]
    | some y =>
      have hc : ∀ e, 0 < residualVariance ((c.upperChols i e)ᵀ * c.upperChols i e) loadings measSd := fun e => variance_pos_of_gram _ hsd
      have hd : ∀ e, 0 < residualVariance ((c.upperChols i e)ᵀ * c.upperChols i e) loadings measSd' := fun e => variance_pos_of_gram _ (ne_zero_abs habs hsd)
      obtain ⟨a1, a2, _, a4, a5, a6⟩ := C28_update_is_kalman_update c.states c.upperChols loadings controlParams measSd measurements controls c.logWeights hqr i y hm hc
      obtain ⟨b1, b2, _, b4, b5, b6⟩ := C28_update_is_kalman_update c.states c.upperChols loadings controlParams measSd' measurements controls c.logWeights hqr i y hm hd
      simp only [residualVariance_abs habs, posteriorMean_abs habs, posteriorCov_abs habs] at b1 b2 b4 b5 b6
      have hll : r.loglikes i = r'.loglikes i := by
        rcases Nat.lt_or_ge nMix 2 with hlt | hge
        · rcases Nat.eq_zero_or_pos nMix with h0 | hpos
          · subst h0
            simp [r, r', kalmanUpdate]
          · have e1 : nMix = 1 := by omega
            subst e1
            exact (a5 rfl 0).1.trans (b5 rfl 0).1.symm
        · exact (a6 hge).1.trans (b6 hge).1.symm
      refine ⟨funext fun e => (a1 e).trans (b1 e).symm, ?_, hll, fun e => (a4 e).1.trans (b4 e).1.symm, fun e => (a4 e).2.trans (b4 e).2.symm, fun e => (a2 e).trans (b2 e).symm⟩
      rcases Nat.lt_or_ge nMix 2 with hlt | hge
      · rcases Nat.eq_zero_or_pos nMix with h0 | hpos
        · subst h0
          funext e
          exact e.elim0
        · have e1 : nMix = 1 := by omega
          subst e1
          exact (a5 rfl 0).2.trans (b5 rfl 0).2.symm
      · funext e
        have q1 := (a6 hge).2 e
        have q2 := (b6 hge).2 e
        simp only [r, r'] at hll ⊢
        rw [q1, q2, hll]
  exact ⟨funext fun i => (key i).1, funext fun i => (key i).2.1, funext fun i => (key i).2.2.1, funext fun i => funext (key i).2.2.2.1,
    funext fun i => funext (key i).2.2.2.2.1, fun i => (key i).2.2.2.2.2⟩

/-- The same update, possibly with another sign of the standard deviation. -/
def SameArgs (a a' : LoopArgs nObs n nC) : Prop := ∃ sd, |sd| = |a.measSd| ∧ a' = { a with measSd := sd }

/-- The same quantities, possibly with other signs of the standard deviations of shocks. -/
def SameFixed (fixed fixed' : ScanFixed nObs nT n nObserved nC θ) : Prop := ∃ sds, (∀ t f, |sds t f| = |fixed.shockSds t f|) ∧ fixed' = { fixed with shockSds := sds }

theorem SameFixed.regular {fixed fixed' : ScanFixed nObs nT n nObserved nC θ} (h : SameFixed fixed fixed') {kappa : ℝ} (hf : RegularFixed fixed kappa) : RegularFixed fixed' kappa := by
  obtain ⟨sds, hs, rfl⟩ := h
  refine ⟨hf.nonneg, hf.scaling, hf.weights, fun t f => ?_⟩
  rcases hf.noise t f with h | h
  · exact Or.inl (ne_zero_abs (hs _ _) h)
  · exact Or.inr ⟨h.func, h.now, h.next⟩

theorem CarryEquiv.trans {b c d : Carry nObs nMix n} (h : CarryEquiv b c) (h' : CarryEquiv c d) : CarryEquiv b d :=
  ⟨h.states.trans h'.states, h.logWeights.trans h'.logWeights, h.left, h'.right, fun i e => (h.gram i e).trans (h'.gram i e)⟩

theorem scanUpdate_signs {qr : QR} (hqr : ValidQR qr) {c d : Carry nObs nMix n} (h : CarryEquiv c d) {fixed fixed' : ScanFixed nObs nT n nObserved nC θ} (hf : SameFixed fixed fixed') {a a' : LoopArgs nObs n nC}
    (ha : SameArgs a a') (hsd : a.measSd ≠ 0) : CarryEquiv (scanUpdate qr fixed c a).1 (scanUpdate qr fixed' d a').1 ∧ stepOut qr fixed c a = stepOut qr fixed' d a' := by
  obtain ⟨h1, h2⟩ := scanUpdate_equiv hqr hqr h fixed hsd
  obtain ⟨sd, habs, rfl⟩ := ha
  obtain ⟨sds, hs, rfl⟩ := hf
  set a' : LoopArgs nObs n nC := { a with measSd := sd } with ha'
  have hsd' : a'.measSd ≠ 0 := ne_zero_abs habs hsd
  obtain ⟨e1, e2⟩ := scanUpdate_eq qr fixed d a
  obtain ⟨f1, f2⟩ := scanUpdate_eq qr { fixed with shockSds := sds } d a'
  obtain ⟨u1, u2, u3, u4, u5, u6⟩ := kalmanUpdate_sign hqr d a.loadings a.controlParams hsd habs a.measurements (fixed.controls (jaxIndex (nT + 1) a.period))
  have f1' : (scanUpdate qr { fixed with shockSds := sds } d a').2 =
      kalmanUpdate qr d.states d.upperChols a.loadings a.controlParams sd a.measurements (fixed.controls (jaxIndex (nT + 1) a.period)) d.logWeights := f1
  rw [← e1, ← f1'] at u1 u2 u3 u4 u5 u6
  have r1 : ∀ i e, RegularUpper ((scanUpdate qr fixed d a).2.upperChols i e) := fun i e => by
    rw [e1]; exact update_regular hqr _ _ _ _ hsd _ _ _ i e (h.right i e)
  have r2 : ∀ i e, RegularUpper ((scanUpdate qr { fixed with shockSds := sds } d a').2.upperChols i e) := fun i e => by
    rw [f1']; exact update_regular hqr _ _ _ _ (ne_zero_abs habs hsd) _ _ _ i e (h.right i e)
  have hc : CarryEquiv (scanUpdate qr fixed d a).1 (scanUpdate qr { fixed with shockSds := sds } d a').1 := by
    rw [e2, f2]
    have hm : a'.isMeasurement = a.isMeasurement := rfl
    rw [hm]
    by_cases ha : a.isMeasurement
    · rw [if_pos ha, if_pos ha]
      exact ⟨u1, u2, r1, r2, u6⟩
    · rw [if_neg ha, if_neg ha]
      exact ⟨rfl, u2, h.right, h.right, fun _ _ => rfl⟩
  refine ⟨h1.trans hc, h2.trans ?_⟩
  simp only [stepOut, u2, u3, u4, u5, hc.states]

theorem predict_signs {qr : QR} (hqr : ValidQR qr) {c d : Carry nObs nMix n} (h : CarryEquiv c d) {fixed fixed' : ScanFixed nObs nT n nObserved nC θ} (hs : SameFixed fixed fixed') {kappa : ℝ} (hf : RegularFixed fixed kappa)
    (t : Int) : CarryEquiv (predictCarry qr fixed c t) (predictCarry qr fixed' d t) := by
  refine (predict_equiv hqr hqr h hf t).trans ?_
  have hf' := hs.regular hf
  have hw : ∀ s, 0 ≤ fixed.sigmaWeights s := by
    intro s; rw [hf.weights]; exact weights_nonneg hf.nonneg s
  have r1 := predictCarry_regular hqr hf t h.right
  have r2 := predictCarry_regular hqr hf' t h.right
  obtain ⟨sds, hs, rfl⟩ := hs
  refine ⟨rfl, rfl, r1, r2, fun i e => ?_⟩
  ext f g
  simp only [predictCarry]
  rw [predict_gram hqr hw, predict_gram hqr hw]
  congr 1
  rw [diagonal_apply, diagonal_apply]
  split_ifs with hfg
  · rw [← sq_abs, ← hs, sq_abs]
  · rfl

theorem step_signs {qr : QR} (hqr : ValidQR qr) {c d : Carry nObs nMix n} (h : CarryEquiv c d) {fixed fixed' : ScanFixed nObs nT n nObserved nC θ} (hs : SameFixed fixed fixed') {kappa : ℝ} (hf : RegularFixed fixed kappa)
    {a a' : LoopArgs nObs n nC} (ha : SameArgs a a') (hsd : a.measSd ≠ 0) : CarryEquiv (step qr fixed c a) (step qr fixed' d a') := by
  have h1 := (scanUpdate_signs hqr h hs ha hsd).1
  obtain ⟨sd, habs, rfl⟩ := ha
  unfold step
  dsimp only
  split
  · exact predict_signs hqr h1 hs hf _
  · exact h1

theorem outs_signs {qr : QR} (hqr : ValidQR qr) {fixed fixed' : ScanFixed nObs nT n nObserved nC θ} (hs : SameFixed fixed fixed') {kappa : ℝ} (hf : RegularFixed fixed kappa) {args args' : List (LoopArgs nObs n nC)}
    (h : List.Forall₂ SameArgs args args') (ha : ∀ a ∈ args, a.measSd ≠ 0) : ∀ {c d : Carry nObs nMix n}, CarryEquiv c d → outs qr fixed c args = outs qr fixed' d args' := by
  induction h with
  | nil => intro c d _; rfl
  | cons h1 _ ih =>
    intro c d hcd
    rw [outs, outs, ih (fun a ha' => ha a (by simp [ha'])) (step_signs hqr hcd hs hf h1 (ha _ (by simp))), (scanUpdate_signs hqr hcd hs h1 (ha _ (by simp))).2]

theorem logLikelihood_congr {qr : QR} {fixed fixed' : ScanFixed nObs nT n nObserved nC θ} (clip : ClipOptions) {initial initial' c d : Carry nObs nMix n} {args args' : List (LoopArgs nObs n nC)} {xs ys : List (StepOut nObs nMix n)}
    (h : scan qr fixed initial args = .ok (c, xs)) (h' : scan qr fixed' initial' args' = .ok (d, ys)) (e : xs = ys) : logLikelihood qr fixed clip initial args = logLikelihood qr fixed' clip initial' args' := by
  subst e
  unfold logLikelihood
  rw [h, h']
  rfl

theorem logLikelihood_signs {qr : QR} (hqr : ValidQR qr) {fixed fixed' : ScanFixed nObs nT n nObserved nC θ} (hs : SameFixed fixed fixed') {kappa : ℝ} (hf : RegularFixed fixed kappa) (clip : ClipOptions)
    {initial initial' : Carry nObs nMix n} (hi : CarryEquiv initial initial') {args args' : List (LoopArgs nObs n nC)} (h : List.Forall₂ SameArgs args args') (ha : ∀ a ∈ args, a.measSd ≠ 0) :
    logLikelihood qr fixed clip initial args = logLikelihood qr fixed' clip initial' args' := by
  have ho := outs_signs hqr hs hf h ha hi
  by_cases hm : nMix = 1 ∨ nObserved = 0 ∨ nObs = 0
  · exact logLikelihood_congr clip (scan_ok hm qr fixed initial args) (scan_ok hm qr fixed' initial' args') ho
  · cases h with
    | nil => exact logLikelihood_congr clip (c := initial) (d := initial') (xs := []) rfl rfl rfl
    | cons _ _ => unfold logLikelihood; rw [scan_error hm, scan_error hm]

end Skill
