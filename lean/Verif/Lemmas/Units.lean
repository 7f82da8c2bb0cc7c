import Verif.Props.Filter
/- Measurements in other units: what the filter does with them. -/
namespace Skill
open Matrix Spec
variable {nObs nT nMix n nObserved nC : ℕ} {θ : Type}

/-- `m'` is the measurement `m` in other units. -/
structure Rescaled (a b : ℝ) (m m' : Measurement n) : Prop where
  h : m'.h = a • m.h
  sd : m'.sd = |a| * m.sd
  y : m'.y = m.y.map (fun y => a * y + b)
  c : m.y.isSome → m'.c = a * m.c + b

theorem residualVariance_rescaled (P : Matrix (Fin n) (Fin n) ℝ) (h : Fin n → ℝ) (a sd : ℝ) : residualVariance P (a • h) (|a| * sd) = a ^ 2 * residualVariance P h sd := by
  unfold residualVariance
  rw [mulVec_smul, smul_dotProduct, dotProduct_smul, smul_eq_mul, smul_eq_mul, mul_pow, sq_abs]
  ring

theorem normalDensity_rescaled {s : ℝ} (hs : 0 < s) {a : ℝ} (ha : a ≠ 0) (v : ℝ) : normalDensity (a ^ 2 * s) (a * v) = normalDensity s v / |a| := by
  have ha2 : 0 < a ^ 2 := by positivity
  have e1 : √(2 * Real.pi * (a ^ 2 * s)) = |a| * √(2 * Real.pi * s) := by
    rw [← Real.sqrt_sq_eq_abs, ← Real.sqrt_mul ha2.le]
    congr 1
    ring
  have e2 : -(a * v) ^ 2 / (2 * (a ^ 2 * s)) = -v ^ 2 / (2 * s) := by
    field_simp
  unfold normalDensity ProbabilityTheory.gaussianPDFReal
  rw [Real.coe_toNNReal _ hs.le, Real.coe_toNNReal _ (mul_pos ha2 hs).le, sub_zero, sub_zero, e1, e2, mul_inv]
  ring

theorem residual_rescaled {a b : ℝ} {m m' : Measurement n} (h : Rescaled a b m m') (x : Belief nMix n) {y : ℝ} (hy : m.y = some y) (e : Fin nMix) : x.residual m' (a * y + b) e = a * x.residual m y e := by
  unfold Belief.residual
  rw [h.h, h.c (by rw [hy]; rfl), dotProduct_smul, smul_eq_mul]
  ring

theorem density_rescaled {a b : ℝ} (ha : a ≠ 0) {m m' : Measurement n} (h : Rescaled a b m m') {x : Belief nMix n} (hx : ∀ e, (x.cov e).PosSemidef) (hsd : m.sd ≠ 0) {y : ℝ} (hy : m.y = some y) (e : Fin nMix) :
    x.density m' (a * y + b) e = x.density m y e / |a| := by
  unfold Belief.density
  rw [residual_rescaled h x hy, h.h, h.sd, residualVariance_rescaled, normalDensity_rescaled (residualVariance_pos (hx e) m.h hsd) ha]

theorem likelihood_rescaled {a b : ℝ} (ha : a ≠ 0) {m m' : Measurement n} (h : Rescaled a b m m') {x : Belief nMix n} (hx : ∀ e, (x.cov e).PosSemidef) (hsd : m.sd ≠ 0) {y : ℝ} (hy : m.y = some y) :
    x.likelihood m' (a * y + b) = x.likelihood m y / |a| := by
  unfold Belief.likelihood
  rw [Finset.sum_div]
  refine Finset.sum_congr rfl (fun e _ => ?_)
  rw [density_rescaled ha h hx hsd hy, mul_div_assoc]

/-- Beliefs do not depend on the units of the measurement. -/
theorem update_rescaled {a b : ℝ} (ha : a ≠ 0) {m m' : Measurement n} (h : Rescaled a b m m') {x : Belief nMix n} (hx : ∀ e, (x.cov e).PosSemidef) (hsd : m.sd ≠ 0) : x.update m' = x.update m := by
  cases hy : m.y with
  | none =>
    have hy' : m'.y = none := by rw [h.y, hy]; rfl
    unfold Belief.update
    rw [hy, hy']
  | some y =>
    have hy' : m'.y = some (a * y + b) := by rw [h.y, hy]; rfl
    have hs := fun e => residualVariance_pos (hx e) m.h hsd
    have ha' : |a| ≠ 0 := abs_ne_zero.mpr ha
    unfold Belief.update
    rw [hy, hy']
    dsimp only
    rw [Belief.mk.injEq]
    refine ⟨?_, ?_, ?_⟩
    · funext e
      have := hs e
      rw [residual_rescaled h x hy, h.h, h.sd]
      unfold posteriorMean
      rw [residualVariance_rescaled, mulVec_smul, smul_smul]
      congr 2
      field_simp
    · funext e
      have := hs e
      rw [h.h, h.sd]
      unfold posteriorCov
      rw [residualVariance_rescaled, vecMulVec_smul, smul_vecMulVec, mul_smul_comm, mul_smul_comm, smul_mul_assoc, smul_mul_assoc, smul_smul, smul_smul]
      congr 2
      field_simp
    · funext e
      rw [density_rescaled ha h hx hsd hy, likelihood_rescaled ha h hx hsd hy]
      congr 1
      field_simp

/-- The log likelihood of a measurement shifts by a constant. -/
theorem contribution_rescaled {a b : ℝ} (ha : a ≠ 0) {m m' : Measurement n} (h : Rescaled a b m m') {x : Belief nMix n} (hx : x.Proper) (hsd : m.sd ≠ 0) :
    x.contribution m' = x.contribution m - if m.y.isSome then Real.log |a| else 0 := by
  cases hy : m.y with
  | none =>
    have hy' : m'.y = none := by rw [h.y, hy]; rfl
    unfold Belief.contribution
    rw [hy, hy']
    simp
  | some y =>
    have hy' : m'.y = some (a * y + b) := by rw [h.y, hy]; rfl
    unfold Belief.contribution
    rw [hy, hy']
    dsimp only
    rw [likelihood_rescaled ha h hx.cov hsd hy, Real.log_div (likelihood_pos hx hsd y).ne' (abs_ne_zero.mpr ha)]
    simp

/-! ### the filter -/

/-- The arguments of one iteration in two runs of the filter. -/
structure ArgsRescaled (fixed fixed' : ScanFixed nObs nT n nObserved nC θ) (s : ℝ) (b : Fin nObs → ℝ) (x x' : LoopArgs nObs n nC) : Prop where
  period : x'.period = x.period
  isMeasurement : x'.isMeasurement = x.isMeasurement
  isPredict : x'.isPredict = x.isPredict
  measurement : ∀ i, Rescaled s (b i) (x.measurement fixed i) (x'.measurement fixed' i)

theorem scanUpdate_rescaled {qr : QR} (hqr : ValidQR qr) {fixed fixed' : ScanFixed nObs nT n nObserved nC θ} {c d : Carry nObs nMix n} (h : CarryEquiv c d) (hw : WeightsOk c.logWeights) {x x' : LoopArgs nObs n nC} {s : ℝ}
    {b : Fin nObs → ℝ} (hs : s ≠ 0) (hx : ArgsRescaled fixed fixed' s b x x') (hsd : x.measSd ≠ 0) :
    CarryEquiv (scanUpdate qr fixed c x).1 (scanUpdate qr fixed' d x').1 ∧
      ∀ i, (scanUpdate qr fixed' d x').2.loglikes i = (scanUpdate qr fixed c x).2.loglikes i - if (x.measurements i).isSome then Real.log |s| else 0 := by
  rcases isEmpty_or_nonempty (Fin nObs) with hemp | ⟨⟨i0⟩⟩
  · refine ⟨⟨?_, ?_, fun i => hemp.elim i, fun i => hemp.elim i, fun i => hemp.elim i⟩, fun i => hemp.elim i⟩ <;> exact funext (fun i => hemp.elim i)
  have hsd' : x'.measSd ≠ 0 := by
    have := (hx.measurement i0).sd
    simp only [LoopArgs.measurement] at this
    rw [this]
    exact mul_ne_zero (abs_ne_zero.mpr hs) hsd
  have hb : ∀ i, c.belief i = d.belief i := fun i => by
    unfold Carry.belief beliefOf
    rw [Belief.mk.injEq]
    exact ⟨by rw [h.states], funext (fun e => h.gram i e), by rw [h.logWeights]⟩
  have hw' : WeightsOk d.logWeights := h.logWeights ▸ hw
  have k := fun i => scanUpdate_refines hqr fixed hw hsd i
  have k' := fun i => scanUpdate_refines hqr fixed' hw' hsd' i
  have hp := fun i => Carry.belief_proper hw i
  have hbel : ∀ i, (scanUpdate qr fixed c x).2.belief i = (scanUpdate qr fixed' d x').2.belief i := fun i => by
    rw [(k i).1, (k' i).1, ← hb i, update_rescaled hs (hx.measurement i) (hp i).cov hsd]
  refine ⟨?_, fun i => ?_⟩
  · obtain ⟨e1, e2⟩ := scanUpdate_eq qr fixed c x
    obtain ⟨f1, f2⟩ := scanUpdate_eq qr fixed' d x'
    have r1 : ∀ i e, RegularUpper ((scanUpdate qr fixed c x).2.upperChols i e) := fun i e => by
      rw [e1]; exact update_regular hqr _ _ _ _ hsd _ _ _ i e (h.left i e)
    have r2 : ∀ i e, RegularUpper ((scanUpdate qr fixed' d x').2.upperChols i e) := fun i e => by
      rw [f1]; exact update_regular hqr _ _ _ _ hsd' _ _ _ i e (h.right i e)
    have hlw : (scanUpdate qr fixed c x).2.logWeights = (scanUpdate qr fixed' d x').2.logWeights := funext (fun i => congrArg Belief.logWeight (hbel i))
    rw [e2, f2, hx.isMeasurement]
    split
    · exact ⟨funext (fun i => congrArg Belief.mean (hbel i)), hlw, r1, r2, fun i e => congrFun (congrArg Belief.cov (hbel i)) e⟩
    · exact ⟨h.states, hlw, h.left, h.right, h.gram⟩
  · rw [(k i).2, (k' i).2, ← hb i, contribution_rescaled hs (hx.measurement i) (hp i) hsd]
    rfl

/-- Two runs of the filter with data in different units: the contributions shift by a constant, the states are the same. -/
theorem outs_rescaled {qr : QR} (hqr : ValidQR qr) {fixed : ScanFixed nObs nT n nObserved nC θ} {kappa : ℝ} (hf : RegularFixed fixed kappa) (con : Fin (nT + 2) → Fin nObs → Fin nC → ℝ) {args : List (LoopArgs nObs n nC)}
    (ha : ∀ x ∈ args, x.measSd ≠ 0) : ∀ {args' : List (LoopArgs nObs n nC)} {s : ℕ → ℝ}, args'.length = args.length →
    (∀ (k : ℕ) x x', args[k]? = some x → args'[k]? = some x' → s k ≠ 0 ∧ ∃ b, ArgsRescaled fixed { fixed with controls := con } (s k) b x x') →
    ∀ {c d : Carry nObs nMix n}, CarryEquiv c d → WeightsOk c.logWeights → ∀ (k : ℕ) x o o', args[k]? = some x → (outs qr fixed c args)[k]? = some o →
      (outs qr { fixed with controls := con } d args')[k]? = some o' →
      (∀ i, o'.loglikes i = o.loglikes i - if (x.measurements i).isSome then Real.log |s k| else 0) ∧ o'.states = o.states ∧ o'.logWeights = o.logWeights := by
  induction args with
  | nil => intro args' s _ _ c d _ _ k x o o' h; simp at h
  | cons x0 xs ih =>
    intro args' s hlen hx c d hcd hw k x o o' hk ho ho'
    cases args' with
    | nil => cases hlen
    | cons x0' xs' =>
      obtain ⟨hs0, b, hb⟩ := hx 0 x0 x0' rfl rfl
      obtain ⟨k1, k2⟩ := scanUpdate_rescaled hqr hcd hw hs0 hb (ha x0 (by simp))
      simp only [outs] at ho ho'
      cases k with
      | zero =>
        simp only [List.getElem?_cons_zero, Option.some.injEq] at hk ho ho'
        subst hk ho ho'
        refine ⟨fun i => k2 i, k1.states.symm, ?_⟩
        have := k1.logWeights
        rw [scanUpdate_logWeights, scanUpdate_logWeights] at this
        exact this.symm
      | succ k =>
        simp only [List.getElem?_cons_succ] at hk ho ho'
        refine ih (fun x hx => ha x (by simp [hx])) (s := fun k => s (k + 1)) (by simpa using hlen) (fun k x x' h1 h2 => hx (k + 1) x x' h1 h2) (c := step qr fixed c x0) (d := step qr { fixed with controls := con } d x0') ?_
          (step_weights hqr fixed hw (ha x0 (by simp))) k x o o' hk ho ho'
        unfold step
        rw [hb.isPredict, hb.period]
        split
        · exact predict_equiv hqr hqr k1 hf _
        · exact k1

end Skill
