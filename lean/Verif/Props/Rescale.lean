import Verif.Props.ExactLikelihood
/-
C45: location and scale of the latent factors are not identified in linear models.
-/
namespace Skill
open Matrix Spec
variable {nObs nMix n nT nObserved nC : ℕ} {θ : Type}

/-- The factors of the second belief are s * x + τ where x are the factors of the first belief. -/
structure Spec.Belief.Moved (s τ : Fin n → ℝ) (b b' : Belief nMix n) : Prop where
  mean : ∀ e f, b'.mean e f = s f * b.mean e f + τ f
  cov : ∀ e f g, b'.cov e f g = s f * b.cov e f g * s g
  logWeight : b'.logWeight = b.logWeight

/-- A measurement in terms of the factors s * x + τ. -/
structure Spec.Measurement.Moved (s τ : Fin n → ℝ) (m m' : Measurement n) : Prop where
  h : ∀ f, m'.h f = m.h f / s f
  c : m'.c = m.c - ∑ f, m'.h f * τ f
  sd : m'.sd = m.sd
  y : m'.y = m.y

section
variable {s τ : Fin n → ℝ} (hs : ∀ f, s f ≠ 0) {b b' : Belief nMix n} (hb : b.Moved s τ b') {m m' : Measurement n} (hm : m.Moved s τ m')
include hs hb hm

theorem moved_mulVec (e : Fin nMix) (f : Fin n) : (b'.cov e *ᵥ m'.h) f = s f * (b.cov e *ᵥ m.h) f := by
  simp only [mulVec, dotProduct, Finset.mul_sum]
  refine Finset.sum_congr rfl (fun g _ => ?_)
  rw [hb.cov, hm.h]
  have := hs g
  field_simp

theorem moved_variance (e : Fin nMix) : residualVariance (b'.cov e) m'.h m'.sd = residualVariance (b.cov e) m.h m.sd := by
  simp only [residualVariance, dotProduct, hm.sd]
  congr 1
  refine Finset.sum_congr rfl (fun f _ => ?_)
  rw [moved_mulVec hs hb hm, hm.h]
  have := hs f
  field_simp

theorem moved_residual (y : ℝ) (e : Fin nMix) : b'.residual m' y e = b.residual m y e := by
  simp only [Belief.residual, dotProduct, hm.c]
  have : ∑ f, b'.mean e f * m'.h f = ∑ f, b.mean e f * m.h f + ∑ f, m'.h f * τ f := by
    rw [← Finset.sum_add_distrib]
    refine Finset.sum_congr rfl (fun f _ => ?_)
    rw [hb.mean, hm.h]
    have := hs f
    field_simp
  rw [this]
  ring

theorem moved_density (y : ℝ) (e : Fin nMix) : b'.density m' y e = b.density m y e := by
  rw [Belief.density, Belief.density, moved_variance hs hb hm, moved_residual hs hb hm]

theorem moved_likelihood (y : ℝ) : b'.likelihood m' y = b.likelihood m y := by
  simp only [Belief.likelihood, moved_density hs hb hm, hb.logWeight]

theorem moved_contribution : b'.contribution m' = b.contribution m := by
  simp only [Belief.contribution, hm.y]
  cases m.y with
  | none => rfl
  | some y => simp only [moved_likelihood hs hb hm]

theorem moved_update (hP : ∀ e, (b.cov e).PosSemidef) (hP' : ∀ e, (b'.cov e).PosSemidef) : (b.update m).Moved s τ (b'.update m') := by
  simp only [Belief.update, hm.y]
  cases m.y with
  | none => exact hb
  | some y =>
    refine ⟨fun e f => ?_, fun e f g => ?_, ?_⟩
    · simp only [posteriorMean, Pi.add_apply, Pi.smul_apply, smul_eq_mul]
      rw [moved_variance hs hb hm, moved_residual hs hb hm, moved_mulVec hs hb hm, hb.mean]
      ring
    · show posteriorCov (b'.cov e) m'.h m'.sd f g = s f * posteriorCov (b.cov e) m.h m.sd f g * s g
      rw [posteriorCov_apply (hP' e), posteriorCov_apply (hP e), moved_variance hs hb hm, moved_mulVec hs hb hm, moved_mulVec hs hb hm, hb.cov]
      ring
    · simp only [moved_likelihood hs hb hm, moved_density hs hb hm, hb.logWeight]

end

/-- The second model is the first one, written in terms of the factors s * x + τ. -/
structure Spec.Moved (s τ : Fin n → ℝ) (fixed fixed' : ScanFixed nObs nT n nObserved nC θ) (args args' : List (LoopArgs nObs n nC)) : Prop where
  /-- The transition of s * x + τ is s * x' + τ where x' is the transition of x. -/
  transition : ∀ i t x f, unanchoredTransition fixed' i t (fun g => s g * x g + τ g) f = s f * unanchoredTransition fixed i t x f + τ f
  shockSds : ∀ t f, fixed'.shockSds t f ^ 2 = (s f * fixed.shockSds t f) ^ 2
  /-- The same schedule and data; loadings are divided by s, the intercepts absorb τ. -/
  args : List.Forall₂ (fun a a' => a'.period = a.period ∧ a'.isMeasurement = a.isMeasurement ∧ a'.isPredict = a.isPredict ∧
    ∀ i, (a.measurement fixed i).Moved s τ (a'.measurement fixed' i)) args args'

theorem moved_linPart {s τ : Fin n → ℝ} {g g' : (Fin n → ℝ) → Fin n → ℝ}
    (hg : ∃ (B : Matrix (Fin n) (Fin n) ℝ) (d : Fin n → ℝ), g = fun x => B *ᵥ x + d)
    (hg' : ∃ (B : Matrix (Fin n) (Fin n) ℝ) (d : Fin n → ℝ), g' = fun x => B *ᵥ x + d)
    (h : ∀ x f, g' (fun k => s k * x k + τ k) f = s f * g x f + τ f) (f k : Fin n) : linPart g' f k * s k = s f * linPart g f k := by
  obtain ⟨B, d, rfl⟩ := hg
  obtain ⟨B', d', rfl⟩ := hg'
  rw [linPart_affine, linPart_affine]
  have h0 := h 0 f
  have h1 := h (Pi.single k 1) f
  have e0 : (fun j => s j * (0 : Fin n → ℝ) j + τ j) = τ := by funext j; simp
  have e1 : (fun j => s j * (Pi.single k 1 : Fin n → ℝ) j + τ j) = Pi.single k (s k) + τ := by
    funext j
    by_cases hj : j = k
    · subst hj; simp
    · simp [hj]
  rw [e0] at h0
  rw [e1] at h1
  simp only [mulVec_zero, Pi.add_apply, mulVec_add, mulVec_single_one] at h0 h1
  have e2 : (B' *ᵥ Pi.single k (s k)) f = B' f k * s k := by rw [mulVec_single]; simp
  rw [e2] at h1
  simp only [Matrix.col_apply] at h1
  simp only [Pi.zero_apply] at h0
  linear_combination h1 - h0

theorem moved_transition_cov {s : Fin n → ℝ} {B B' P P' : Matrix (Fin n) (Fin n) ℝ} {q q' : Fin n → ℝ}
    (hB : ∀ f k, B' f k * s k = s f * B f k) (hP : ∀ f g, P' f g = s f * P f g * s g) (hq : ∀ f, q' f ^ 2 = (s f * q f) ^ 2) (f g : Fin n) :
    (B' * P' * B'ᵀ + Matrix.diagonal (fun f => q' f ^ 2)) f g = s f * (B * P * Bᵀ + Matrix.diagonal (fun f => q f ^ 2)) f g * s g := by
  have e1 : (B' * P' * B'ᵀ) f g = s f * (B * P * Bᵀ) f g * s g := by
    simp only [Matrix.mul_apply, transpose_apply, Finset.sum_mul, Finset.mul_sum]
    refine Finset.sum_congr rfl (fun k _ => Finset.sum_congr rfl (fun j _ => ?_))
    rw [hP]
    calc B' f j * (s j * P j k * s k) * B' g k = (B' f j * s j) * P j k * (B' g k * s k) := by ring
      _ = _ := by rw [hB, hB]; ring
  rw [Matrix.add_apply, Matrix.add_apply, e1]
  by_cases hfg : f = g
  · subst hfg
    simp only [diagonal_apply_eq, hq]
    ring
  · simp only [diagonal_apply_ne _ hfg]
    ring

/-- The updates of both models have the same contributions. -/
theorem moved_loglikes {qr : QR} (hqr : ValidQR qr) {fixed fixed' : ScanFixed nObs nT n nObserved nC θ} {kappa kappa' : ℝ}
    (hk : SigmaOptions fixed kappa) (hk' : SigmaOptions fixed' kappa')
    (hlin : AffineTransitions fixed) (hlin' : AffineTransitions fixed') (h : nMix = 1 ∨ nObserved = 0) {s τ : Fin n → ℝ} (hs : ∀ f, s f ≠ 0)
    {args args' : List (LoopArgs nObs n nC)} (hm : Spec.Moved s τ fixed fixed' args args') (hsd : ∀ a ∈ args, a.measSd ≠ 0) :
    ∀ {c c' : Carry nObs nMix n}, WeightsOk c.logWeights → WeightsOk c'.logWeights → (∀ i, (c.belief i).Moved s τ (c'.belief i)) →
    (outs qr fixed' c' args').map (fun o => o.loglikes) = (outs qr fixed c args).map (fun o => o.loglikes) := by
  obtain ⟨htr, hsh, hargs⟩ := hm
  induction hargs with
  | nil => intro c c' _ _ _; rfl
  | @cons a a' as as' ha has ih =>
    intro c c' hw hw' hb
    obtain ⟨hp, him, hip, hmeas⟩ := ha
    have hsda := hsd a (by simp)
    have hc : ∀ i : Fin nObs, a'.measSd ≠ 0 := fun i => by
      have : a'.measSd = a.measSd := (hmeas i).sd
      rw [this]; exact hsda
    have hsda' : nObs = 0 ∨ a'.measSd ≠ 0 := by
      rcases Nat.eq_zero_or_pos nObs with h0 | h0
      · exact Or.inl h0
      · exact Or.inr (hc ⟨0, h0⟩)
    rcases hsda' with h0 | hsda'
    · subst h0
      have hl : (outs qr fixed' c' (a' :: as')).length = (outs qr fixed c (a :: as)).length := by
        rw [outs_length, outs_length, List.length_cons, List.length_cons, has.length_eq]
      refine List.ext_getElem (by simpa using hl) (fun k _ _ => ?_)
      funext i
      exact i.elim0
    · have h1 := fun i => scanUpdate_refines hqr fixed hw hsda i
      have h2 := fun i => scanUpdate_refines hqr fixed' hw' hsda' i
      have hloglikes : (stepOut qr fixed' c' a').loglikes = (stepOut qr fixed c a).loglikes := by
        funext i
        show (scanUpdate qr fixed' c' a').2.loglikes i = (scanUpdate qr fixed c a).2.loglikes i
        rw [(h1 i).2, (h2 i).2]
        exact moved_contribution hs (hb i) (hmeas i)
      have hupd : ∀ i, ((scanUpdate qr fixed c a).2.belief i).Moved s τ ((scanUpdate qr fixed' c' a').2.belief i) := by
        intro i
        rw [(h1 i).1, (h2 i).1]
        exact moved_update hs (hb i) (hmeas i) (fun e => posSemidef_gram _) (fun e => posSemidef_gram _)
      have hupd1 : ∀ i, ((scanUpdate qr fixed c a).1.belief i).Moved s τ ((scanUpdate qr fixed' c' a').1.belief i) := by
        intro i
        rw [(scanUpdate_eq qr fixed c a).2, (scanUpdate_eq qr fixed' c' a').2, him]
        cases a.isMeasurement with
        | true => exact hupd i
        | false => exact ⟨(hb i).mean, (hb i).cov, (hupd i).logWeight⟩
      have hstep : ∀ i, ((step qr fixed c a).belief i).Moved s τ ((step qr fixed' c' a').belief i) := by
        intro i
        unfold step
        rw [hip]
        cases a.isPredict with
        | false => exact hupd1 i
        | true =>
          refine ⟨fun e f => ?_, fun e f g => ?_, (hupd1 i).logWeight⟩
          · show (predictCarry qr fixed' (scanUpdate qr fixed' c' a').1 a'.period).states i e f =
              s f * (predictCarry qr fixed (scanUpdate qr fixed c a).1 a.period).states i e f + τ f
            rw [(predict_affine hqr hk' hlin' h _ _ i e).1, (predict_affine hqr hk hlin h _ _ i e).1, hp, ← htr]
            congr 1
            funext g
            exact (hupd1 i).mean e g
          · show ((((predictCarry qr fixed' (scanUpdate qr fixed' c' a').1 a'.period).upperChols i e)ᵀ *
                (predictCarry qr fixed' (scanUpdate qr fixed' c' a').1 a'.period).upperChols i e : Matrix (Fin n) (Fin n) ℝ)) f g =
              s f * (((predictCarry qr fixed (scanUpdate qr fixed c a).1 a.period).upperChols i e)ᵀ *
                (predictCarry qr fixed (scanUpdate qr fixed c a).1 a.period).upperChols i e) f g * s g
            rw [(predict_affine hqr hk' hlin' h _ _ i e).2, (predict_affine hqr hk hlin h _ _ i e).2, hp]
            refine moved_transition_cov ?_ ((hupd1 i).cov e) (hsh _) f g
            obtain ⟨A, b, hA⟩ := hlin (jaxIndex nT a.period)
            obtain ⟨A', b', hA'⟩ := hlin' (jaxIndex nT a.period)
            obtain ⟨d, hd⟩ := unanchored_affine i a.period hA
            obtain ⟨d', hd'⟩ := unanchored_affine i a.period hA'
            exact moved_linPart ⟨_, d, hd⟩ ⟨_, d', hd'⟩ (htr i a.period)
      rw [outs, outs, List.map_cons, List.map_cons, hloglikes]
      congr 1
      exact ih (fun a0 h0 => hsd a0 (by simp [h0])) (step_weights hqr fixed hw hsda) (step_weights hqr fixed' hw' hsda') hstep

/-- The likelihood evaluations of both models agree. -/
theorem moved_logLikelihood {qr : QR} (hqr : ValidQR qr) {fixed fixed' : ScanFixed nObs nT n nObserved nC θ} {kappa kappa' : ℝ}
    (hk : SigmaOptions fixed kappa) (hk' : SigmaOptions fixed' kappa')
    (hlin : AffineTransitions fixed) (hlin' : AffineTransitions fixed') (h : nMix = 1 ∨ nObserved = 0) {s τ : Fin n → ℝ} (hs : ∀ f, s f ≠ 0)
    {args args' : List (LoopArgs nObs n nC)} (hm : Spec.Moved s τ fixed fixed' args args') (hsd : ∀ a ∈ args, a.measSd ≠ 0)
    {c c' : Carry nObs nMix n} (hw : WeightsOk c.logWeights) (hb : ∀ i, (c.belief i).Moved s τ (c'.belief i)) (clip : ClipOptions) :
    ∃ r r', logLikelihood qr fixed clip c args = .ok r ∧ logLikelihood qr fixed' clip c' args' = .ok r' ∧
      r'.value = r.value ∧ r'.contributions = r.contributions ∧ r'.allContributions = r.allContributions := by
  obtain ⟨r, hr⟩ := (logLikelihood_ok_iff (qr := qr) (fixed := fixed) (clip := clip) (initial := c) (args := args)).mpr (Or.inr (h.imp id Or.inl))
  obtain ⟨r', hr'⟩ := (logLikelihood_ok_iff (qr := qr) (fixed := fixed') (clip := clip) (initial := c') (args := args')).mpr (Or.inr (h.imp id Or.inl))
  have hw' : WeightsOk c'.logWeights := by
    intro i
    have := (hb i).logWeight
    have e : c'.logWeights i = c.logWeights i := this
    rw [e]
    exact hw i
  have hl := moved_loglikes hqr hk hk' hlin hlin' h hs hm hsd hw hw' hb
  obtain ⟨h1, h2, h3, h4⟩ := logLikelihood_ok hr
  obtain ⟨h1', h2', h3', h4'⟩ := logLikelihood_ok hr'
  refine ⟨r, r', hr, hr', ?_, ?_, ?_⟩
  · rw [h4, h4', h1, h1']
    have := congrArg (fun l : List (Fin nObs → ℝ) =>
      (l.map (fun row => ∑ i, softClipping (row i) clip.lower clip.upper clip.lowerHardness clip.upperHardness)).sum) hl
    simpa only [List.map_map, Function.comp_def] using this
  · funext i
    rw [h3, h3', h1, h1']
    have := congrArg (fun l : List (Fin nObs → ℝ) =>
      (l.map (fun row => softClipping (row i) clip.lower clip.upper clip.lowerHardness clip.upperHardness)).sum) hl
    simpa only [List.map_map, Function.comp_def] using this
  · rw [h2, h2', h1, h1', hl]

/-- Initial distribution of the factors s * x. -/
def Spec.scaleInitial (s : Fin n → ℝ) (c : Carry nObs nMix n) : Carry nObs nMix n where
  states := fun i e f => s f * c.states i e f
  upperChols := fun i e => Matrix.of (fun f g => c.upperChols i e f g * s g)
  logWeights := c.logWeights

/-- Loadings on the factors s * x. -/
noncomputable def Spec.scaleLoadings (s : Fin n → ℝ) (a : LoopArgs nObs n nC) : LoopArgs nObs n nC := { a with loadings := fun f => a.loadings f / s f }

theorem scaleInitial_moved (s : Fin n → ℝ) (c : Carry nObs nMix n) (i : Fin nObs) : (c.belief i).Moved s 0 ((scaleInitial s c).belief i) := by
  refine ⟨fun e f => (add_zero _).symm, fun e f g => ?_, rfl⟩
  show (((scaleInitial s c).upperChols i e)ᵀ * (scaleInitial s c).upperChols i e) f g = s f * ((c.upperChols i e)ᵀ * c.upperChols i e) f g * s g
  simp only [Matrix.mul_apply, scaleInitial, transpose_apply, of_apply, Finset.mul_sum, Finset.sum_mul]
  exact Finset.sum_congr rfl (fun k _ => by ring)

theorem scaleLoadings_moved (s : Fin n → ℝ) {fixed fixed' : ScanFixed nObs nT n nObserved nC θ} (h : fixed'.controls = fixed.controls)
    (args : List (LoopArgs nObs n nC)) :
    List.Forall₂ (fun a a' => a'.period = a.period ∧ a'.isMeasurement = a.isMeasurement ∧ a'.isPredict = a.isPredict ∧
      ∀ i, (a.measurement fixed i).Moved s 0 (a'.measurement fixed' i)) args (args.map (scaleLoadings s)) := by
  rw [List.forall₂_map_right_iff, List.forall₂_same]
  intro a _
  refine ⟨rfl, rfl, rfl, fun i => ⟨fun f => rfl, ?_, rfl, rfl⟩⟩
  simp [LoopArgs.measurement, scaleLoadings, h]

/-- **C45.** Take a linear model without anchoring: in period t the next value of the latent factor f is
`A t f ⬝ (latent factors, observed factors) + b t f + shock`. Multiply each latent factor f by s f ≠ 0:
the initial means and Cholesky factors, the shock sds, the transition coefficients and constants are
multiplied and the loadings divided accordingly. Value and all contributions of the likelihood are the
same for every dataset. -/
theorem C45_rescaling {qr : QR} (hqr : ValidQR qr) {fixed fixed' : ScanFixed nObs nT n nObserved nC θ} {kappa : ℝ}
    (hk : SigmaOptions fixed kappa) (hk' : SigmaOptions fixed' kappa) (h : nMix = 1 ∨ nObserved = 0) {s : Fin n → ℝ} (hs : ∀ f, s f ≠ 0)
    (hcontrols : fixed'.controls = fixed.controls) (hobserved : fixed'.observed = fixed.observed)
    (hanch : ∀ t f, fixed.scaling t f = 1 ∧ fixed.constants t f = 0 ∧ fixed'.scaling t f = 1 ∧ fixed'.constants t f = 0)
    {A : Fin (nT + 1) → Fin n → Fin (n + nObserved) → ℝ} {b : Fin (nT + 1) → Fin n → ℝ}
    (hA : ∀ t, fixed.func (fixed.transition t) = fun z f => A t f ⬝ᵥ z + b t f)
    (hA' : ∀ t, fixed'.func (fixed'.transition t) =
      fun z f => (Fin.append (fun g => s f * A t f (Fin.castAdd nObserved g) / s g) (fun o => s f * A t f (Fin.natAdd n o))) ⬝ᵥ z + s f * b t f)
    (hshock : ∀ t f, fixed'.shockSds t f = |s f| * fixed.shockSds t f)
    {initial : Carry nObs nMix n} (hw : ∀ i, ∑ e, Real.exp (initial.logWeights i e) = 1)
    {args : List (LoopArgs nObs n nC)} (hsd : ∀ a ∈ args, a.measSd ≠ 0) (clip : ClipOptions) :
    ∃ r r', logLikelihood qr fixed clip initial args = .ok r ∧
      logLikelihood qr fixed' clip (scaleInitial s initial) (args.map (scaleLoadings s)) = .ok r' ∧
      r'.value = r.value ∧ r'.contributions = r.contributions ∧ r'.allContributions = r.allContributions := by
  refine moved_logLikelihood hqr hk hk' (fun t => ⟨_, _, hA t⟩) (fun t => ⟨_, _, hA' t⟩) h hs (τ := 0) ?_ hsd hw (scaleInitial_moved s initial) clip
  refine ⟨fun i t x f => ?_, fun t f => ?_, scaleLoadings_moved s hcontrols args⟩
  · simp only [unanchoredTransition, hA, hA', (hanch _ _).1, (hanch _ _).2.1, (hanch _ _).2.2.1, (hanch _ _).2.2.2, hobserved, mul_one, add_zero, sub_zero, div_one, Pi.zero_apply]
    rw [dotProduct, dotProduct, Fin.sum_univ_add, Fin.sum_univ_add]
    simp only [Fin.append_left, Fin.append_right]
    have e1 : ∀ g, s f * A (jaxIndex nT t) f (Fin.castAdd nObserved g) / s g * (s g * x g) = s f * (A (jaxIndex nT t) f (Fin.castAdd nObserved g) * x g) := by
      intro g
      have := hs g
      field_simp
    simp only [e1, mul_assoc, ← Finset.mul_sum]
    ring
  · rw [hshock, mul_pow, mul_pow, sq_abs]

/-- C45 with anchoring: if a latent factor is anchored, its transition function is in terms of the anchored factor.
Then multiplying the factor and dividing the anchoring loading leaves the likelihood unchanged with the
same transition parameters. -/
theorem C45_rescaling_anchored {qr : QR} (hqr : ValidQR qr) {fixed : ScanFixed nObs nT n nObserved nC θ} {kappa : ℝ}
    (hk : SigmaOptions fixed kappa) (hlin : AffineTransitions fixed) (h : nMix = 1 ∨ nObserved = 0) {s : Fin n → ℝ} (hs : ∀ f, s f ≠ 0)
    {initial : Carry nObs nMix n} (hw : ∀ i, ∑ e, Real.exp (initial.logWeights i e) = 1)
    {args : List (LoopArgs nObs n nC)} (hsd : ∀ a ∈ args, a.measSd ≠ 0) (clip : ClipOptions) :
    let fixed' := { fixed with
      shockSds := fun t f => |s f| * fixed.shockSds t f
      scaling := fun t => Fin.append (fun f => fixed.scaling t (Fin.castAdd nObserved f) / s f) (fun o => fixed.scaling t (Fin.natAdd n o)) }
    ∃ r r', logLikelihood qr fixed clip initial args = .ok r ∧
      logLikelihood qr fixed' clip (scaleInitial s initial) (args.map (scaleLoadings s)) = .ok r' ∧
      r'.value = r.value ∧ r'.contributions = r.contributions ∧ r'.allContributions = r.allContributions := by
  intro fixed'
  have hk' : SigmaOptions fixed' kappa := ⟨hk.nonneg, hk.positive, hk.factor, hk.weights⟩
  refine moved_logLikelihood hqr hk hk' hlin hlin h hs (τ := 0) ?_ hsd hw (scaleInitial_moved s initial) clip
  refine ⟨fun i t x f => ?_, fun t f => ?_, scaleLoadings_moved s rfl args⟩
  · simp only [unanchoredTransition, Pi.zero_apply, add_zero, fixed']
    rw [Fin.append_left]
    have e : (fun g => Fin.append (fun g => s g * x g) (fixed.observed (jaxIndex (nT + 1) t) i) g *
          Fin.append (fun f => fixed.scaling (jaxIndex (nT + 1) t) (Fin.castAdd nObserved f) / s f) (fun o => fixed.scaling (jaxIndex (nT + 1) t) (Fin.natAdd n o)) g
          + fixed.constants (jaxIndex (nT + 1) t) g) =
        (fun g => Fin.append x (fixed.observed (jaxIndex (nT + 1) t) i) g * fixed.scaling (jaxIndex (nT + 1) t) g + fixed.constants (jaxIndex (nT + 1) t) g) := by
      funext g
      refine Fin.addCases (fun g => ?_) (fun o => ?_) g
      · simp only [Fin.append_left]
        have := hs g
        field_simp
      · simp only [Fin.append_right]
    rw [e]
    have := hs f
    field_simp
  · simp only [fixed']
    rw [mul_pow, mul_pow, sq_abs]

/-- Initial distribution of the factors x + τ. -/
def Spec.shiftInitial (τ : Fin n → ℝ) (c : Carry nObs nMix n) : Carry nObs nMix n :=
  { c with states := fun i e f => c.states i e f + τ f }

/-- The intercept (coefficient of control `k`) of a measurement of the factors x + τ. -/
noncomputable def Spec.shiftIntercept (k : Fin nC) (τ : Fin n → ℝ) (a : LoopArgs nObs n nC) : LoopArgs nObs n nC :=
  { a with controlParams := Function.update a.controlParams k (a.controlParams k - ∑ f, a.loadings f * τ f) }

/-- **C65.** Take a linear model without anchoring and add τ f to each latent factor f: the initial means
and the constants of the transition functions are adjusted, and the intercepts of all measurements (the
coefficient of the control that is 1 for all individuals in all periods) are reduced by loadings times τ.
Value and all contributions of the likelihood are the same for every dataset. -/
theorem C65_location {qr : QR} (hqr : ValidQR qr) {fixed fixed' : ScanFixed nObs nT n nObserved nC θ} {kappa : ℝ}
    (hk : SigmaOptions fixed kappa) (hk' : SigmaOptions fixed' kappa) (h : nMix = 1 ∨ nObserved = 0) (τ : Fin n → ℝ)
    {k : Fin nC} (hconst : ∀ t i, fixed.controls t i k = 1)
    (hcontrols : fixed'.controls = fixed.controls) (hobserved : fixed'.observed = fixed.observed)
    (hanch : ∀ t f, fixed.scaling t f = 1 ∧ fixed.constants t f = 0 ∧ fixed'.scaling t f = 1 ∧ fixed'.constants t f = 0)
    {A : Fin (nT + 1) → Fin n → Fin (n + nObserved) → ℝ} {b : Fin (nT + 1) → Fin n → ℝ}
    (hA : ∀ t, fixed.func (fixed.transition t) = fun z f => A t f ⬝ᵥ z + b t f)
    (hA' : ∀ t, fixed'.func (fixed'.transition t) = fun z f => A t f ⬝ᵥ z + (b t f + τ f - ∑ g, A t f (Fin.castAdd nObserved g) * τ g))
    (hshock : fixed'.shockSds = fixed.shockSds)
    {initial : Carry nObs nMix n} (hw : ∀ i, ∑ e, Real.exp (initial.logWeights i e) = 1)
    {args : List (LoopArgs nObs n nC)} (hsd : ∀ a ∈ args, a.measSd ≠ 0) (clip : ClipOptions) :
    ∃ r r', logLikelihood qr fixed clip initial args = .ok r ∧
      logLikelihood qr fixed' clip (shiftInitial τ initial) (args.map (shiftIntercept k τ)) = .ok r' ∧
      r'.value = r.value ∧ r'.contributions = r.contributions ∧ r'.allContributions = r.allContributions := by
  refine moved_logLikelihood hqr hk hk' (fun t => ⟨_, _, hA t⟩) (fun t => ⟨_, _, hA' t⟩) h (s := 1) (fun f => one_ne_zero) (τ := τ) ?_ hsd hw ?_ clip
  · refine ⟨fun i t x f => ?_, fun t f => by rw [hshock, Pi.one_apply, one_mul], ?_⟩
    · simp only [unanchoredTransition, hA, hA', (hanch _ _).1, (hanch _ _).2.1, (hanch _ _).2.2.1, (hanch _ _).2.2.2, hobserved, mul_one, add_zero, sub_zero, div_one,
        Pi.one_apply, one_mul]
      rw [dotProduct, dotProduct, Fin.sum_univ_add, Fin.sum_univ_add]
      simp only [Fin.append_left, Fin.append_right, mul_add, Finset.sum_add_distrib]
      ring
    · rw [List.forall₂_map_right_iff, List.forall₂_same]
      intro a _
      refine ⟨rfl, rfl, rfl, fun i => ⟨fun f => ?_, ?_, rfl, rfl⟩⟩
      · simp [LoopArgs.measurement, shiftIntercept]
      · simp only [LoopArgs.measurement, shiftIntercept, hcontrols, dotProduct]
        rw [← Finset.add_sum_erase _ _ (Finset.mem_univ k), ← Finset.add_sum_erase (a := k) Finset.univ (fun x => _ * a.controlParams x) (Finset.mem_univ k),
          Function.update_self, hconst, one_mul, one_mul]
        have : ∀ x ∈ Finset.univ.erase k, fixed.controls (jaxIndex (nT + 1) a.period) i x * Function.update a.controlParams k
            (a.controlParams k - ∑ f, a.loadings f * τ f) x = fixed.controls (jaxIndex (nT + 1) a.period) i x * a.controlParams x := by
          intro x hx
          rw [Function.update_of_ne (Finset.ne_of_mem_erase hx)]
        rw [Finset.sum_congr rfl this]
        ring
  · intro i
    refine ⟨fun e f => ?_, fun e f g => ?_, rfl⟩
    · simp [Carry.belief, beliefOf, shiftInitial]
    · simp [Carry.belief, beliefOf, shiftInitial]

end Skill
