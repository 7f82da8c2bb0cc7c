import Verif.Lemmas.ExactLikelihood2
import Verif.Props.FilterExamples
/-
C42: in linear models the likelihood of the code is the density of the data generating process.
-/
namespace Skill
open Matrix MeasureTheory ProbabilityTheory Spec
variable {nObs nMix n nT nObserved nC : ℕ} {θ : Type}

/-- The transition from period `t` to the next period in terms of the latent factors of individual `i`:
anchor the factors of period t, apply the transition function, undo the anchoring of period t + 1. -/
noncomputable def Spec.unanchoredTransition (fixed : ScanFixed nObs nT n nObserved nC θ) (i : Fin nObs) (t : Int) (x : Fin n → ℝ) : Fin n → ℝ :=
  fun f => (fixed.func (fixed.transition (jaxIndex nT t))
      (fun g => Fin.append x (fixed.observed (jaxIndex (nT + 1) t) i) g * fixed.scaling (jaxIndex (nT + 1) t) g + fixed.constants (jaxIndex (nT + 1) t) g) f
    - fixed.constants (jaxIndex (nT + 1) (t + 1)) (Fin.castAdd nObserved f)) / fixed.scaling (jaxIndex (nT + 1) (t + 1)) (Fin.castAdd nObserved f)

/-- The step of the data generating process of individual `i` that belongs to one element of the loop
arguments of the likelihood. -/
noncomputable def Spec.stepOf (fixed : ScanFixed nObs nT n nObserved nC θ) (i : Fin nObs) (a : LoopArgs nObs n nC) : Step n where
  h := a.loadings
  c := fixed.controls (jaxIndex (nT + 1) a.period) i ⬝ᵥ a.controlParams
  sd := a.measSd
  observed := (a.measurements i).isSome
  transition := if a.isPredict then some (unanchoredTransition fixed i a.period, fixed.shockSds (jaxIndex nT a.period)) else none

/-- Replace the observed measurements of individual `i` by `y`. -/
noncomputable def Spec.fill (fixed : ScanFixed nObs nT n nObserved nC θ) (i : Fin nObs) :
    (args : List (LoopArgs nObs n nC)) → (y : Fin (args.map (stepOf fixed i)).length → ℝ) → List (LoopArgs nObs n nC)
  | [], _ => []
  | a :: as, y =>
    { a with measurements := Function.update a.measurements i ((a.measurements i).map (fun _ => y (0 : Fin ((as.map (stepOf fixed i)).length + 1)))) } ::
      fill fixed i as (fun k => y k.succ)

/-- The data of individual `i`. -/
noncomputable def Spec.dataOf (fixed : ScanFixed nObs nT n nObserved nC θ) (i : Fin nObs) :
    (args : List (LoopArgs nObs n nC)) → Fin (args.map (stepOf fixed i)).length → ℝ
  | [] => Fin.elim0
  | a :: as => Fin.cons (α := fun _ => ℝ) ((a.measurements i).getD 0) (dataOf fixed i as)

theorem fill_dataOf (fixed : ScanFixed nObs nT n nObserved nC θ) (i : Fin nObs) (args : List (LoopArgs nObs n nC)) :
    fill fixed i args (dataOf fixed i args) = args := by
  induction args with
  | nil => rfl
  | cons a as ih =>
    rw [fill]
    congr 1
    have : ((a.measurements i).map (fun _ => dataOf fixed i (a :: as) (0 : Fin ((as.map (stepOf fixed i)).length + 1)))) = a.measurements i := by
      have e : dataOf fixed i (a :: as) (0 : Fin ((as.map (stepOf fixed i)).length + 1)) = (a.measurements i).getD 0 := rfl
      rw [e]
      cases a.measurements i <;> rfl
    rw [this, Function.update_eq_self]

/-- All transition functions are affine. -/
def Spec.AffineTransitions (fixed : ScanFixed nObs nT n nObserved nC θ) : Prop :=
  ∀ t, ∃ (A : Fin n → Fin (n + nObserved) → ℝ) (b : Fin n → ℝ), fixed.func (fixed.transition t) = fun z f => A f ⬝ᵥ z + b f

theorem unanchored_affine {fixed : ScanFixed nObs nT n nObserved nC θ} (i : Fin nObs) (t : Int)
    {A : Fin n → Fin (n + nObserved) → ℝ} {b : Fin n → ℝ} (hA : fixed.func (fixed.transition (jaxIndex nT t)) = fun z f => A f ⬝ᵥ z + b f) :
    ∃ d, unanchoredTransition fixed i t =
      fun x => linearCoeff A ![fixed.scaling (jaxIndex (nT + 1) t), fixed.scaling (jaxIndex (nT + 1) (t + 1))] *ᵥ x + d := by
  set s0 := fixed.scaling (jaxIndex (nT + 1) t)
  set s1 := fixed.scaling (jaxIndex (nT + 1) (t + 1))
  set c0 := fixed.constants (jaxIndex (nT + 1) t)
  refine ⟨fun f => ((∑ o, A f (Fin.natAdd n o) * (fixed.observed (jaxIndex (nT + 1) t) i o * s0 (Fin.natAdd n o) + c0 (Fin.natAdd n o)))
          + (∑ g, A f (Fin.castAdd nObserved g) * c0 (Fin.castAdd nObserved g)) + b f
          - fixed.constants (jaxIndex (nT + 1) (t + 1)) (Fin.castAdd nObserved f)) / s1 (Fin.castAdd nObserved f), ?_⟩
  funext x f
  rw [unanchoredTransition, hA]
  beta_reduce
  rw [dotProduct, Fin.sum_univ_add]
  simp only [Fin.append_left, Fin.append_right, Pi.add_apply]
  have e1 : ∀ g, A f (Fin.castAdd nObserved g) * (x g * s0 (Fin.castAdd nObserved g) + c0 (Fin.castAdd nObserved g)) =
      A f (Fin.castAdd nObserved g) * s0 (Fin.castAdd nObserved g) * x g + A f (Fin.castAdd nObserved g) * c0 (Fin.castAdd nObserved g) :=
    fun g => by ring
  have e2 : (linearCoeff A ![s0, s1] *ᵥ x) f = (∑ g, A f (Fin.castAdd nObserved g) * s0 (Fin.castAdd nObserved g) * x g) / s1 (Fin.castAdd nObserved f) := by
    rw [mulVec, dotProduct, Finset.sum_div]
    exact Finset.sum_congr rfl (fun g _ => by simp only [linearCoeff, of_apply, Matrix.cons_val_zero, Matrix.cons_val_one]; ring)
  rw [Finset.sum_congr rfl (fun g _ => e1 g), Finset.sum_add_distrib, e2]
  ring

theorem stepOf_affine {fixed : ScanFixed nObs nT n nObserved nC θ} (h : AffineTransitions fixed) (i : Fin nObs) (a : LoopArgs nObs n nC) :
    (stepOf fixed i a).Affine := by
  intro g q hgq
  simp only [stepOf] at hgq
  split at hgq
  · have := Option.some.inj hgq
    rw [Prod.mk.injEq] at this
    obtain ⟨A, b, hA⟩ := h (jaxIndex nT a.period)
    obtain ⟨d, hd⟩ := unanchored_affine i a.period hA
    exact ⟨_, d, this.1 ▸ hd⟩
  · cases hgq

/-- The settings of the unscented transform. -/
structure Spec.SigmaOptions (fixed : ScanFixed nObs nT n nObserved nC θ) (kappa : ℝ) : Prop where
  nonneg : 0 ≤ kappa
  positive : 0 < n + kappa
  factor : fixed.sigmaScalingFactor = sigmaScalingFactor n kappa
  weights : fixed.sigmaWeights = sigmaWeights n kappa

theorem predict_affine {qr : QR} (hqr : ValidQR qr) {fixed : ScanFixed nObs nT n nObserved nC θ} {kappa : ℝ} (hk : SigmaOptions fixed kappa)
    (hlin : AffineTransitions fixed) (h : nMix = 1 ∨ nObserved = 0) (c : Carry nObs nMix n) (t : Int) (i : Fin nObs) (e : Fin nMix) :
    (predictCarry qr fixed c t).states i e = unanchoredTransition fixed i t (c.states i e) ∧
    ((predictCarry qr fixed c t).upperChols i e)ᵀ * (predictCarry qr fixed c t).upperChols i e =
      linPart (unanchoredTransition fixed i t) * ((c.upperChols i e)ᵀ * c.upperChols i e) * (linPart (unanchoredTransition fixed i t))ᵀ
        + Matrix.diagonal (fun f => fixed.shockSds (jaxIndex nT t) f ^ 2) := by
  obtain ⟨A, b, hA⟩ := hlin (jaxIndex nT t)
  obtain ⟨d, hd⟩ := unanchored_affine i t hA
  obtain ⟨r, hr, h1, h2⟩ := C35_linear_predict_exact (qr := qr) c.states c.upperChols (fixed.shockSds (jaxIndex nT t))
    ![fixed.scaling (jaxIndex (nT + 1) t), fixed.scaling (jaxIndex (nT + 1) (t + 1))]
    ![fixed.constants (jaxIndex (nT + 1) t), fixed.constants (jaxIndex (nT + 1) (t + 1))] (fixed.observed (jaxIndex (nT + 1) t))
    hqr h hk.nonneg hk.positive A b
  have hp := scanPredict_ok (h.imp id Or.inl) qr fixed c t
  unfold scanPredict at hp
  rw [hk.factor, hk.weights, hA, hr] at hp
  have hp := Except.ok.inj hp
  rw [← hp]
  refine ⟨?_, ?_⟩
  · funext f
    refine (h1 i e f).trans ?_
    rw [unanchoredTransition, hA]
    rfl
  · rw [h2, hd, linPart_affine]

/-- The sum of the contributions of individual `i`. -/
theorem contributions_eq {qr : QR} (hqr : ValidQR qr) {fixed : ScanFixed nObs nT n nObserved nC θ} {kappa : ℝ} (hk : SigmaOptions fixed kappa)
    (hlin : AffineTransitions fixed) (h : nMix = 1 ∨ nObserved = 0) (i : Fin nObs) {args : List (LoopArgs nObs n nC)}
    (hsd : ∀ a ∈ args, a.measSd ≠ 0) (hm : ∀ a ∈ args, a.isMeasurement = true) :
    ∀ {c : Carry nObs nMix n}, WeightsOk c.logWeights → ∀ y : Fin (args.map (stepOf fixed i)).length → ℝ,
    Real.exp ((outs qr fixed c (fill fixed i args y)).map (fun o => o.loglikes i)).sum =
      ∑ e, Real.exp (c.logWeights i e) * kalmanDensity (args.map (stepOf fixed i)) (c.states i e) ((c.upperChols i e)ᵀ * c.upperChols i e) y := by
  induction args with
  | nil =>
    intro c hw y
    have e0 : ∀ m P, kalmanDensity (List.map (stepOf fixed i) []) m P y = 1 := fun m P => rfl
    simp only [fill, outs, List.map_nil, List.sum_nil, Real.exp_zero, e0, mul_one]
    exact (hw i).symm
  | cons a as ih =>
    intro c hw y
    have ih := @ih (fun a' h' => hsd a' (by simp [h'])) (fun a' h' => hm a' (by simp [h']))
    set a' : LoopArgs nObs n nC := { a with measurements := Function.update a.measurements i ((a.measurements i).map (fun _ => y (0 : Fin ((as.map (stepOf fixed i)).length + 1)))) } with ha'
    have hsda : a'.measSd ≠ 0 := hsd a (by simp)
    have hma : a'.isMeasurement = true := hm a (by simp)
    obtain ⟨hb, hl⟩ := scanUpdate_refines hqr fixed hw hsda i
    have hmeas : a'.measurement fixed i = ⟨a.loadings, fixed.controls (jaxIndex (nT + 1) a.period) i ⬝ᵥ a.controlParams, a.measSd,
        (a.measurements i).map (fun _ => y (0 : Fin ((as.map (stepOf fixed i)).length + 1)))⟩ := by
      simp only [LoopArgs.measurement, ha', Function.update_self]
    set c1 := (scanUpdate qr fixed c a').1 with hc1
    have hb1 : c1.belief i = (c.belief i).update (a'.measurement fixed i) := by
      rw [← hb, hc1, (scanUpdate_eq qr fixed c a').2, hma]
      rfl
    have hw2 : WeightsOk (step qr fixed c a').logWeights := step_weights hqr fixed hw hsda
    -- the belief after the step
    have hnext : ∀ e, (step qr fixed c a').logWeights i e = c1.logWeights i e ∧
        (step qr fixed c a').states i e = stepMean (stepOf fixed i a) (c1.states i e) ∧
        ((step qr fixed c a').upperChols i e)ᵀ * (step qr fixed c a').upperChols i e =
          stepCov (stepOf fixed i a) ((c1.upperChols i e)ᵀ * c1.upperChols i e) := by
      intro e
      have hpr : a'.isPredict = a.isPredict := rfl
      simp only [step, hpr, stepMean, stepCov, stepOf, ← hc1]
      cases a.isPredict with
      | false => exact ⟨rfl, rfl, rfl⟩
      | true => exact ⟨rfl, predict_affine hqr hk hlin h c1 a.period i e⟩
    have hout : ((outs qr fixed c (fill fixed i (a :: as) y)).map (fun o => o.loglikes i)).sum =
        (scanUpdate qr fixed c a').2.loglikes i +
          ((outs qr fixed (step qr fixed c a') (fill fixed i as (fun k => y k.succ))).map (fun o => o.loglikes i)).sum := by
      rw [fill, ← ha', outs, List.map_cons, List.sum_cons]
      rfl
    rw [hout, Real.exp_add, ih hw2, hl, Finset.mul_sum]
    refine Finset.sum_congr rfl (fun e _ => ?_)
    rw [(hnext e).1, (hnext e).2.1, (hnext e).2.2]
    have k1 : c1.logWeights i e = (c1.belief i).logWeight e := rfl
    have k2 : c1.states i e = (c1.belief i).mean e := rfl
    have k3 : (c1.upperChols i e)ᵀ * c1.upperChols i e = (c1.belief i).cov e := rfl
    have l1 : c.logWeights i e = (c.belief i).logWeight e := rfl
    have l2 : c.states i e = (c.belief i).mean e := rfl
    have l3 : (c.upperChols i e)ᵀ * c.upperChols i e = (c.belief i).cov e := rfl
    rw [k1, k2, k3, l1, l2, l3, hb1]
    have hprop := Carry.belief_proper hw i
    generalize c.belief i = β at hprop
    rw [hmeas]
    have hkd : ∀ m P, kalmanDensity ((a :: as).map (stepOf fixed i)) m P y =
        (if (stepOf fixed i a).observed then normalDensity (residualVariance P a.loadings a.measSd)
          (y (0 : Fin ((as.map (stepOf fixed i)).length + 1)) - (m ⬝ᵥ a.loadings + (stepOf fixed i a).c)) else 1) *
        kalmanDensity (as.map (stepOf fixed i))
          (stepMean (stepOf fixed i a) (if (stepOf fixed i a).observed then posteriorMean m P a.loadings a.measSd
            (y (0 : Fin ((as.map (stepOf fixed i)).length + 1)) - (m ⬝ᵥ a.loadings + (stepOf fixed i a).c)) else m))
          (stepCov (stepOf fixed i a) (if (stepOf fixed i a).observed then posteriorCov P a.loadings a.measSd else P))
          (fun k : Fin (as.map (stepOf fixed i)).length => y (k.succ : Fin ((as.map (stepOf fixed i)).length + 1))) := fun m P => rfl
    rw [hkd]
    have o1 : (stepOf fixed i a).observed = (a.measurements i).isSome := rfl
    rw [o1]
    obtain ho | ⟨y0, ho⟩ : a.measurements i = none ∨ ∃ y0, a.measurements i = some y0 := by cases a.measurements i <;> simp
    · simp only [ho, Belief.update, Belief.contribution, Option.map_none, Option.isSome_none, Bool.false_eq_true, if_false, Real.exp_zero, one_mul]
    · simp only [ho, Belief.update, Belief.contribution, Option.map_some, Option.isSome_some, if_true]
      set M : Measurement n := ⟨a.loadings, fixed.controls (jaxIndex (nT + 1) a.period) i ⬝ᵥ a.controlParams, a.measSd, some (y (0 : Fin ((as.map (stepOf fixed i)).length + 1)))⟩ with hM
      have hMsd : M.sd ≠ 0 := hsda
      have hL := likelihood_pos hprop (m := M) hMsd (y (0 : Fin ((as.map (stepOf fixed i)).length + 1)))
      have hD := density_pos hprop.cov (m := M) hMsd (y (0 : Fin ((as.map (stepOf fixed i)).length + 1))) e
      rw [Real.exp_log hL, Real.exp_log (div_pos (mul_pos (Real.exp_pos _) hD) hL), ← mul_assoc, ← mul_assoc, mul_div_cancel₀ _ hL.ne']
      rfl

/-- The density of the data of an individual with several mixture elements. -/
theorem mixture_density {steps : List (Step n)} (haff : ∀ s ∈ steps, s.Affine) (hsd : ∀ s ∈ steps, s.sd ≠ 0) {w : Fin nMix → ℝ} (hw : ∀ e, 0 ≤ w e) (means : Fin nMix → Fin n → ℝ) (U : Fin nMix → Matrix (Fin n) (Fin n) ℝ) :
    ∑ e, ENNReal.ofReal (w e) • dataLaw (means e) (U e) steps = (baseMeasure steps).withDensity (fun y => ENNReal.ofReal (∑ e, w e * kalmanDensity steps (means e) ((U e)ᵀ * U e) y)) := by
  have hmeas : ∀ e, Measurable (fun y => ENNReal.ofReal (kalmanDensity steps (means e) ((U e)ᵀ * U e) y)) := fun e =>
    ((measurable_kalmanDensity haff _).comp (measurable_const.prodMk measurable_id)).ennreal_ofReal
  have hnn : ∀ (steps : List (Step n)) m P y, 0 ≤ kalmanDensity steps m P y := by
    intro steps
    clear haff hsd hmeas
    induction steps with
    | nil => intro m P y; exact zero_le_one
    | cons s ss ih =>
      intro m P y
      refine mul_nonneg ?_ (ih _ _ _)
      split
      · exact gaussianPDFReal_nonneg _ _ _
      · exact zero_le_one
  refine Measure.ext_of_lintegral _ (fun F hF => ?_)
  have hdens : (fun y => ENNReal.ofReal (∑ e, w e * kalmanDensity steps (means e) ((U e)ᵀ * U e) y)) =
      fun y => ∑ e, ENNReal.ofReal (w e) * ENNReal.ofReal (kalmanDensity steps (means e) ((U e)ᵀ * U e) y) := by
    funext y
    rw [ENNReal.ofReal_sum_of_nonneg (fun e _ => mul_nonneg (hw e) (hnn _ _ _ _))]
    exact Finset.sum_congr rfl (fun e _ => ENNReal.ofReal_mul (hw e))
  rw [hdens, lintegral_withDensity_eq_lintegral_mul _ (Finset.measurable_fun_sum _ (fun e _ => (hmeas e).const_mul _)) hF, lintegral_finsetSum_measure]
  have e1 : ∀ y, ((fun y => ∑ e, ENNReal.ofReal (w e) * ENNReal.ofReal (kalmanDensity steps (means e) ((U e)ᵀ * U e) y)) * F) y =
      ∑ e, ENNReal.ofReal (w e) * (ENNReal.ofReal (kalmanDensity steps (means e) ((U e)ᵀ * U e) y) * F y) := fun y => by
    rw [Pi.mul_apply, Finset.sum_mul]
    exact Finset.sum_congr rfl (fun e _ => mul_assoc _ _ _)
  rw [lintegral_congr e1, lintegral_finsetSum]
  · refine Finset.sum_congr rfl (fun e _ => ?_)
    rw [lintegral_smul_measure, dataLaw_eq haff hsd, lintegral_withDensity_eq_lintegral_mul _ (hmeas e) hF]
    exact (lintegral_const_mul _ ((hmeas e).mul hF)).symm
  · intro e _
    exact ((hmeas e).mul hF).const_mul _

/-- **C42.** Consider the likelihood without clipping for a model with affine transition functions and
without anchoring updates. Fix an individual `i`, keep the pattern of missing measurements and view
the contribution of the individual as function of the individual's observed measurements `y`. Then
exp(contribution) is the density of these measurements when they are generated by the state space model:
the distribution of the data is the mixture, with the initial mixture weights, of the distributions
that are simulated with independent standard normal draws from the initial state distribution of
each mixture element. -/
theorem C42_exact_likelihood {qr : QR} (hqr : ValidQR qr) {fixed : ScanFixed nObs nT n nObserved nC θ} {kappa : ℝ} (hk : SigmaOptions fixed kappa)
    (hlin : AffineTransitions fixed) (h : nMix = 1 ∨ nObserved = 0) {clip : ClipOptions} (hclip : clip.lower = none ∧ clip.upper = none)
    {initial : Carry nObs nMix n} (hw : ∀ i, ∑ e, Real.exp (initial.logWeights i e) = 1) {args : List (LoopArgs nObs n nC)}
    (hsd : ∀ a ∈ args, a.measSd ≠ 0) (hm : ∀ a ∈ args, a.isMeasurement = true) (i : Fin nObs) :
    ∃ contribution : (Fin (args.map (stepOf fixed i)).length → ℝ) → ℝ,
      (∀ y, ∃ r, logLikelihood qr fixed clip initial (fill fixed i args y) = .ok r ∧ r.contributions i = contribution y) ∧
      ∑ e, ENNReal.ofReal (Real.exp (initial.logWeights i e)) • dataLaw (initial.states i e) (initial.upperChols i e) (args.map (stepOf fixed i)) =
        (baseMeasure (args.map (stepOf fixed i))).withDensity (fun y => ENNReal.ofReal (Real.exp (contribution y))) := by
  refine ⟨fun y => ((outs qr fixed initial (fill fixed i args y)).map (fun o => o.loglikes i)).sum, fun y => ?_, ?_⟩
  · obtain ⟨r, hr⟩ := (logLikelihood_ok_iff (qr := qr) (fixed := fixed) (clip := clip) (initial := initial) (args := fill fixed i args y)).mpr
      (Or.inr (h.imp id Or.inl))
    refine ⟨r, hr, ?_⟩
    obtain ⟨h1, _, h3, _⟩ := logLikelihood_ok hr
    rw [h3, h1]
    simp only [softClipping, hclip.1, hclip.2]
  · have haff : ∀ s ∈ args.map (stepOf fixed i), s.Affine := by
      intro s hs
      obtain ⟨a, _, rfl⟩ := List.mem_map.mp hs
      exact stepOf_affine hlin i a
    have hsd' : ∀ s ∈ args.map (stepOf fixed i), s.sd ≠ 0 := by
      intro s hs
      obtain ⟨a, ha, rfl⟩ := List.mem_map.mp hs
      exact hsd a ha
    simp only [contributions_eq hqr hk hlin h i hsd hm hw]
    exact mixture_density haff hsd' (fun e => (Real.exp_pos _).le) _ _

end Skill
