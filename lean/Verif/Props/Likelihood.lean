import Mathlib.Analysis.SpecialFunctions.Log.Basic
import Verif.Lemmas.Scan
/-
C33, C39, C40, C41, C43: the likelihood function.
-/
namespace Skill
open Matrix Spec
variable {nObs nObs' nMix n nT nObserved nC : ℕ} {θ : Type}

/-! ### C40 -/

/-- **C40.** The value is the sum of the contributions, and the contribution of an individual is the
sum over the updates of the (clipped) entries of the debug output all_contributions. -/
theorem C40_value_is_sum {qr : QR} {fixed : ScanFixed nObs nT n nObserved nC θ} {clip : ClipOptions}
    {initial : Carry nObs nMix n} {args : List (LoopArgs nObs n nC)} {r} (hr : logLikelihood qr fixed clip initial args = .ok r) :
    r.value = ∑ i, r.contributions i ∧ r.allContributions.length = args.length ∧
    ∀ i, r.contributions i = (r.allContributions.map (fun row =>
      softClipping (row i) clip.lower clip.upper clip.lowerHardness clip.upperHardness)).sum := by
  obtain ⟨h1, h2, h3, h4⟩ := logLikelihood_ok hr
  refine ⟨?_, ?_, ?_⟩
  · rw [h4, Finset.sum_congr rfl (fun i _ => h3 i)]
    generalize r.outs = os
    induction os with
    | nil => simp
    | cons o os ih => simp only [List.map_cons, List.sum_cons, ih, Finset.sum_add_distrib]
  · rw [h2, List.length_map, h1, outs_length]
  · intro i
    rw [h3 i, h2, List.map_map]
    rfl

/-! ### C39 -/

/-- The loop arguments for the individuals `φ 0, φ 1, …` of a dataset. -/
def LoopArgs.select (φ : Fin nObs' → Fin nObs) (a : LoopArgs nObs n nC) : LoopArgs nObs' n nC :=
  { a with measurements := fun j => a.measurements (φ j) }

/-- Controls and observed factors for the individuals `φ 0, φ 1, …` of a dataset. -/
def ScanFixed.select (φ : Fin nObs' → Fin nObs) (fixed : ScanFixed nObs nT n nObserved nC θ) :
    ScanFixed nObs' nT n nObserved nC θ :=
  { fixed with controls := fun t j => fixed.controls t (φ j), observed := fun t j => fixed.observed t (φ j) }

/-- States for the individuals `φ 0, φ 1, …`. -/
def Carry.select (φ : Fin nObs' → Fin nObs) (c : Carry nObs nMix n) : Carry nObs' nMix n :=
  ⟨fun j => c.states (φ j), fun j => c.upperChols (φ j), fun j => c.logWeights (φ j)⟩

/-- Outputs for the individuals `φ 0, φ 1, …`. -/
def StepOut.select (φ : Fin nObs' → Fin nObs) (o : StepOut nObs nMix n) : StepOut nObs' nMix n :=
  ⟨fun j => o.loglikes (φ j), fun j => o.residuals (φ j), fun j => o.residualSds (φ j), fun j => o.logWeights (φ j), fun j => o.states (φ j)⟩

theorem step_select (φ : Fin nObs' → Fin nObs) (qr : QR) (fixed : ScanFixed nObs nT n nObserved nC θ) (c : Carry nObs nMix n)
    (a : LoopArgs nObs n nC) :
    step qr (fixed.select φ) (c.select φ) (a.select φ) = (step qr fixed c a).select φ ∧
    stepOut qr (fixed.select φ) (c.select φ) (a.select φ) = (stepOut qr fixed c a).select φ := by
  have h1 : (scanUpdate qr (fixed.select φ) (c.select φ) (a.select φ)).1 = (scanUpdate qr fixed c a).1.select φ := by
    unfold scanUpdate
    by_cases h : a.isMeasurement
    · have h' : (a.select φ).isMeasurement := h
      simp only [h, h', if_true]
      rfl
    · have h' : ¬ (a.select φ).isMeasurement := h
      simp only [h, h']
      rfl
  have h2 : ∀ d : Carry nObs nMix n, predictCarry qr (fixed.select φ) (d.select φ) (a.select φ).period = (predictCarry qr fixed d a.period).select φ :=
    fun d => rfl
  have h3 : (scanUpdate qr (fixed.select φ) (c.select φ) (a.select φ)).2 =
      kalmanUpdate qr (c.select φ).states (c.select φ).upperChols a.loadings a.controlParams a.measSd (a.select φ).measurements
        ((fixed.select φ).controls (jaxIndex (nT + 1) a.period)) (c.select φ).logWeights := by
    unfold scanUpdate
    split <;> rfl
  have h4 : (scanUpdate qr fixed c a).2 = kalmanUpdate qr c.states c.upperChols a.loadings a.controlParams a.measSd a.measurements
        (fixed.controls (jaxIndex (nT + 1) a.period)) c.logWeights := by
    unfold scanUpdate
    split <;> rfl
  constructor
  · unfold step
    rw [h1, h2]
    by_cases h : a.isPredict
    · have h' : (a.select φ).isPredict := h
      rw [if_pos h, if_pos h']
    · have h' : ¬ (a.select φ).isPredict := h
      rw [if_neg h, if_neg h']
  · simp only [stepOut, h1, h3, h4]
    rfl

theorem outs_select (φ : Fin nObs' → Fin nObs) (qr : QR) (fixed : ScanFixed nObs nT n nObserved nC θ) (c : Carry nObs nMix n)
    (args : List (LoopArgs nObs n nC)) :
    outs qr (fixed.select φ) (c.select φ) (args.map (LoopArgs.select φ)) = (outs qr fixed c args).map (StepOut.select φ) := by
  induction args generalizing c with
  | nil => rfl
  | cons a as ih => simp only [List.map_cons, outs, step_select, ih]

/-- **C39.** Evaluating the likelihood for the individuals `φ 0, φ 1, …` of a dataset (a permutation, a
subset, or with repetitions) gives these individuals the same contributions, residuals, mixture
weights and filtered states as in the full dataset. -/
theorem C39_individuals_independent (φ : Fin nObs' → Fin nObs) {qr : QR} {fixed : ScanFixed nObs nT n nObserved nC θ} {clip : ClipOptions}
    {initial : Carry nObs nMix n} {args : List (LoopArgs nObs n nC)} {r} (hr : logLikelihood qr fixed clip initial args = .ok r) :
    ∃ r', logLikelihood qr (fixed.select φ) clip (initial.select φ) (args.map (LoopArgs.select φ)) = .ok r' ∧
      (∀ j, r'.contributions j = r.contributions (φ j)) ∧ r'.outs = r.outs.map (StepOut.select φ) := by
  have hok : ∃ r', logLikelihood qr (fixed.select φ) clip (initial.select φ) (args.map (LoopArgs.select φ)) = .ok r' := by
    rw [logLikelihood_ok_iff]
    rcases logLikelihood_ok_iff.mp ⟨r, hr⟩ with h | h | h | h
    · left; rw [h]; rfl
    · exact Or.inr (Or.inl h)
    · exact Or.inr (Or.inr (Or.inl h))
    · right; right; right
      subst h
      cases nObs' with
      | zero => rfl
      | succ k => exact (φ 0).elim0
  obtain ⟨r', hr'⟩ := hok
  obtain ⟨h1, _, h3, _⟩ := logLikelihood_ok hr
  obtain ⟨h1', _, h3', _⟩ := logLikelihood_ok hr'
  have ho : r'.outs = r.outs.map (StepOut.select φ) := by rw [h1', h1, outs_select]
  refine ⟨r', hr', fun j => ?_, ho⟩
  rw [h3' j, h3 (φ j), ho, List.map_map]
  rfl

/-! ### C43 -/

/-- Relabelling of the mixture elements. -/
def Carry.relabel (σ : Equiv.Perm (Fin nMix)) (c : Carry nObs nMix n) : Carry nObs nMix n :=
  ⟨fun i e => c.states i (σ e), fun i e => c.upperChols i (σ e), fun i e => c.logWeights i (σ e)⟩

/-- Relabelling of the mixture elements in the output. -/
def StepOut.relabel (σ : Equiv.Perm (Fin nMix)) (o : StepOut nObs nMix n) : StepOut nObs nMix n :=
  ⟨o.loglikes, fun i e => o.residuals i (σ e), fun i e => o.residualSds i (σ e), fun i e => o.logWeights i (σ e), fun i e => o.states i (σ e)⟩

/-- Relabelling of the mixture elements in the result of an update. -/
def UpdateResult.relabel (σ : Equiv.Perm (Fin nMix)) (r : UpdateResult nObs nMix n) : UpdateResult nObs nMix n :=
  ⟨fun i e => r.states i (σ e), fun i e => r.upperChols i (σ e), fun i e => r.logWeights i (σ e), r.loglikes,
    fun i e => r.residuals i (σ e), fun i e => r.residualSds i (σ e)⟩

theorem logsumexp_perm {k : ℕ} (σ : Equiv.Perm (Fin k)) (x : Fin k → ℝ) : logsumexp (fun e => x (σ e)) = logsumexp x := by
  unfold logsumexp
  congr 1
  exact Equiv.sum_comp σ (fun e => Real.exp (x e))

theorem kalmanUpdate_relabel (σ : Equiv.Perm (Fin nMix)) (qr : QR) (states : Fin nObs → Fin nMix → Fin n → ℝ)
    (upperChols : Fin nObs → Fin nMix → Matrix (Fin n) (Fin n) ℝ) (loadings : Fin n → ℝ) (controlParams : Fin nC → ℝ) (measSd : ℝ)
    (measurements : Fin nObs → Option ℝ) (controls : Fin nObs → Fin nC → ℝ) (logWeights : Fin nObs → Fin nMix → ℝ) :
    kalmanUpdate qr (fun i e => states i (σ e)) (fun i e => upperChols i (σ e)) loadings controlParams measSd measurements controls
      (fun i e => logWeights i (σ e)) =
    (kalmanUpdate qr states upperChols loadings controlParams measSd measurements controls logWeights).relabel σ := by
  unfold kalmanUpdate UpdateResult.relabel
  have hc : ∀ i, measurements i = none ∨ ∃ y, measurements i = some y := fun i => by
    cases measurements i with
    | none => exact Or.inl rfl
    | some y => exact Or.inr ⟨y, rfl⟩
  rw [UpdateResult.mk.injEq]
  refine ⟨?_, ?_, ?_, ?_, ?_, ?_⟩
  · funext i e; rcases hc i with h | ⟨y, h⟩ <;> simp [h]
  · funext i e; rcases hc i with h | ⟨y, h⟩ <;> simp [h]
  · funext i e
    rcases hc i with h | ⟨y, h⟩
    · simp [h]
    · simp only [h, Option.isSome_some, if_true]
      by_cases h2 : nMix ≥ 2
      · simp only [if_pos h2]
        congr 1
        exact logsumexp_perm σ (fun e => normLogpdf (y - (∑ x, states i e x * loadings x + ∑ x, controls i x * controlParams x)) 0
          |qr (n + 1) (n + 1) (updateMatrix measSd (fun f => ∑ g, upperChols i e f g * loadings g) (upperChols i e)) 0 0| + logWeights i e)
      · simp only [if_neg h2]
  · funext i
    rcases hc i with h | ⟨y, h⟩
    · simp [h]
    · simp only [h, Option.isSome_some, if_true]
      by_cases h2 : nMix ≥ 2
      · simp only [if_pos h2]
        exact logsumexp_perm σ (fun e => normLogpdf (y - (∑ x, states i e x * loadings x + ∑ x, controls i x * controlParams x)) 0
          |qr (n + 1) (n + 1) (updateMatrix measSd (fun f => ∑ g, upperChols i e f g * loadings g) (upperChols i e)) 0 0| + logWeights i e)
      · simp only [if_neg h2]
        exact Equiv.sum_comp σ (fun e => normLogpdf (y - (∑ x, states i e x * loadings x + ∑ x, controls i x * controlParams x)) 0
          |qr (n + 1) (n + 1) (updateMatrix measSd (fun f => ∑ g, upperChols i e f g * loadings g) (upperChols i e)) 0 0|)
  · funext i e; rcases hc i with h | ⟨y, h⟩ <;> simp [h]
  · funext i e; rcases hc i with h | ⟨y, h⟩ <;> simp [h]

theorem step_relabel (σ : Equiv.Perm (Fin nMix)) (qr : QR) (fixed : ScanFixed nObs nT n nObserved nC θ) (c : Carry nObs nMix n)
    (a : LoopArgs nObs n nC) :
    step qr fixed (c.relabel σ) a = (step qr fixed c a).relabel σ ∧
    stepOut qr fixed (c.relabel σ) a = (stepOut qr fixed c a).relabel σ := by
  have h1 : (scanUpdate qr fixed (c.relabel σ) a).2 = (scanUpdate qr fixed c a).2.relabel σ := by
    unfold scanUpdate
    have := kalmanUpdate_relabel σ qr c.states c.upperChols a.loadings a.controlParams a.measSd a.measurements
      (fixed.controls (jaxIndex (nT + 1) a.period)) c.logWeights
    split <;> exact this
  have h2 : (scanUpdate qr fixed (c.relabel σ) a).1 = (scanUpdate qr fixed c a).1.relabel σ := by
    unfold scanUpdate at h1 ⊢
    split
    · next h =>
      simp only [h, if_true] at h1 ⊢
      rw [h1]
      rfl
    · next h =>
      simp only [h] at h1 ⊢
      rw [show (kalmanUpdate qr (c.relabel σ).states (c.relabel σ).upperChols a.loadings a.controlParams a.measSd a.measurements
        (fixed.controls (jaxIndex (nT + 1) a.period)) (c.relabel σ).logWeights) = _ from h1]
      rfl
  have h3 : ∀ d : Carry nObs nMix n, predictCarry qr fixed (d.relabel σ) a.period = (predictCarry qr fixed d a.period).relabel σ := fun d => rfl
  constructor
  · unfold step
    rw [h2, h3]
    split <;> rfl
  · simp only [stepOut, h1, h2]
    rfl

theorem outs_relabel (σ : Equiv.Perm (Fin nMix)) (qr : QR) (fixed : ScanFixed nObs nT n nObserved nC θ) (c : Carry nObs nMix n)
    (args : List (LoopArgs nObs n nC)) :
    outs qr fixed (c.relabel σ) args = (outs qr fixed c args).map (StepOut.relabel σ) := by
  induction args generalizing c with
  | nil => rfl
  | cons a as ih => simp only [outs, step_relabel, ih, List.map_cons]

/-- **C43.** Permuting the initial mixture elements permutes the filtered mixture elements and leaves the
contributions unchanged. -/
theorem C43_mixture_labels (σ : Equiv.Perm (Fin nMix)) {qr : QR} {fixed : ScanFixed nObs nT n nObserved nC θ} {clip : ClipOptions}
    {initial : Carry nObs nMix n} {args : List (LoopArgs nObs n nC)} {r} (hr : logLikelihood qr fixed clip initial args = .ok r) :
    ∃ r', logLikelihood qr fixed clip (initial.relabel σ) args = .ok r' ∧
      r'.contributions = r.contributions ∧ r'.value = r.value ∧ r'.outs = r.outs.map (StepOut.relabel σ) := by
  obtain ⟨r', hr'⟩ : ∃ r', logLikelihood qr fixed clip (initial.relabel σ) args = .ok r' :=
    logLikelihood_ok_iff.mpr (logLikelihood_ok_iff.mp ⟨r, hr⟩)
  obtain ⟨h1, _, h3, h4⟩ := logLikelihood_ok hr
  obtain ⟨h1', _, h3', h4'⟩ := logLikelihood_ok hr'
  have ho : r'.outs = r.outs.map (StepOut.relabel σ) := by rw [h1', h1, outs_relabel]
  refine ⟨r', hr', ?_, ?_, ho⟩
  · funext i
    rw [h3' i, h3 i, ho, List.map_map]
    rfl
  · rw [h4', h4, ho, List.map_map]
    rfl

/-! ### C33 -/

/-- **C33.** In an iteration of the filter that is not a measurement iteration the states, the Cholesky
factors and the filtered states are those before the iteration (or their prediction if this is the
last update of its period), whatever the measurement is. Its effect is restricted to the likelihood
and the mixture weights. -/
theorem C33_anchoring_keeps_states {qr : QR} {fixed : ScanFixed nObs nT n nObserved nC θ} {carry : Carry nObs nMix n}
    {a : LoopArgs nObs n nC} (ha : a.isMeasurement = false) {carry' out} (h : scanBody qr fixed carry a = .ok (carry', out)) :
    out.states = carry.states ∧
    (a.isPredict = false → carry'.states = carry.states ∧ carry'.upperChols = carry.upperChols) ∧
    (a.isPredict = true → ∀ p, scanPredict qr fixed carry a.period = .ok p → carry'.states = p.states ∧ carry'.upperChols = p.upperChols) := by
  have hs : nMix = 1 ∨ nObserved = 0 ∨ nObs = 0 := by
    by_contra hc
    have := scan_error hc qr fixed carry a []
    rw [scan, h] at this
    cases this
  rw [scanBody_ok hs] at h
  have h := Except.ok.inj h
  simp only [Prod.mk.injEq] at h
  obtain ⟨rfl, rfl⟩ := h
  refine ⟨?_, ?_, ?_⟩
  · simp [stepOut, scanUpdate, ha]
  · intro hp
    simp [step, hp, scanUpdate, ha]
  · intro hp p hpp
    rw [scanPredict_ok hs] at hpp
    have := Except.ok.inj hpp
    subst this
    simp only [step, hp, if_true, scanUpdate, ha]
    exact ⟨rfl, rfl⟩

/-! ### C41 -/

theorem lse_pair (a b : ℝ) : logsumexp ![a, b] = Real.log (Real.exp a + Real.exp b) := by
  simp [logsumexp, Fin.sum_univ_two]

theorem softmax_bounds {h : ℝ} (hh : 0 < h) (x l : ℝ) :
    max x l < logsumexp ![h * x, h * l] / h ∧ logsumexp ![h * x, h * l] / h ≤ max x l + Real.log 2 / h := by
  rw [lse_pair]
  have e1 : Real.exp (h * max x l) = max (Real.exp (h * x)) (Real.exp (h * l)) := by
    rcases le_total x l with hle | hle
    · rw [max_eq_right hle, max_eq_right (Real.exp_le_exp.mpr (mul_le_mul_of_nonneg_left hle hh.le))]
    · rw [max_eq_left hle, max_eq_left (Real.exp_le_exp.mpr (mul_le_mul_of_nonneg_left hle hh.le))]
  have p1 := Real.exp_pos (h * x)
  have p2 := Real.exp_pos (h * l)
  constructor
  · rw [lt_div_iff₀ hh, mul_comm, Real.lt_log_iff_exp_lt (by positivity), e1]
    exact max_lt (by linarith) (by linarith)
  · rw [div_le_iff₀ hh, add_mul, div_mul_cancel₀ _ hh.ne']
    rw [Real.log_le_iff_le_exp (by positivity), Real.exp_add, Real.exp_log (by norm_num), mul_comm (max x l), e1]
    have := le_max_left (Real.exp (h * x)) (Real.exp (h * l))
    have := le_max_right (Real.exp (h * x)) (Real.exp (h * l))
    linarith

theorem softmax_strictMono {h : ℝ} (hh : 0 < h) (l : ℝ) : StrictMono (fun x => logsumexp ![h * x, h * l] / h) := by
  intro x y hxy
  simp only [lse_pair]
  rw [div_lt_div_iff_of_pos_right hh]
  have p1 := Real.exp_pos (h * x)
  have p2 := Real.exp_pos (h * l)
  apply Real.log_lt_log (by positivity)
  have := Real.exp_lt_exp.mpr (mul_lt_mul_of_pos_left hxy hh)
  linarith

/-- **C41.** Soft clipping of an element: identity without bounds; with a lower bound the result is
above max(x, lower) by at most log(2)/hardness, with an upper bound it is below min(x, upper) by at
most log(2)/hardness, with both bounds the two statements hold one after the other; in all cases
it is strictly increasing. -/
theorem C41_soft_clipping {lh uh : ℝ} (hl : 0 < lh) (hu : 0 < uh) :
    (∀ x, softClipping x none none lh uh = x) ∧
    (∀ x l, max x l < softClipping x (some l) none lh uh ∧ softClipping x (some l) none lh uh ≤ max x l + Real.log 2 / lh) ∧
    (∀ x u, softClipping x none (some u) lh uh < min x u ∧ min x u - Real.log 2 / uh ≤ softClipping x none (some u) lh uh) ∧
    (∀ x l u, softClipping x (some l) (some u) lh uh = softClipping (softClipping x (some l) none lh uh) none (some u) lh uh) ∧
    (∀ lower upper, StrictMono (fun x => softClipping x lower upper lh uh)) := by
  have hup : ∀ x u, -logsumexp ![uh * -x, uh * -u] / uh < min x u ∧ min x u - Real.log 2 / uh ≤ -logsumexp ![uh * -x, uh * -u] / uh := by
    intro x u
    obtain ⟨h1, h2⟩ := softmax_bounds hu (-x) (-u)
    rw [max_neg_neg] at h1 h2
    rw [neg_div]
    constructor <;> linarith
  have hum : ∀ u, StrictMono (fun x => -logsumexp ![uh * -x, uh * -u] / uh) := by
    intro u x y hxy
    have := softmax_strictMono hu (-u) (neg_lt_neg hxy)
    simp only [neg_div] at this ⊢
    linarith
  refine ⟨fun x => rfl, fun x l => softmax_bounds hl x l, hup, fun x l u => rfl, ?_⟩
  intro lower upper
  cases lower with
  | none =>
    cases upper with
    | none => exact strictMono_id
    | some u => exact hum u
  | some l =>
    cases upper with
    | none => exact softmax_strictMono hl l
    | some u => exact (hum u).comp (softmax_strictMono hl l)

end Skill
