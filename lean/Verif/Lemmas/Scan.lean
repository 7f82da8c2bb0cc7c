import Verif.Model.Likelihood
import Verif.Lemmas.Belief
import Verif.Props.KalmanPredict
/-
The scan of the likelihood function.
-/
namespace Skill
open Matrix Spec
variable {nObs nMix n nT nObserved nC : ℕ} {θ : Type}

/-- The predict step if there is no shape error. -/
noncomputable def predictCarry (qr : QR) (fixed : ScanFixed nObs nT n nObserved nC θ) (carry : Carry nObs nMix n)
    (t : Int) : Carry nObs nMix n :=
  let r := predictMoments qr fixed.sigmaWeights (fixed.shockSds (jaxIndex nT t))
    (transformSigmaPoints (fun i e s => Fin.append (latentSigmaPoints carry.states carry.upperChols fixed.sigmaScalingFactor i e s)
      (fixed.observed (jaxIndex (nT + 1) t) i)) (fixed.func (fixed.transition (jaxIndex nT t)))
    ![fixed.scaling (jaxIndex (nT + 1) t), fixed.scaling (jaxIndex (nT + 1) (t + 1))]
    ![fixed.constants (jaxIndex (nT + 1) t), fixed.constants (jaxIndex (nT + 1) (t + 1))])
  { states := r.1, upperChols := r.2, logWeights := carry.logWeights }

/-- One step if there is no shape error. -/
noncomputable def step (qr : QR) (fixed : ScanFixed nObs nT n nObserved nC θ) (carry : Carry nObs nMix n)
    (a : LoopArgs nObs n nC) : Carry nObs nMix n :=
  if a.isPredict then predictCarry qr fixed (scanUpdate qr fixed carry a).1 a.period else (scanUpdate qr fixed carry a).1

/-- The output of one step. -/
noncomputable def stepOut (qr : QR) (fixed : ScanFixed nObs nT n nObserved nC θ) (carry : Carry nObs nMix n)
    (a : LoopArgs nObs n nC) : StepOut nObs nMix n :=
  let u := scanUpdate qr fixed carry a
  { loglikes := u.2.loglikes, residuals := u.2.residuals, residualSds := u.2.residualSds, logWeights := u.2.logWeights, states := u.1.states }

/-- The outputs of all steps. -/
noncomputable def outs (qr : QR) (fixed : ScanFixed nObs nT n nObserved nC θ) :
    Carry nObs nMix n → List (LoopArgs nObs n nC) → List (StepOut nObs nMix n)
  | _, [] => []
  | c, a :: as => stepOut qr fixed c a :: outs qr fixed (step qr fixed c a) as

theorem scanPredict_ok (h : nMix = 1 ∨ nObserved = 0 ∨ nObs = 0) (qr : QR) (fixed : ScanFixed nObs nT n nObserved nC θ)
    (carry : Carry nObs nMix n) (t : Int) : scanPredict qr fixed carry t = .ok (predictCarry qr fixed carry t) := by
  unfold scanPredict kalmanPredict
  rw [calculateSigmaPoints_ok h]
  rfl

theorem scanBody_ok (h : nMix = 1 ∨ nObserved = 0 ∨ nObs = 0) (qr : QR) (fixed : ScanFixed nObs nT n nObserved nC θ)
    (carry : Carry nObs nMix n) (a : LoopArgs nObs n nC) :
    scanBody qr fixed carry a = .ok (step qr fixed carry a, stepOut qr fixed carry a) := by
  unfold scanBody
  simp only [scanPredict_ok h]
  rfl

theorem scan_ok (h : nMix = 1 ∨ nObserved = 0 ∨ nObs = 0) (qr : QR) (fixed : ScanFixed nObs nT n nObserved nC θ)
    (carry : Carry nObs nMix n) (args : List (LoopArgs nObs n nC)) :
    scan qr fixed carry args = .ok (args.foldl (step qr fixed) carry, outs qr fixed carry args) := by
  induction args generalizing carry with
  | nil => rfl
  | cons a as ih =>
    rw [scan, scanBody_ok h]
    show (scan qr fixed (step qr fixed carry a) as >>= fun p => pure (p.1, stepOut qr fixed carry a :: p.2)) = _
    rw [ih]
    rfl

theorem scan_error (h : ¬ (nMix = 1 ∨ nObserved = 0 ∨ nObs = 0)) (qr : QR) (fixed : ScanFixed nObs nT n nObserved nC θ)
    (carry : Carry nObs nMix n) (a : LoopArgs nObs n nC) (as : List (LoopArgs nObs n nC)) :
    scan qr fixed carry (a :: as) = .error .typeError := by
  have hp : ∀ c : Carry nObs nMix n, scanPredict qr fixed c a.period = .error .typeError := by
    intro c
    unfold scanPredict kalmanPredict calculateSigmaPoints
    rw [if_neg (fun h' => h (reshapeOk_iff.mp h'))]
    rfl
  have : scanBody qr fixed carry a = .error .typeError := by
    unfold scanBody
    simp only [hp]
    rfl
  rw [scan, this]
  rfl

/-- A scan over at least one update is successful exactly if there is no shape error. -/
theorem scan_ok_iff (qr : QR) (fixed : ScanFixed nObs nT n nObserved nC θ)
    (carry : Carry nObs nMix n) {args : List (LoopArgs nObs n nC)} {r} (hr : scan qr fixed carry args = .ok r) :
    r = (args.foldl (step qr fixed) carry, outs qr fixed carry args) := by
  by_cases h : nMix = 1 ∨ nObserved = 0 ∨ nObs = 0
  · rw [scan_ok h] at hr; exact (Except.ok.inj hr).symm
  · cases args with
    | nil => exact (Except.ok.inj hr).symm
    | cons a as => rw [scan_error h] at hr; cases hr

theorem outs_append (qr : QR) (fixed : ScanFixed nObs nT n nObserved nC θ) (c : Carry nObs nMix n) (as bs : List (LoopArgs nObs n nC)) :
    outs qr fixed c (as ++ bs) = outs qr fixed c as ++ outs qr fixed (as.foldl (step qr fixed) c) bs := by
  induction as generalizing c with
  | nil => rfl
  | cons a as ih => simp only [List.cons_append, outs, List.foldl_cons, ih]

theorem outs_length (qr : QR) (fixed : ScanFixed nObs nT n nObserved nC θ) (c : Carry nObs nMix n) (as : List (LoopArgs nObs n nC)) :
    (outs qr fixed c as).length = as.length := by
  induction as generalizing c with
  | nil => rfl
  | cons a as ih => simp only [outs, List.length_cons, ih]

theorem logLikelihood_ok {qr : QR} {fixed : ScanFixed nObs nT n nObserved nC θ} {clip : ClipOptions}
    {initial : Carry nObs nMix n} {args : List (LoopArgs nObs n nC)} {r} (hr : logLikelihood qr fixed clip initial args = .ok r) :
    r.outs = outs qr fixed initial args ∧ r.allContributions = r.outs.map (fun o => o.loglikes) ∧
    (∀ i, r.contributions i = (r.outs.map (fun o => softClipping (o.loglikes i) clip.lower clip.upper clip.lowerHardness clip.upperHardness)).sum) ∧
    r.value = (r.outs.map (fun o => ∑ i, softClipping (o.loglikes i) clip.lower clip.upper clip.lowerHardness clip.upperHardness)).sum := by
  unfold logLikelihood at hr
  cases hs : scan qr fixed initial args with
  | error e => rw [hs] at hr; cases hr
  | ok p =>
    rw [hs] at hr
    have hp := scan_ok_iff qr fixed initial hs
    have hr := Except.ok.inj hr
    subst hr
    rw [hp]
    simp only [List.map_map, true_and]
    exact ⟨fun i => rfl, rfl⟩

theorem logLikelihood_ok_iff {qr : QR} {fixed : ScanFixed nObs nT n nObserved nC θ} {clip : ClipOptions}
    {initial : Carry nObs nMix n} {args : List (LoopArgs nObs n nC)} :
    (∃ r, logLikelihood qr fixed clip initial args = .ok r) ↔ args = [] ∨ nMix = 1 ∨ nObserved = 0 ∨ nObs = 0 := by
  unfold logLikelihood
  constructor
  · rintro ⟨r, hr⟩
    by_cases h : nMix = 1 ∨ nObserved = 0 ∨ nObs = 0
    · exact Or.inr h
    · cases args with
      | nil => exact Or.inl rfl
      | cons a as => rw [scan_error h] at hr; cases hr
  · rintro (rfl | h)
    · exact ⟨_, rfl⟩
    · rw [scan_ok h]
      exact ⟨_, rfl⟩

end Skill
