import Verif.Props.Rescale
/-
A concrete linear model that meets the hypotheses of C42, C45 and C65: two individuals, two mixture
elements, two factors, two periods and a missing measurement.
-/
namespace Skill
namespace Ex
open Matrix MeasureTheory Spec

/-- f₀' = f₀ / 2 + f₁ + 1 and f₁' = f₁ (the coefficients are the parameter); the only control is the constant. -/
noncomputable def linear (A : Fin 2 → Fin (2 + 0) → ℝ) (b q : Fin 2 → ℝ) : ScanFixed 2 0 2 0 1 ((Fin 2 → Fin (2 + 0) → ℝ) × (Fin 2 → ℝ)) where
  controls := fun _ _ _ => 1
  observed := fun _ _ o => o.elim0
  transition := fun _ => (A, b)
  shockSds := fun _ => q
  scaling := fun _ _ => 1
  constants := fun _ _ => 0
  sigmaScalingFactor := sigmaScalingFactor 2 2
  sigmaWeights := sigmaWeights 2 2
  func := fun p z f => p.1 f ⬝ᵥ z + p.2 f

noncomputable def A : Fin 2 → Fin (2 + 0) → ℝ := ![![1 / 2, 1], ![0, 1]]

theorem linear_func (A b q) (t : Fin 1) : (linear A b q).func ((linear A b q).transition t) = fun z f => A f ⬝ᵥ z + b f := rfl
theorem linear_anch (A b q A' b' q') (t f) : (linear A b q).scaling t f = 1 ∧ (linear A b q).constants t f = 0 ∧ (linear A' b' q').scaling t f = 1 ∧ (linear A' b' q').constants t f = 0 :=
  ⟨rfl, rfl, rfl, rfl⟩
theorem linear_controls (A b q A' b' q') : (linear A b q).controls = (linear A' b' q').controls := rfl
theorem linear_observed (A b q A' b' q') : (linear A b q).observed = (linear A' b' q').observed := rfl

theorem linear_sigma (A b q) : SigmaOptions (linear A b q) 2 := ⟨by norm_num, by norm_num, rfl, rfl⟩
theorem linear_affine (A b q) : AffineTransitions (linear A b q) := fun _ => ⟨A, b, rfl⟩

/-- A measurement in the second period. -/
noncomputable def meas2 : LoopArgs 2 2 1 := ⟨-1, ![1, 2], ![1], 1, ![some 1, some 2], true, false⟩

noncomputable def linearArgs : List (LoopArgs 2 2 1) := [meas0, { meas1 with isPredict := true }, meas2]

theorem linearArgs_sd : ∀ a ∈ linearArgs, a.measSd ≠ 0 := by
  intro a ha
  simp only [linearArgs, List.mem_cons, List.not_mem_nil, or_false] at ha
  rcases ha with rfl | rfl | rfl <;> simp [meas0, meas1, meas2]

theorem linearArgs_meas : ∀ a ∈ linearArgs, a.isMeasurement = true := by
  intro a ha
  simp only [linearArgs, List.mem_cons, List.not_mem_nil, or_false] at ha
  rcases ha with rfl | rfl | rfl <;> rfl

/-- C42 applies to both individuals (the second one has a missing measurement). -/
theorem exact_likelihood {qr : QR} (hqr : ValidQR qr) (i : Fin 2) :
    ∃ contribution : (Fin (linearArgs.map (stepOf (linear A ![1, 0] ![1, 2]) i)).length → ℝ) → ℝ, (∀ y, ∃ r, logLikelihood qr (linear A ![1, 0] ![1, 2]) ⟨none, none, 1, 1⟩ initial
        (fill (linear A ![1, 0] ![1, 2]) i linearArgs y) = .ok r ∧ r.contributions i = contribution y) ∧
      ∑ e, ENNReal.ofReal (Real.exp (initial.logWeights i e)) • dataLaw (initial.states i e) (initial.upperChols i e)
          (linearArgs.map (stepOf (linear A ![1, 0] ![1, 2]) i)) =
        (baseMeasure (linearArgs.map (stepOf (linear A ![1, 0] ![1, 2]) i))).withDensity (fun y => ENNReal.ofReal (Real.exp (contribution y))) :=
  C42_exact_likelihood hqr (linear_sigma _ _ _) (linear_affine _ _ _) (Or.inr rfl) ⟨rfl, rfl⟩ initial_weights linearArgs_sd linearArgs_meas i

/-- Parameters of the rescaled model. -/
noncomputable def scaledA (s : Fin 2 → ℝ) : Fin 2 → Fin (2 + 0) → ℝ := fun f => Fin.append (fun g => s f * A f (Fin.castAdd 0 g) / s g) (fun o => o.elim0)

/-- C45 applies with the scale factors 2 and -3. -/
theorem rescaled {qr : QR} (hqr : ValidQR qr) (clip : ClipOptions) :
    ∃ r r', logLikelihood qr (linear A ![1, 0] ![1, 2]) clip initial linearArgs = .ok r ∧
      logLikelihood qr (linear (scaledA ![2, -3]) ![2, 0] ![2, 6]) clip
        (scaleInitial ![2, -3] initial) (linearArgs.map (scaleLoadings ![2, -3])) = .ok r' ∧
      r'.value = r.value ∧ r'.contributions = r.contributions ∧ r'.allContributions = r.allContributions := by
  have h1 : ∀ t, (linear (scaledA ![2, -3]) ![2, 0] ![2, 6]).func ((linear (scaledA ![2, -3]) ![2, 0] ![2, 6]).transition t) =
      fun z f => (Fin.append (fun g => (![2, -3] : Fin 2 → ℝ) f * A f (Fin.castAdd 0 g) / (![2, -3] : Fin 2 → ℝ) g)
        (fun o => (![2, -3] : Fin 2 → ℝ) f * A f (Fin.natAdd 2 o))) ⬝ᵥ z + (![2, -3] : Fin 2 → ℝ) f * (![1, 0] : Fin 2 → ℝ) f := by
    intro t
    rw [linear_func]
    funext z f
    have e : scaledA ![2, -3] f = Fin.append (fun g => (![2, -3] : Fin 2 → ℝ) f * A f (Fin.castAdd 0 g) / (![2, -3] : Fin 2 → ℝ) g)
        (fun o => (![2, -3] : Fin 2 → ℝ) f * A f (Fin.natAdd 2 o)) := by
      unfold scaledA
      congr 1
      funext o
      exact o.elim0
    rw [e]
    congr 1
    fin_cases f <;> simp
  have h2 : ∀ t f, (linear (scaledA ![2, -3]) ![2, 0] ![2, 6]).shockSds t f = |(![2, -3] : Fin 2 → ℝ) f| * (linear A ![1, 0] ![1, 2]).shockSds t f := by
    intro t f
    fin_cases f <;> simp [linear]
    norm_num
  exact C45_rescaling (fixed := linear A ![1, 0] ![1, 2]) (fixed' := linear (scaledA ![2, -3]) ![2, 0] ![2, 6]) (initial := initial) (args := linearArgs)
    hqr (linear_sigma _ _ _) (linear_sigma _ _ _) (Or.inr rfl) (s := ![2, -3]) (fun f => by fin_cases f <;> simp)
    (linear_controls _ _ _ _ _ _) (linear_observed _ _ _ _ _ _) (linear_anch _ _ _ _ _ _) (A := fun _ => A) (b := fun _ => ![1, 0])
    (linear_func _ _ _) h1 h2 initial_weights linearArgs_sd clip

/-- Constants of the shifted model. -/
noncomputable def shiftedb (τ : Fin 2 → ℝ) : Fin 2 → ℝ := fun f => (![1, 0] : Fin 2 → ℝ) f + τ f - ∑ g, A f (Fin.castAdd 0 g) * τ g

/-- C65 applies with the shifts 1 and -2. -/
theorem shifted {qr : QR} (hqr : ValidQR qr) (clip : ClipOptions) :
    ∃ r r', logLikelihood qr (linear A ![1, 0] ![1, 2]) clip initial linearArgs = .ok r ∧
      logLikelihood qr (linear A (shiftedb ![1, -2]) ![1, 2]) clip
        (shiftInitial ![1, -2] initial) (linearArgs.map (shiftIntercept 0 ![1, -2])) = .ok r' ∧
      r'.value = r.value ∧ r'.contributions = r.contributions ∧ r'.allContributions = r.allContributions :=
  C65_location (fixed := linear A ![1, 0] ![1, 2]) (fixed' := linear A (shiftedb ![1, -2]) ![1, 2]) (initial := initial) (args := linearArgs)
    hqr (linear_sigma _ _ _) (linear_sigma _ _ _) (Or.inr rfl) ![1, -2] (k := 0) (fun _ _ => rfl)
    (linear_controls _ _ _ _ _ _) (linear_observed _ _ _ _ _ _) (linear_anch _ _ _ _ _ _) (A := fun _ => A) (b := fun _ => ![1, 0])
    (linear_func _ _ _) (linear_func _ _ _) rfl initial_weights linearArgs_sd clip

end Ex
end Skill
