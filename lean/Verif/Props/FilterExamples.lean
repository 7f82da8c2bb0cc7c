import Verif.Props.Filter
import Verif.Props.KalmanPredict
/-
Concrete runs of the filter that meet the hypotheses of C28-C44: two individuals, two mixture elements, two
latent factors, two periods, one control, a nonlinear transition function, a missing measurement and
an anchoring update.
-/
namespace Skill
namespace Ex
open Matrix Spec

/-- Model quantities; the transition is f₀' = c * f₀ * f₁, f₁' = f₁. -/
noncomputable def fixed : ScanFixed 2 0 2 0 1 ℝ where
  controls := fun _ _ _ => 1
  observed := fun _ _ o => o.elim0
  transition := fun _ => 1 / 2
  shockSds := fun _ _ => 1
  scaling := fun _ _ => 2
  constants := fun _ _ => 1
  sigmaScalingFactor := sigmaScalingFactor 2 2
  sigmaWeights := sigmaWeights 2 2
  func := fun c z => ![c * z 0 * z 1, z 1]

/-- Initial distribution: equal weights and different means. -/
noncomputable def initial : Carry 2 2 2 where
  states := fun _ e _ => e.val
  upperChols := fun _ _ => 1
  logWeights := fun _ _ => Real.log (1 / 2)

/-- A measurement of both factors; the second individual has a missing value. -/
noncomputable def meas0 : LoopArgs 2 2 1 := ⟨0, ![1, 1], ![1], 1, ![some 3, none], true, false⟩
/-- A measurement of the first factor. -/
noncomputable def meas1 : LoopArgs 2 2 1 := ⟨0, ![2, 0], ![1], 1 / 2, ![some 1, some 2], true, false⟩
/-- An anchoring update in the second (last) period. -/
noncomputable def anch : LoopArgs 2 2 1 := ⟨-1, ![2, 0], ![1], 1, ![some 1, some 2], false, false⟩

theorem regularFixed : RegularFixed fixed 2 :=
  ⟨by norm_num, rfl, rfl, fun _ _ => Or.inl (by simp [fixed])⟩

theorem initial_regular (i e) : RegularUpper (initial.upperChols i e) :=
  ⟨fun f g h => by simp [initial, Matrix.one_apply, h.ne'], fun f => by simp [initial]⟩

theorem initial_weights (i) : ∑ e, Real.exp (initial.logWeights i e) = 1 := by
  simp [initial, Real.exp_neg, Real.exp_log]

theorem sds : ∀ a ∈ [meas0, meas1] ++ [anch], a.measSd ≠ 0 := by
  intro a ha
  simp only [List.cons_append, List.nil_append, List.mem_cons, List.not_mem_nil, or_false] at ha
  rcases ha with rfl | rfl | rfl <;> simp [meas0, meas1, anch]

/-- There is a QR routine as assumed in the theorems. -/
theorem validQR : ∃ qr, ValidQR qr := exists_validQR

/-- C28, C29, C30, C32, C33, C39, C40, C43: the evaluation succeeds. -/
theorem run_ok (qr : QR) (clip : ClipOptions) : ∃ r, logLikelihood qr fixed clip initial (flagLast true [meas0, meas1] ++ [anch]) = .ok r :=
  logLikelihood_ok_iff.mpr (Or.inr (Or.inr (Or.inl rfl)))

/-- C31: the two measurements of the first period can be swapped. -/
theorem run_swapped {qr : QR} (hqr : ValidQR qr) :
    ∃ r r', logLikelihood qr fixed ⟨none, none, 1, 1⟩ initial ([] ++ flagLast true [meas0, meas1] ++ [anch]) = .ok r ∧
      logLikelihood qr fixed ⟨none, none, 1, 1⟩ initial ([] ++ flagLast true [meas1, meas0] ++ [anch]) = .ok r' ∧ r.value = r'.value := by
  obtain ⟨r, hr⟩ := run_ok qr ⟨none, none, 1, 1⟩
  obtain ⟨r', hr'⟩ : ∃ r', logLikelihood qr fixed ⟨none, none, 1, 1⟩ initial ([] ++ flagLast true [meas1, meas0] ++ [anch]) = .ok r' :=
    logLikelihood_ok_iff.mpr (Or.inr (Or.inr (Or.inl rfl)))
  refine ⟨r, r', hr, hr', ?_⟩
  exact (C31_order_irrelevant (pre := []) (post := [anch]) hqr regularFixed initial_regular initial_weights (List.Perm.swap meas1 meas0 []) true (t := 0)
    (by simp [meas0, meas1]) (by simp [meas0, meas1]) (by simpa using sds) hr hr').2.1

/-- C32: the first update and the state after it. -/
theorem first_step (qr : QR) : ∃ c' out, scan qr fixed initial [] = .ok (initial, []) ∧ scanBody qr fixed initial meas0 = .ok (c', out) :=
  ⟨_, _, rfl, scanBody_ok (Or.inr (Or.inl rfl)) _ _ _ _⟩

/-- C28: the residual variance of the first measurement is 3 and hence positive. -/
theorem variance (i e) : residualVariance ((initial.upperChols i e)ᵀ * initial.upperChols i e) meas0.loadings meas0.measSd = 3 := by
  simp [residualVariance, initial, meas0, dotProduct, Fin.sum_univ_two]
  norm_num

end Ex
end Skill
