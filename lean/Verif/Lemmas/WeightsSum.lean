import Verif.Lemmas.MergedElements
import Verif.Lemmas.Scan
import Verif.Props.Filter
/- The weights of mixture elements sum to one after each update, for any model and any data. -/
namespace Skill
open Matrix Spec
variable {nObs nMix n nT nObserved nC : ℕ} {θ : Type}

theorem kalmanUpdate_weights (qr : QR) (states : Fin nObs → Fin nMix → Fin n → ℝ) (upperChols : Fin nObs → Fin nMix → Matrix (Fin n) (Fin n) ℝ) (loadings : Fin n → ℝ) (controlParams : Fin nC → ℝ) (measSd : ℝ)
    (y : Fin nObs → Option ℝ) (x : Fin nObs → Fin nC → ℝ) {w : Fin nObs → Fin nMix → ℝ} (hw : WeightsOk w) : WeightsOk (kalmanUpdate qr states upperChols loadings controlParams measSd y x w).logWeights := by
  intro i
  unfold kalmanUpdate
  dsimp only
  by_cases hy : (y i).isSome = true
  · simp only [hy, if_true]
    by_cases h2 : nMix ≥ 2
    · simp only [h2, if_true, Real.exp_sub]
      rw [← Finset.sum_div, exp_logsumexp (by omega), div_self]
      have : Nonempty (Fin nMix) := ⟨⟨0, by omega⟩⟩
      exact (Finset.sum_pos (fun e _ => Real.exp_pos _) Finset.univ_nonempty).ne'
    · simp only [h2, if_false]
      exact hw i
  · simp only [hy]
    exact hw i

theorem scanUpdate_weightsOk (qr : QR) (fixed : ScanFixed nObs nT n nObserved nC θ) {c : Carry nObs nMix n} (a : LoopArgs nObs n nC) (hw : WeightsOk c.logWeights) :
    WeightsOk (scanUpdate qr fixed c a).1.logWeights ∧ WeightsOk (scanUpdate qr fixed c a).2.logWeights := by
  have h := kalmanUpdate_weights qr c.states c.upperChols a.loadings a.controlParams a.measSd a.measurements (fixed.controls (jaxIndex (nT + 1) a.period)) hw
  unfold scanUpdate
  dsimp only
  split_ifs <;> exact ⟨h, h⟩

theorem outs_weightsOk (qr : QR) (fixed : ScanFixed nObs nT n nObserved nC θ) (as : List (LoopArgs nObs n nC)) {c : Carry nObs nMix n} (hw : WeightsOk c.logWeights) : ∀ o ∈ outs qr fixed c as, WeightsOk o.logWeights := by
  induction as generalizing c with
  | nil =>
    intro o ho
    cases ho
  | cons a as ih =>
    intro o ho
    rcases List.mem_cons.mp ho with rfl | ho
    · exact (scanUpdate_weightsOk qr fixed a hw).2
    · refine ih ?_ o ho
      unfold step
      split_ifs
      · exact (scanUpdate_weightsOk qr fixed a hw).1
      · exact (scanUpdate_weightsOk qr fixed a hw).1

end Skill
