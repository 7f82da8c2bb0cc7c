import Verif.Props.Likelihood
import Verif.Model.DebugData
/- Two runs of the filter, where several mixture elements of one are merged into one mixture element of the other. -/
namespace Skill
open Matrix

section weights
variable {k k' : ℕ}

theorem one_le_of_sum {w : Fin k → ℝ} (h : ∑ e, Real.exp (w e) = 1) : 1 ≤ k := by
  rcases Nat.eq_zero_or_pos k with rfl | hk
  · simp at h
  · exact hk

/-- The log likelihood of a measurement for given weights of the mixture elements, as in `kalmanUpdate`. -/
theorem loglike_eq {ll w : Fin k → ℝ} (h : ∑ e, Real.exp (w e) = 1) : (if k ≥ 2 then logsumexp (fun e => ll e + w e) else ∑ e, ll e) = logsumexp (fun e => ll e + w e) := by
  split_ifs with hk
  · rfl
  · obtain rfl : k = 1 := by have := one_le_of_sum h; omega
    simp only [logsumexp, Finset.univ_unique, Finset.sum_singleton, Real.log_exp] at h ⊢
    rw [Real.exp_eq_one_iff] at h
    rw [h, add_zero]

theorem newWeight_eq {ll w : Fin k → ℝ} (h : ∑ e, Real.exp (w e) = 1) (e : Fin k) :
    (if k ≥ 2 then ll e + w e - (if k ≥ 2 then logsumexp (fun e => ll e + w e) else ∑ e, ll e) else w e) = ll e + w e - logsumexp (fun e => ll e + w e) := by
  rw [loglike_eq h]
  split_ifs with hk
  · rfl
  · obtain rfl : k = 1 := by have := one_le_of_sum h; omega
    obtain rfl : e = 0 := Subsingleton.elim _ _
    simp only [logsumexp, Finset.univ_unique, Finset.sum_singleton, Real.log_exp]
    have : (default : Fin 1) = 0 := rfl
    rw [this]
    simp only [Finset.univ_unique, Finset.sum_singleton, this] at h
    rw [Real.exp_eq_one_iff] at h
    rw [h]
    ring

theorem exp_logsumexp {x : Fin k → ℝ} (hk : 1 ≤ k) : Real.exp (logsumexp x) = ∑ e, Real.exp (x e) := by
  haveI : Nonempty (Fin k) := ⟨⟨0, hk⟩⟩
  exact Real.exp_log (Finset.sum_pos (fun e _ => Real.exp_pos _) Finset.univ_nonempty)

/-- The weights `w'` add up to the weights `w` of the merged elements, which sum to one. -/
structure WeightsMerge (σ : Fin k' → Fin k) (w' : Fin k' → ℝ) (w : Fin k → ℝ) : Prop where
  weights : ∀ e, ∑ e' with σ e' = e, Real.exp (w' e') = Real.exp (w e)
  total : ∑ e, Real.exp (w e) = 1

variable {σ : Fin k' → Fin k} {w' : Fin k' → ℝ} {w : Fin k → ℝ}

theorem WeightsMerge.sum (h : WeightsMerge σ w' w) (g : Fin k → ℝ) : ∑ e', g (σ e') * Real.exp (w' e') = ∑ e, g e * Real.exp (w e) := by
  rw [← Finset.sum_fiberwise Finset.univ σ]
  refine Finset.sum_congr rfl (fun e _ => ?_)
  rw [← h.weights e, Finset.mul_sum]
  refine Finset.sum_congr rfl (fun e' he => ?_)
  rw [(Finset.mem_filter.mp he).2]

theorem WeightsMerge.total' (h : WeightsMerge σ w' w) : ∑ e', Real.exp (w' e') = 1 := by
  have := h.sum (fun _ => 1)
  simp only [one_mul] at this
  rw [this, h.total]

theorem WeightsMerge.logsumexp (h : WeightsMerge σ w' w) (ll : Fin k → ℝ) : logsumexp (fun e' => ll (σ e') + w' e') = logsumexp (fun e => ll e + w e) := by
  unfold Skill.logsumexp
  congr 1
  simp only [Real.exp_add]
  exact h.sum (fun e => Real.exp (ll e))

theorem WeightsMerge.update (h : WeightsMerge σ w' w) (ll : Fin k → ℝ) :
    WeightsMerge σ (fun e' => ll (σ e') + w' e' - Skill.logsumexp (fun e' => ll (σ e') + w' e')) (fun e => ll e + w e - Skill.logsumexp (fun e => ll e + w e)) where
  weights e := by
    rw [h.logsumexp, Real.exp_sub, Real.exp_add, ← h.weights e, Finset.mul_sum, Finset.sum_div]
    refine Finset.sum_congr rfl (fun e' he => ?_)
    rw [Real.exp_sub, Real.exp_add, (Finset.mem_filter.mp he).2]
  total := by
    simp only [Real.exp_sub]
    rw [← Finset.sum_div, exp_logsumexp (one_le_of_sum h.total), div_self]
    haveI : Nonempty (Fin k) := ⟨⟨0, one_le_of_sum h.total⟩⟩
    exact (Finset.sum_pos (fun e _ => Real.exp_pos _) Finset.univ_nonempty).ne'

end weights

section scan
variable {nObs k k' n nT nObserved nC : ℕ} {θ : Type}

/-- The elements of `c'` that are mapped to the same element of `c` have the same states and covariances, their weights add up. -/
structure Carry.Merges (σ : Fin k' → Fin k) (c' : Carry nObs k' n) (c : Carry nObs k n) : Prop where
  states : ∀ i e, c'.states i e = c.states i (σ e)
  upperChols : ∀ i e, c'.upperChols i e = c.upperChols i (σ e)
  logWeights : ∀ i, WeightsMerge σ (c'.logWeights i) (c.logWeights i)

/-- The same for the output of a step. -/
structure StepOut.Merges (σ : Fin k' → Fin k) (o' : StepOut nObs k' n) (o : StepOut nObs k n) : Prop where
  loglikes : o'.loglikes = o.loglikes
  residuals : ∀ i e, o'.residuals i e = o.residuals i (σ e)
  residualSds : ∀ i e, o'.residualSds i e = o.residualSds i (σ e)
  states : ∀ i e, o'.states i e = o.states i (σ e)
  logWeights : ∀ i, WeightsMerge σ (o'.logWeights i) (o.logWeights i)

/-- The same for the result of an update. -/
structure UpdateResult.Merges (σ : Fin k' → Fin k) (r' : UpdateResult nObs k' n) (r : UpdateResult nObs k n) : Prop where
  loglikes : r'.loglikes = r.loglikes
  residuals : ∀ i e, r'.residuals i e = r.residuals i (σ e)
  residualSds : ∀ i e, r'.residualSds i e = r.residualSds i (σ e)
  states : ∀ i e, r'.states i e = r.states i (σ e)
  upperChols : ∀ i e, r'.upperChols i e = r.upperChols i (σ e)
  logWeights : ∀ i, WeightsMerge σ (r'.logWeights i) (r.logWeights i)

variable {σ : Fin k' → Fin k} {c' : Carry nObs k' n} {c : Carry nObs k n}

theorem kalmanUpdate_merges (h : c'.Merges σ c) (qr : QR) (loadings : Fin n → ℝ) (controlParams : Fin nC → ℝ) (measSd : ℝ) (measurements : Fin nObs → Option ℝ) (controls : Fin nObs → Fin nC → ℝ) :
    (kalmanUpdate qr c'.states c'.upperChols loadings controlParams measSd measurements controls c'.logWeights).Merges σ
      (kalmanUpdate qr c.states c.upperChols loadings controlParams measSd measurements controls c.logWeights) := by
  have hc : ∀ i, measurements i = none ∨ ∃ y, measurements i = some y := fun i => by
    cases measurements i with
    | none => exact Or.inl rfl
    | some y => exact Or.inr ⟨y, rfl⟩
  have hs := h.states
  have hu := h.upperChols
  constructor
  · funext i
    unfold kalmanUpdate
    rcases hc i with e | ⟨y, e⟩
    · simp [e]
    · simp only [e, Option.isSome_some, if_true]
      rw [loglike_eq (h.logWeights i).total', loglike_eq (h.logWeights i).total]
      simp only [hs, hu]
      exact (h.logWeights i).logsumexp (fun e => normLogpdf (y - (∑ x, c.states i e x * loadings x + ∑ x, controls i x * controlParams x)) 0
          |qr (n + 1) (n + 1) (updateMatrix measSd (fun f => ∑ g, c.upperChols i e f g * loadings g) (c.upperChols i e)) 0 0|)
  · intro i e'
    unfold kalmanUpdate
    rcases hc i with e | ⟨y, e⟩ <;> simp [e, hs, hu]
  · intro i e'
    unfold kalmanUpdate
    rcases hc i with e | ⟨y, e⟩ <;> simp [e, hs, hu]
  · intro i e'
    unfold kalmanUpdate
    rcases hc i with e | ⟨y, e⟩ <;> simp [e, hs, hu]
  · intro i e'
    unfold kalmanUpdate
    rcases hc i with e | ⟨y, e⟩ <;> simp [e, hs, hu]
  · intro i
    unfold kalmanUpdate
    rcases hc i with e | ⟨y, e⟩
    · simp only [e, Option.isSome_none]
      exact h.logWeights i
    · simp only [e, Option.isSome_some, if_true]
      have h1 := (h.logWeights i).update (fun e => normLogpdf (y - (∑ x, c.states i e x * loadings x + ∑ x, controls i x * controlParams x)) 0
          |qr (n + 1) (n + 1) (updateMatrix measSd (fun f => ∑ g, c.upperChols i e f g * loadings g) (c.upperChols i e)) 0 0|)
      convert h1 using 1
      · funext e'
        simp only [hs, hu]
        exact newWeight_eq (ll := fun e' => normLogpdf (y - (∑ x, c.states i (σ e') x * loadings x + ∑ x, controls i x * controlParams x)) 0
          |qr (n + 1) (n + 1) (updateMatrix measSd (fun f => ∑ g, c.upperChols i (σ e') f g * loadings g) (c.upperChols i (σ e'))) 0 0|) (h.logWeights i).total' e'
      · funext e'
        exact newWeight_eq (ll := fun e => normLogpdf (y - (∑ x, c.states i e x * loadings x + ∑ x, controls i x * controlParams x)) 0
          |qr (n + 1) (n + 1) (updateMatrix measSd (fun f => ∑ g, c.upperChols i e f g * loadings g) (c.upperChols i e)) 0 0|) (h.logWeights i).total e'

theorem step_merges (h : c'.Merges σ c) (qr : QR) (fixed : ScanFixed nObs nT n nObserved nC θ) (a : LoopArgs nObs n nC) :
    (step qr fixed c' a).Merges σ (step qr fixed c a) ∧ (stepOut qr fixed c' a).Merges σ (stepOut qr fixed c a) := by
  have hu := kalmanUpdate_merges h qr a.loadings a.controlParams a.measSd a.measurements (fixed.controls (jaxIndex (nT + 1) a.period))
  have h2 : (scanUpdate qr fixed c' a).2.Merges σ (scanUpdate qr fixed c a).2 := by
    unfold scanUpdate
    split <;> exact hu
  have h1 : (scanUpdate qr fixed c' a).1.Merges σ (scanUpdate qr fixed c a).1 := by
    unfold scanUpdate
    split
    · exact ⟨hu.states, hu.upperChols, hu.logWeights⟩
    · exact ⟨h.states, h.upperChols, hu.logWeights⟩
  refine ⟨?_, ⟨h2.loglikes, h2.residuals, h2.residualSds, h1.states, h2.logWeights⟩⟩
  unfold step
  split
  · refine ⟨fun i e => ?_, fun i e => ?_, h1.logWeights⟩
    · unfold predictCarry predictMoments transformSigmaPoints latentSigmaPoints
      simp only [h1.states, h1.upperChols]
    · unfold predictCarry predictMoments transformSigmaPoints latentSigmaPoints
      simp only [h1.states, h1.upperChols]
  · exact h1

theorem outs_merges (h : c'.Merges σ c) (qr : QR) (fixed : ScanFixed nObs nT n nObserved nC θ) (args : List (LoopArgs nObs n nC)) :
    List.Forall₂ (StepOut.Merges σ) (outs qr fixed c' args) (outs qr fixed c args) := by
  induction args generalizing c' c with
  | nil => exact .nil
  | cons a as ih => exact .cons (step_merges h qr fixed a).2 (ih (step_merges h qr fixed a).1)

/-- The average over mixture elements. -/
theorem aggregate_merges {o' : StepOut nObs k' n} {o : StepOut nObs k n} (h : o'.Merges σ o) : aggregate o'.states o'.logWeights = aggregate o.states o.logWeights := by
  funext i f
  unfold aggregate
  simp only [h.states]
  exact (h.logWeights i).sum (fun e => o.states i e f)

end scan

end Skill
