import Mathlib.Analysis.Calculus.Deriv.MeanValue
import Mathlib.Analysis.SpecialFunctions.ExpDeriv
import Mathlib.Analysis.SpecialFunctions.Log.Deriv
import Verif.Lemmas.Signs
/- How the state of the filter reacts to one measurement of the current period. -/
namespace Skill
open Matrix Spec

theorem logDensity_deriv {S : ℝ} (hS : 0 < S) {v : ℝ → ℝ} {v' s : ℝ} (h : HasDerivAt v v' s) : HasDerivAt (fun s => Real.log (normalDensity S (v s))) (-(v s * v' / S)) s := by
  have e : (fun s => Real.log (normalDensity S (v s))) = fun s => -(Real.log (2 * Real.pi * S) + v s ^ 2 / S) / 2 := by
    funext s
    have := logpdf_eq (v := v s) hS (Real.sq_sqrt hS.le)
    rw [← this]
    unfold normLogpdf
    rw [sq_abs, Real.sq_sqrt hS.le, sub_zero]
  rw [e]
  have h2 : HasDerivAt (fun s => v s ^ 2) (2 * v s * v') s := by
    have := h.fun_pow 2
    simpa using this
  have h1 := ((((h2.div_const S).const_add (Real.log (2 * Real.pi * S)))).neg).div_const 2
  refine h1.congr_deriv ?_
  ring

theorem posteriorCov_gram_mulVec {n : ℕ} (U : Matrix (Fin n) (Fin n) ℝ) (g h : Fin n → ℝ) (sd : ℝ) (f : Fin n) :
    (posteriorCov (Uᵀ * U) g sd *ᵥ h) f = ((Uᵀ * U) *ᵥ h) f - (g ⬝ᵥ ((Uᵀ * U) *ᵥ h)) * ((Uᵀ * U) *ᵥ g) f / residualVariance (Uᵀ * U) g sd := by
  have hP : (Uᵀ * U)ᵀ = Uᵀ * U := by rw [transpose_mul, transpose_transpose]
  have e : g ⬝ᵥ ((Uᵀ * U) *ᵥ h) = ((Uᵀ * U) *ᵥ g) ⬝ᵥ h := by rw [dotProduct_mulVec, ← hP, vecMul_transpose, hP]
  unfold posteriorCov
  rw [sub_mulVec, Pi.sub_apply, smul_mulVec, Pi.smul_apply, smul_eq_mul, e]
  have : ((Uᵀ * U) * vecMulVec g g * (Uᵀ * U)) *ᵥ h = fun f => ((Uᵀ * U) *ᵥ g) f * (((Uᵀ * U) *ᵥ g) ⬝ᵥ h) := by
    funext f
    show ∑ j, ((Uᵀ * U) * vecMulVec g g * (Uᵀ * U)) f j * h j = ((Uᵀ * U) *ᵥ g) f * ∑ j, ((Uᵀ * U) *ᵥ g) j * h j
    rw [Finset.mul_sum]
    refine Finset.sum_congr rfl (fun j _ => ?_)
    rw [mul_vecMulVec_mul hP g f j]
    ring
  rw [this]
  ring

variable {nMix n nT nObserved nC : ℕ} {θ : Type}

/-- The state of the filter as a function of one measurement of the current period, with the loadings `h` and the standard deviation `sd`: covariances do not depend on it, the means increase by the covariance with the
measured combination of factors, and the weights of elements with high means increase. -/
structure Tweedie (h : Fin n → ℝ) (sd : ℝ) (c : ℝ → Carry 1 nMix n) : Prop where
  chols : ∀ s s', (c s).upperChols = (c s').upperChols
  states : ∀ s e f, HasDerivAt (fun s => (c s).states 0 e f) (((((c s).upperChols 0 e)ᵀ * (c s).upperChols 0 e) *ᵥ h) f / sd ^ 2) s
  weights : ∃ κ : ℝ → ℝ, ∀ s e, HasDerivAt (fun s => (c s).logWeights 0 e) (h ⬝ᵥ (c s).states 0 e / sd ^ 2 + κ s) s
  total : ∀ s s', ∑ e, Real.exp ((c s).logWeights 0 e) = ∑ e, Real.exp ((c s').logWeights 0 e)

/-- Renormalized weights. -/
theorem weights_renormalized [NeZero nMix] {w l : ℝ → Fin nMix → ℝ} {d : ℝ → Fin nMix → ℝ} {L : ℝ → ℝ} (hd : ∀ s e, HasDerivAt (fun s => l s e + w s e) (d s e) s) (hL : ∀ s, L s = Real.log (∑ e, Real.exp (l s e + w s e))) :
    (∃ κ : ℝ → ℝ, ∀ s e, HasDerivAt (fun s => l s e + w s e - L s) (d s e + κ s) s) ∧ ∀ s, ∑ e, Real.exp (l s e + w s e - L s) = 1 := by
  have hpos : ∀ s, 0 < ∑ e, Real.exp (l s e + w s e) := fun s => Finset.sum_pos (fun e _ => Real.exp_pos _) Finset.univ_nonempty
  have hLd : ∀ s, HasDerivAt L ((∑ e, Real.exp (l s e + w s e) * d s e) / ∑ e, Real.exp (l s e + w s e)) s := by
    intro s
    have : L = fun s => Real.log (∑ e, Real.exp (l s e + w s e)) := funext hL
    rw [this]
    refine HasDerivAt.log ?_ (hpos s).ne'
    exact HasDerivAt.fun_sum (fun e _ => (hd s e).exp)
  refine ⟨⟨fun s => -((∑ e, Real.exp (l s e + w s e) * d s e) / ∑ e, Real.exp (l s e + w s e)), fun s e => ?_⟩, fun s => ?_⟩
  · exact ((hd s e).sub (hLd s)).congr_deriv (by ring)
  · simp only [Real.exp_sub]
    rw [← Finset.sum_div, hL, Real.exp_log (hpos s), div_self (hpos s).ne']

theorem dot_posteriorMean (x : Fin n → ℝ) (P : Matrix (Fin n) (Fin n) ℝ) (g h : Fin n → ℝ) (sd v : ℝ) : h ⬝ᵥ posteriorMean x P g sd v = h ⬝ᵥ x + v / residualVariance P g sd * (h ⬝ᵥ (P *ᵥ g)) := by
  unfold posteriorMean
  rw [dotProduct_add, dotProduct_smul, smul_eq_mul]

/-- The cases of one and of several mixture elements. -/
theorem logWeights_cases [NeZero nMix] {lw new : ℝ → Fin nMix → ℝ} {l : ℝ → Fin nMix → ℝ} {L : ℝ → ℝ} (h1 : nMix = 1 → ∀ s, new s = lw s)
    (h2 : 2 ≤ nMix → ∀ s, L s = Real.log (∑ e, Real.exp (l s e + lw s e)) ∧ ∀ e, new s e = l s e + lw s e - L s) {d : ℝ → Fin nMix → ℝ} (hd : ∀ s e, HasDerivAt (fun s => l s e + lw s e) (d s e) s)
    {d1 : ℝ → Fin nMix → ℝ} (hd1 : ∀ s e, HasDerivAt (fun s => lw s e) (d1 s e) s) (htot : nMix = 1 → ∀ s s', ∑ e, Real.exp (lw s e) = ∑ e, Real.exp (lw s' e)) :
    (∃ κ : ℝ → ℝ, ∀ s e, HasDerivAt (fun s => new s e) (d s e + κ s) s) ∧ ∀ s s', ∑ e, Real.exp (new s e) = ∑ e, Real.exp (new s' e) := by
  rcases Nat.lt_or_ge nMix 2 with hlt | hge
  · have h0 := NeZero.ne nMix
    obtain rfl : nMix = 1 := by omega
    refine ⟨⟨fun s => d1 s 0 - d s 0, fun s e => ?_⟩, fun s s' => ?_⟩
    · obtain rfl : e = 0 := Subsingleton.elim _ _
      simp only [h1 rfl]
      exact (hd1 s 0).congr_deriv (by ring)
    · simp only [h1 rfl]
      exact htot rfl s s'
  · obtain ⟨⟨κ, a⟩, b⟩ := weights_renormalized hd (fun s => (h2 hge s).1)
    refine ⟨⟨κ, fun s e => ?_⟩, fun s s' => ?_⟩
    · simp only [fun s => (h2 hge s).2 e]
      exact a s e
    · simp only [fun s => (h2 hge s).2]
      rw [b, b]

theorem sum_exp_density {S v lw : Fin nMix → ℝ} (hS : ∀ e, 0 < S e) : ∑ e, Real.exp (lw e) * normalDensity (S e) (v e) = ∑ e, Real.exp (Real.log (normalDensity (S e) (v e)) + lw e) :=
  Finset.sum_congr rfl (fun e _ => by rw [Real.exp_add, Real.exp_log (normalDensity_pos (hS e) _), mul_comm])

/-- The update with the measurement itself. -/
theorem tweedie_first [NeZero nMix] {qr : QR} (hqr : ValidQR qr) (fixed : ScanFixed 1 nT n nObserved nC θ) (c : Carry 1 nMix n) (a : LoopArgs 1 n nC) (ha : a.isMeasurement = true) (hsd : a.measSd ≠ 0) :
    Tweedie a.loadings a.measSd (fun s => (scanUpdate qr fixed c { a with measurements := fun _ => some s }).1) := by
  set con := fixed.controls (jaxIndex (nT + 1) a.period) with hcon
  set R : ℝ → UpdateResult 1 nMix n := fun s => kalmanUpdate qr c.states c.upperChols a.loadings a.controlParams a.measSd (fun _ => some s) con c.logWeights with hR
  have hc : ∀ s, (scanUpdate qr fixed c { a with measurements := fun _ => some s }).1 = ⟨(R s).states, (R s).upperChols, (R s).logWeights⟩ := by
    intro s
    unfold scanUpdate
    dsimp only
    rw [if_pos ha]
  set P := fun e => (c.upperChols 0 e)ᵀ * c.upperChols 0 e with hP
  have hS : ∀ e, 0 < residualVariance (P e) a.loadings a.measSd := fun e => variance_pos_of_gram _ hsd
  have key := fun s => C28_update_is_kalman_update c.states c.upperChols a.loadings a.controlParams a.measSd (fun _ => some s) con c.logWeights hqr 0 s rfl hS
  set off := con 0 ⬝ᵥ a.controlParams with hoff
  have hr : a.measSd ^ 2 ≠ 0 := pow_ne_zero _ hsd
  have hst : ∀ s e, (R s).states 0 e = posteriorMean (c.states 0 e) (P e) a.loadings a.measSd (s - (a.loadings ⬝ᵥ c.states 0 e + off)) := fun s e => (key s).1 e
  have hch : ∀ s e, ((R s).upperChols 0 e)ᵀ * (R s).upperChols 0 e = posteriorCov (P e) a.loadings a.measSd := fun s e => (key s).2.1 e
  have hv : ∀ s e, HasDerivAt (fun s => s - (a.loadings ⬝ᵥ c.states 0 e + off)) 1 s := fun s e => (hasDerivAt_id s).sub_const _
  have hres : ∀ e, residualVariance (P e) a.loadings a.measSd = a.loadings ⬝ᵥ (P e *ᵥ a.loadings) + a.measSd ^ 2 := fun e => rfl
  have hw := logWeights_cases (lw := fun _ => c.logWeights 0) (new := fun s => (R s).logWeights 0) (L := fun s => (R s).loglikes 0)
    (l := fun s e => Real.log (normalDensity (residualVariance (P e) a.loadings a.measSd) (s - (a.loadings ⬝ᵥ c.states 0 e + off))))
    (fun h s => ((key s).2.2.2.2.1 h 0).2) (fun h s => ⟨by rw [← sum_exp_density hS]; exact ((key s).2.2.2.2.2 h).1, ((key s).2.2.2.2.2 h).2⟩)
    (fun s e => (logDensity_deriv (hS e) (hv s e)).add_const _) (fun s e => hasDerivAt_const _ _) (fun _ _ _ => rfl)
  refine ⟨fun s s' => ?_, fun s e f => ?_, ?_, fun s s' => ?_⟩
  · simp only [hc]
    rfl
  · simp only [hc, hst, hch]
    rw [posteriorCov_gram_mulVec]
    have h1 : HasDerivAt (fun s => posteriorMean (c.states 0 e) (P e) a.loadings a.measSd (s - (a.loadings ⬝ᵥ c.states 0 e + off)) f) (1 / residualVariance (P e) a.loadings a.measSd * (P e *ᵥ a.loadings) f) s :=
      (((hv s e).div_const _).mul_const _).const_add _
    refine h1.congr_deriv ?_
    have h2 := hres e
    have h3 := (hS e).ne'
    change 1 / residualVariance (P e) a.loadings a.measSd * (P e *ᵥ a.loadings) f = ((P e *ᵥ a.loadings) f - a.loadings ⬝ᵥ (P e *ᵥ a.loadings) * (P e *ᵥ a.loadings) f / residualVariance (P e) a.loadings a.measSd) / a.measSd ^ 2
    rw [show a.loadings ⬝ᵥ (P e *ᵥ a.loadings) = residualVariance (P e) a.loadings a.measSd - a.measSd ^ 2 by rw [h2]; ring]
    field_simp
    ring
  · obtain ⟨⟨κ, hκ⟩, _⟩ := hw
    refine ⟨fun s => κ s - (s - off) / a.measSd ^ 2, fun s e => ?_⟩
    simp only [hc, hst]
    refine (hκ s e).congr_deriv ?_
    rw [dot_posteriorMean]
    have h2 := hres e
    have h3 := (hS e).ne'
    change _ = (a.loadings ⬝ᵥ c.states 0 e + (s - (a.loadings ⬝ᵥ c.states 0 e + off)) / residualVariance (P e) a.loadings a.measSd * a.loadings ⬝ᵥ (P e *ᵥ a.loadings)) / a.measSd ^ 2 + (κ s - (s - off) / a.measSd ^ 2)
    rw [show a.loadings ⬝ᵥ (P e *ᵥ a.loadings) = residualVariance (P e) a.loadings a.measSd - a.measSd ^ 2 by rw [h2]; ring]
    field_simp
    ring
  · simp only [hc]
    exact hw.2 s s'

/-- An update with another measurement. -/
theorem tweedie_next [NeZero nMix] {qr : QR} (hqr : ValidQR qr) (fixed : ScanFixed 1 nT n nObserved nC θ) {h : Fin n → ℝ} {sd : ℝ} {c : ℝ → Carry 1 nMix n} (ht : Tweedie h sd c) (a : LoopArgs 1 n nC)
    (ha : a.isMeasurement = true) (hsd : a.measSd ≠ 0) : Tweedie h sd (fun s => (scanUpdate qr fixed (c s) a).1) := by
  set con := fixed.controls (jaxIndex (nT + 1) a.period) with hcon
  set R : ℝ → UpdateResult 1 nMix n := fun s => kalmanUpdate qr (c s).states (c 0).upperChols a.loadings a.controlParams a.measSd a.measurements con (c s).logWeights with hR
  have hU : ∀ s, (c s).upperChols = (c 0).upperChols := fun s => ht.chols s 0
  have hc : ∀ s, (scanUpdate qr fixed (c s) a).1 = ⟨(R s).states, (R s).upperChols, (R s).logWeights⟩ := by
    intro s
    unfold scanUpdate
    dsimp only
    rw [if_pos ha, hU s]
  cases hm : a.measurements 0 with
  | none =>
    have key := fun s => C30_missing_changes_nothing (c s).states (c 0).upperChols a.loadings a.controlParams a.measSd a.measurements con (c s).logWeights qr 0 hm
    have h1 : ∀ s, (R s).states = (c s).states := fun s => funext fun i => by obtain rfl : i = 0 := Subsingleton.elim _ _; exact (key s).1
    have h2 : ∀ s, (R s).upperChols = (c 0).upperChols := fun s => funext fun i => by obtain rfl : i = 0 := Subsingleton.elim _ _; exact (key s).2.1
    have h3 : ∀ s, (R s).logWeights = (c s).logWeights := fun s => funext fun i => by obtain rfl : i = 0 := Subsingleton.elim _ _; exact (key s).2.2.1
    have : (fun s => (scanUpdate qr fixed (c s) a).1) = c := funext fun s => by rw [hc, h1, h2, h3, ← hU s]
    rw [this]
    exact ht
  | some y =>
    set P := fun e => ((c 0).upperChols 0 e)ᵀ * (c 0).upperChols 0 e with hP
    have hS : ∀ e, 0 < residualVariance (P e) a.loadings a.measSd := fun e => variance_pos_of_gram _ hsd
    have key := fun s => C28_update_is_kalman_update (c s).states (c 0).upperChols a.loadings a.controlParams a.measSd a.measurements con (c s).logWeights hqr 0 y hm hS
    set off := con 0 ⬝ᵥ a.controlParams with hoff
    have hst : ∀ s e, (R s).states 0 e = posteriorMean ((c s).states 0 e) (P e) a.loadings a.measSd (y - (a.loadings ⬝ᵥ (c s).states 0 e + off)) := fun s e => (key s).1 e
    have hch : ∀ s e, ((R s).upperChols 0 e)ᵀ * (R s).upperChols 0 e = posteriorCov (P e) a.loadings a.measSd := fun s e => (key s).2.1 e
    have hd : ∀ s e f, HasDerivAt (fun s => (c s).states 0 e f) ((P e *ᵥ h) f / sd ^ 2) s := fun s e f => by
      have := ht.states s e f
      rw [hU] at this
      exact this
    obtain ⟨κ, hκ⟩ := ht.weights
    have hdot : ∀ s e, HasDerivAt (fun s => a.loadings ⬝ᵥ (c s).states 0 e) (a.loadings ⬝ᵥ (P e *ᵥ h) / sd ^ 2) s := by
      intro s e
      have : HasDerivAt (fun s => ∑ f, a.loadings f * (c s).states 0 e f) (∑ f, a.loadings f * ((P e *ᵥ h) f / sd ^ 2)) s := HasDerivAt.fun_sum (fun f _ => (hd s e f).const_mul _)
      refine this.congr_deriv ?_
      unfold dotProduct
      rw [Finset.sum_div]
      exact Finset.sum_congr rfl (fun f _ => by ring)
    have hv : ∀ s e, HasDerivAt (fun s => y - (a.loadings ⬝ᵥ (c s).states 0 e + off)) (-(a.loadings ⬝ᵥ (P e *ᵥ h) / sd ^ 2)) s := fun s e => ((hdot s e).add_const off).const_sub y
    have hw := logWeights_cases (lw := fun s => (c s).logWeights 0) (new := fun s => (R s).logWeights 0) (L := fun s => (R s).loglikes 0)
      (l := fun s e => Real.log (normalDensity (residualVariance (P e) a.loadings a.measSd) (y - (a.loadings ⬝ᵥ (c s).states 0 e + off))))
      (fun h s => ((key s).2.2.2.2.1 h 0).2) (fun h s => by
        have := (key s).2.2.2.2.2 h
        exact ⟨by rw [← sum_exp_density hS]; exact this.1, this.2⟩)
      (fun s e => (logDensity_deriv (hS e) (hv s e)).add (hκ s e)) hκ (fun _ => ht.total)
    have hsym : ∀ e, h ⬝ᵥ (P e *ᵥ a.loadings) = a.loadings ⬝ᵥ (P e *ᵥ h) := by
      intro e
      have hPe : (P e)ᵀ = P e := by rw [hP]; dsimp only; rw [transpose_mul, transpose_transpose]
      rw [dotProduct_mulVec, ← hPe, vecMul_transpose, hPe, dotProduct_comm]
    refine ⟨fun s s' => ?_, fun s e f => ?_, ?_, fun s s' => ?_⟩
    · simp only [hc]
      rfl
    · simp only [hc, hst, hch]
      rw [posteriorCov_gram_mulVec]
      have h1 : HasDerivAt (fun s => posteriorMean ((c s).states 0 e) (P e) a.loadings a.measSd (y - (a.loadings ⬝ᵥ (c s).states 0 e + off)) f)
          ((P e *ᵥ h) f / sd ^ 2 + -(a.loadings ⬝ᵥ (P e *ᵥ h) / sd ^ 2) / residualVariance (P e) a.loadings a.measSd * (P e *ᵥ a.loadings) f) s :=
        (hd s e f).add (((hv s e).div_const _).mul_const _)
      refine h1.congr_deriv ?_
      change _ = ((P e *ᵥ h) f - a.loadings ⬝ᵥ (P e *ᵥ h) * (P e *ᵥ a.loadings) f / residualVariance (P e) a.loadings a.measSd) / sd ^ 2
      ring
    · obtain ⟨⟨κ', hκ'⟩, _⟩ := hw
      refine ⟨fun s => κ s + κ' s, fun s e => ?_⟩
      simp only [hc, hst]
      refine (hκ' s e).congr_deriv ?_
      rw [dot_posteriorMean, hsym]
      ring
    · simp only [hc]
      exact hw.2 s s'

/-- The average of the states with the mixture weights increases in a measurement that measures only this factor. -/
theorem tweedie_monotone {h : Fin n → ℝ} {sd : ℝ} {c : ℝ → Carry 1 nMix n} (ht : Tweedie h sd c) {f : Fin n} (hf : ∀ g, g ≠ f → h g = 0) (hpos : 0 ≤ h f) :
    Monotone (fun s => ∑ e, (c s).states 0 e f * Real.exp ((c s).logWeights 0 e)) := by
  obtain ⟨κ, hκ⟩ := ht.weights
  set w := fun s e => Real.exp ((c s).logWeights 0 e) with hw
  set x := fun s e => (c s).states 0 e f with hx
  set V := fun s e => (((c s).upperChols 0 e)ᵀ * (c s).upperChols 0 e) f f with hV
  have hdot : ∀ y : Fin n → ℝ, h ⬝ᵥ y = h f * y f := fun y => by
    unfold dotProduct
    exact Finset.sum_eq_single f (fun g _ hg => by rw [hf g hg, zero_mul]) (fun hn => absurd (Finset.mem_univ f) hn)
  have hw' : ∀ s e, HasDerivAt (fun s => w s e) (w s e * (h f * x s e / sd ^ 2 + κ s)) s := fun s e => by
    have := (hκ s e).exp
    rw [hdot] at this
    exact this
  have hx' : ∀ s e, HasDerivAt (fun s => x s e) (h f * V s e / sd ^ 2) s := fun s e => by
    refine (ht.states s e f).congr_deriv ?_
    rw [show (((((c s).upperChols 0 e)ᵀ * (c s).upperChols 0 e) *ᵥ h) f) = h f * V s e by
      show (fun j => (((c s).upperChols 0 e)ᵀ * (c s).upperChols 0 e) f j) ⬝ᵥ h = _
      rw [dotProduct_comm, hdot]]
  have hVn : ∀ s e, 0 ≤ V s e := fun s e => by
    show 0 ≤ ∑ k, (c s).upperChols 0 e k f * (c s).upperChols 0 e k f
    exact Finset.sum_nonneg (fun k _ => mul_self_nonneg _)
  -- the sum of the weights is constant
  have hsum : ∀ s, ∑ e, w s e * (h f * x s e / sd ^ 2 + κ s) = 0 := by
    intro s
    have h1 : HasDerivAt (fun s => ∑ e, w s e) (∑ e, w s e * (h f * x s e / sd ^ 2 + κ s)) s := HasDerivAt.fun_sum (fun e _ => hw' s e)
    have h2 : (fun s => ∑ e, w s e) = fun _ => ∑ e, w 0 e := funext fun s => ht.total s 0
    rw [h2] at h1
    exact h1.unique (hasDerivAt_const _ _)
  have hG : ∀ s, HasDerivAt (fun s => ∑ e, x s e * w s e) (∑ e, (h f * V s e / sd ^ 2 * w s e + x s e * (w s e * (h f * x s e / sd ^ 2 + κ s)))) s :=
    fun s => HasDerivAt.fun_sum (fun e _ => (hx' s e).mul (hw' s e))
  refine monotone_of_deriv_nonneg (fun s => (hG s).differentiableAt) (fun s => ?_)
  rw [(hG s).deriv]
  set W := ∑ e, w s e with hWdef
  rcases isEmpty_or_nonempty (Fin nMix) with he | he
  · show 0 ≤ ∑ e, _
    rw [Finset.univ_eq_empty, Finset.sum_empty]
  have hW : 0 < W := Finset.sum_pos (fun e _ => Real.exp_pos _) Finset.univ_nonempty
  set M := (∑ e, w s e * x s e) / W with hM
  have hMW : ∑ e, w s e * x s e = M * W := by rw [hM]; field_simp
  have hk : κ s * W = -(h f / sd ^ 2) * (M * W) := by
    have := hsum s
    have e1 : ∑ e, w s e * (h f * x s e / sd ^ 2 + κ s) = h f / sd ^ 2 * (∑ e, w s e * x s e) + κ s * W := by
      rw [hWdef, Finset.mul_sum, Finset.mul_sum, ← Finset.sum_add_distrib]
      exact Finset.sum_congr rfl (fun e _ => by ring)
    rw [e1, hMW] at this
    linarith
  have hk : κ s = -(h f / sd ^ 2) * M := mul_right_cancel₀ hW.ne' (by rw [hk]; ring)
  have e2 : ∑ e, (h f * V s e / sd ^ 2 * w s e + x s e * (w s e * (h f * x s e / sd ^ 2 + κ s))) = h f / sd ^ 2 * ∑ e, w s e * (V s e + (x s e - M) ^ 2) := by
    have e3 : ∑ e, w s e * (V s e + (x s e - M) ^ 2) = ∑ e, w s e * (V s e + x s e * (x s e - M)) - M * (∑ e, w s e * x s e - M * W) := by
      rw [hWdef, Finset.mul_sum, ← Finset.sum_sub_distrib, Finset.mul_sum, ← Finset.sum_sub_distrib]
      exact Finset.sum_congr rfl (fun e _ => by ring)
    rw [e3, hMW, sub_self, mul_zero, sub_zero, Finset.mul_sum, hk]
    exact Finset.sum_congr rfl (fun e _ => by ring)
  show 0 ≤ ∑ e, _
  rw [e2]
  exact mul_nonneg (div_nonneg hpos (sq_nonneg _)) (Finset.sum_nonneg (fun e _ => mul_nonneg (Real.exp_pos _).le (add_nonneg (hVn s e) (sq_nonneg _))))

end Skill
