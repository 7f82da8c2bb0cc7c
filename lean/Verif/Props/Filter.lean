import Verif.Lemmas.Regular
import Verif.Lemmas.Belief
/-
C29, C31, C32: properties of whole runs of the filter.
-/
namespace Skill
open Matrix Spec
variable {nObs nMix n nT nObserved nC : ℕ} {θ : Type}

/-! ### C32 -/

/-- The belief about individual `i` that is encoded in a carry. -/
def Carry.belief (c : Carry nObs nMix n) (i : Fin nObs) : Belief nMix n := beliefOf c.states c.upperChols c.logWeights i

/-- The mixture weights of each individual sum to one. -/
def Spec.WeightsOk (w : Fin nObs → Fin nMix → ℝ) : Prop := ∀ i, ∑ e, Real.exp (w i e) = 1

theorem Carry.belief_proper {c : Carry nObs nMix n} (h : WeightsOk c.logWeights) (i : Fin nObs) : (c.belief i).Proper :=
  ⟨fun _ => posSemidef_gram _, h i⟩

/-- The measurement of individual `i` in one iteration of the filter. -/
def LoopArgs.measurement (fixed : ScanFixed nObs nT n nObserved nC θ) (a : LoopArgs nObs n nC) (i : Fin nObs) : Measurement n :=
  ⟨a.loadings, fixed.controls (jaxIndex (nT + 1) a.period) i ⬝ᵥ a.controlParams, a.measSd, a.measurements i⟩

theorem scanUpdate_refines {qr : QR} (hqr : ValidQR qr) (fixed : ScanFixed nObs nT n nObserved nC θ) {c : Carry nObs nMix n}
    (hw : WeightsOk c.logWeights) {a : LoopArgs nObs n nC} (hsd : a.measSd ≠ 0) (i : Fin nObs) :
    (scanUpdate qr fixed c a).2.belief i = (c.belief i).update (a.measurement fixed i) ∧
    (scanUpdate qr fixed c a).2.loglikes i = (c.belief i).contribution (a.measurement fixed i) := by
  rw [(scanUpdate_eq qr fixed c a).1]
  exact update_refines c.states c.upperChols a.loadings a.controlParams a.measSd a.measurements _ c.logWeights hqr i (hw i)
    (fun e => variance_pos_of_gram _ hsd)

theorem scanUpdate_logWeights (qr : QR) (fixed : ScanFixed nObs nT n nObserved nC θ) (c : Carry nObs nMix n) (a : LoopArgs nObs n nC) :
    (scanUpdate qr fixed c a).1.logWeights = (scanUpdate qr fixed c a).2.logWeights := by
  rw [(scanUpdate_eq qr fixed c a).2]
  split <;> rfl

theorem scanUpdate_weights {qr : QR} (hqr : ValidQR qr) (fixed : ScanFixed nObs nT n nObserved nC θ) {c : Carry nObs nMix n}
    (hw : WeightsOk c.logWeights) {a : LoopArgs nObs n nC} (hsd : a.measSd ≠ 0) : WeightsOk (scanUpdate qr fixed c a).2.logWeights := by
  intro i
  have h := (scanUpdate_refines hqr fixed hw hsd i).1
  have h2 := (update_proper (Carry.belief_proper hw i) (m := a.measurement fixed i) hsd).weights
  rw [← h] at h2
  exact h2

theorem step_weights {qr : QR} (hqr : ValidQR qr) (fixed : ScanFixed nObs nT n nObserved nC θ) {c : Carry nObs nMix n}
    (hw : WeightsOk c.logWeights) {a : LoopArgs nObs n nC} (hsd : a.measSd ≠ 0) : WeightsOk (step qr fixed c a).logWeights := by
  have h := scanUpdate_weights hqr fixed hw hsd
  rw [← scanUpdate_logWeights] at h
  unfold step
  split <;> exact h

theorem foldl_weights {qr : QR} (hqr : ValidQR qr) (fixed : ScanFixed nObs nT n nObserved nC θ) {args : List (LoopArgs nObs n nC)}
    (ha : ∀ a ∈ args, a.measSd ≠ 0) : ∀ {c : Carry nObs nMix n}, WeightsOk c.logWeights → WeightsOk (args.foldl (step qr fixed) c).logWeights := by
  induction args with
  | nil => intro c h; exact h
  | cons a as ih => intro c h; exact ih (fun a' h' => ha a' (by simp [h'])) (step_weights hqr fixed h (ha a (by simp)))

/-- **C32.** Consider any history `pre` of updates and the next update `a`. The weights of each individual
sum to one in the carry after `pre` and in the output for `a`, and the contribution of an individual
with an observed measurement is the log of the weighted mixture of the normal densities of the
residuals. (The weights are positive: they are stored as logarithms.) -/
theorem C32_weights {qr : QR} (hqr : ValidQR qr) {fixed : ScanFixed nObs nT n nObserved nC θ} {initial : Carry nObs nMix n}
    (hw : ∀ i, ∑ e, Real.exp (initial.logWeights i e) = 1) {pre : List (LoopArgs nObs n nC)} {a : LoopArgs nObs n nC}
    (hsd : ∀ b ∈ pre ++ [a], b.measSd ≠ 0) {c : Carry nObs nMix n} {os} (hpre : scan qr fixed initial pre = .ok (c, os))
    {c' : Carry nObs nMix n} {out} (ha : scanBody qr fixed c a = .ok (c', out)) (i : Fin nObs) :
    ∑ e, Real.exp (c.logWeights i e) = 1 ∧ ∑ e, Real.exp (out.logWeights i e) = 1 ∧ c'.logWeights = out.logWeights ∧
    ∀ y, a.measurements i = some y →
      let s := fun e => residualVariance ((c.upperChols i e)ᵀ * c.upperChols i e) a.loadings a.measSd
      let v := fun e => y - (a.loadings ⬝ᵥ c.states i e + fixed.controls (jaxIndex (nT + 1) a.period) i ⬝ᵥ a.controlParams)
      out.loglikes i = Real.log (∑ e, Real.exp (c.logWeights i e) * normalDensity (s e) (v e)) ∧
      ∀ e, Real.exp (out.logWeights i e) = Real.exp (c.logWeights i e) * normalDensity (s e) (v e) /
        ∑ e', Real.exp (c.logWeights i e') * normalDensity (s e') (v e') := by
  have hc := scan_ok_iff qr fixed initial hpre
  have hcw : WeightsOk c.logWeights := by
    have : c = pre.foldl (step qr fixed) initial := by rw [Prod.mk.injEq] at hc; exact hc.1
    rw [this]
    exact foldl_weights hqr fixed (fun b hb => hsd b (by simp [hb])) hw
  have hs : nMix = 1 ∨ nObserved = 0 ∨ nObs = 0 := by
    by_contra hcon
    have := scan_error hcon qr fixed c a []
    rw [scan, ha] at this
    cases this
  rw [scanBody_ok hs] at ha
  have ha := Except.ok.inj ha
  simp only [Prod.mk.injEq] at ha
  obtain ⟨rfl, rfl⟩ := ha
  have hsda : a.measSd ≠ 0 := hsd a (by simp)
  refine ⟨hcw i, scanUpdate_weights hqr fixed hcw hsda i, ?_, ?_⟩
  · have h2 : (step qr fixed c a).logWeights = (scanUpdate qr fixed c a).1.logWeights := by
      unfold step; split <;> rfl
    rw [h2, scanUpdate_logWeights]
    rfl
  · intro y hy s v
    obtain ⟨h1, h2⟩ := scanUpdate_refines hqr fixed hcw hsda i
    have hd : ∀ e, (c.belief i).density (a.measurement fixed i) y e = normalDensity (s e) (v e) := by
      intro e
      simp only [Belief.density, Belief.residual, LoopArgs.measurement, Carry.belief, beliefOf, s, v]
      rw [dotProduct_comm a.loadings]
    have hl : (c.belief i).likelihood (a.measurement fixed i) y = ∑ e, Real.exp (c.logWeights i e) * normalDensity (s e) (v e) := by
      simp only [Belief.likelihood, hd]
      rfl
    have hpos := likelihood_pos (Carry.belief_proper hcw i) (m := a.measurement fixed i) hsda y
    refine ⟨?_, ?_⟩
    · show (scanUpdate qr fixed c a).2.loglikes i = _
      rw [h2, Belief.contribution]
      simp only [LoopArgs.measurement, hy]
      rw [← hl]
      simp only [LoopArgs.measurement, hy]
    · intro e
      have h3 := congrArg (fun b => b.logWeight e) h1
      simp only [Belief.update] at h3
      have hmy : (a.measurement fixed i).y = some y := hy
      rw [hmy] at h3
      have h4 : (stepOut qr fixed c a).logWeights i e = ((scanUpdate qr fixed c a).2.belief i).logWeight e := rfl
      rw [h4, h3]
      simp only
      rw [hd, hl, Real.exp_log]
      · rfl
      · rw [← hl]
        refine div_pos (mul_pos (Real.exp_pos _) ?_) hpos
        rw [← hd]
        exact density_pos (fun e => posSemidef_gram _) hsda y e

/-! ### C29 -/

/-- **C29.** Two QR routines that return an upper triangular R with R'R = M'M (they may differ in the
signs of the rows of R) lead to the same value, contributions, residuals, weights and filtered states
of the whole likelihood evaluation, if the initial Cholesky factors are regular and no standard
deviation is zero (shocks of factors that are constant over time excepted). -/
theorem C29_qr_convention {qr qr' : QR} (hqr : ValidQR qr) (hqr' : ValidQR qr') {fixed : ScanFixed nObs nT n nObserved nC θ} {kappa : ℝ}
    (hf : RegularFixed fixed kappa) (clip : ClipOptions) {initial : Carry nObs nMix n} (hi : ∀ i e, RegularUpper (initial.upperChols i e))
    {args : List (LoopArgs nObs n nC)} (ha : ∀ a ∈ args, a.measSd ≠ 0) :
    logLikelihood qr fixed clip initial args = logLikelihood qr' fixed clip initial args := by
  have heq : CarryEquiv initial initial := ⟨rfl, rfl, hi, hi, fun _ _ => rfl⟩
  have ho := (foldl_equiv hqr hqr' hf ha heq).2
  unfold logLikelihood
  by_cases h : nMix = 1 ∨ nObserved = 0 ∨ nObs = 0
  · rw [scan_ok h, scan_ok h, ho]
    rfl
  · cases args with
    | nil => rfl
    | cons a as => rw [scan_error h, scan_error h]

/-- C29 for one update, without any regularity beyond positive residual variances: the reported
quantities and the implied covariance matrices agree. -/
theorem C29_update {qr qr' : QR} (hqr : ValidQR qr) (hqr' : ValidQR qr') (states : Fin nObs → Fin nMix → Fin n → ℝ)
    (upperChols : Fin nObs → Fin nMix → Matrix (Fin n) (Fin n) ℝ) (loadings : Fin n → ℝ) (controlParams : Fin nC → ℝ) (measSd : ℝ)
    (measurements : Fin nObs → Option ℝ) (controls : Fin nObs → Fin nC → ℝ) (logWeights : Fin nObs → Fin nMix → ℝ)
    (i : Fin nObs) (hw : ∑ e, Real.exp (logWeights i e) = 1)
    (hs : ∀ e, 0 < residualVariance ((upperChols i e)ᵀ * upperChols i e) loadings measSd) :
    let r := kalmanUpdate qr states upperChols loadings controlParams measSd measurements controls logWeights
    let r' := kalmanUpdate qr' states upperChols loadings controlParams measSd measurements controls logWeights
    r.states i = r'.states i ∧ (∀ e, (r.upperChols i e)ᵀ * r.upperChols i e = (r'.upperChols i e)ᵀ * r'.upperChols i e) ∧
    r.logWeights i = r'.logWeights i ∧ r.loglikes i = r'.loglikes i := by
  intro r r'
  obtain ⟨a1, a2⟩ := update_refines states upperChols loadings controlParams measSd measurements controls logWeights hqr i hw hs
  obtain ⟨b1, b2⟩ := update_refines states upperChols loadings controlParams measSd measurements controls logWeights hqr' i hw hs
  have h : r.belief i = r'.belief i := a1.trans b1.symm
  exact ⟨congrArg Belief.mean h, fun e => congrFun (congrArg Belief.cov h) e, congrArg Belief.logWeight h, a2.trans b2.symm⟩

/-! ### C31 -/

/-- Only the last of the updates of one period is followed by a predict step (if `p`). -/
def Spec.flagLast (p : Bool) : List (LoopArgs nObs n nC) → List (LoopArgs nObs n nC)
  | [] => []
  | [a] => [{ a with isPredict := p }]
  | a :: b :: l => { a with isPredict := false } :: flagLast p (b :: l)

/-- The update part of a step. -/
noncomputable def updateOnly (qr : QR) (fixed : ScanFixed nObs nT n nObserved nC θ) (c : Carry nObs nMix n) (a : LoopArgs nObs n nC) :
    Carry nObs nMix n := (scanUpdate qr fixed c a).1

theorem scanUpdate_flag (qr : QR) (fixed : ScanFixed nObs nT n nObserved nC θ) (c : Carry nObs nMix n) (a : LoopArgs nObs n nC) (p : Bool) :
    scanUpdate qr fixed c { a with isPredict := p } = scanUpdate qr fixed c a := by
  simp only [scanUpdate]

theorem foldl_flagLast (qr : QR) (fixed : ScanFixed nObs nT n nObserved nC θ) (p : Bool) {t : Int} {l : List (LoopArgs nObs n nC)}
    (ht : ∀ a ∈ l, a.period = t) (hne : l ≠ []) : ∀ c : Carry nObs nMix n,
    (flagLast p l).foldl (step qr fixed) c = if p then predictCarry qr fixed (l.foldl (updateOnly qr fixed) c) t
      else l.foldl (updateOnly qr fixed) c := by
  induction l with
  | nil => exact absurd rfl hne
  | cons a l ih =>
    intro c
    cases l with
    | nil =>
      have := ht a (by simp)
      simp only [flagLast, List.foldl_cons, List.foldl_nil, step, updateOnly, scanUpdate_flag]
      rw [this]
    | cons b l =>
      have h := ih (fun a' h' => ht a' (by simp [h'])) (by simp) (updateOnly qr fixed c a)
      simp only [flagLast, List.foldl_cons] at h ⊢
      have e1 : step qr fixed c { a with isPredict := false } = updateOnly qr fixed c a := by
        simp [step, updateOnly, scanUpdate_flag]
      rw [e1]
      exact h

theorem loglikes_flagLast {qr : QR} (hqr : ValidQR qr) (fixed : ScanFixed nObs nT n nObserved nC θ) (p : Bool) {l : List (LoopArgs nObs n nC)}
    (hm : ∀ a ∈ l, a.isMeasurement = true) (hsd : ∀ a ∈ l, a.measSd ≠ 0) (i : Fin nObs) : ∀ {c : Carry nObs nMix n}, WeightsOk c.logWeights →
    ((outs qr fixed c (flagLast p l)).map (fun o => o.loglikes i)).sum = (c.belief i).logLikelihood (l.map (fun a => a.measurement fixed i)) ∧
    ((l.foldl (updateOnly qr fixed) c).belief i) = (c.belief i).updates (l.map (fun a => a.measurement fixed i)) := by
  induction l with
  | nil => intro c _; exact ⟨rfl, rfl⟩
  | cons a l ih =>
    intro c hw
    have hsda := hsd a (by simp)
    have hma := hm a (by simp)
    obtain ⟨h1, h2⟩ := scanUpdate_refines hqr fixed hw hsda i
    have hb : (updateOnly qr fixed c a).belief i = (c.belief i).update (a.measurement fixed i) := by
      rw [← h1]
      simp only [updateOnly]
      rw [(scanUpdate_eq qr fixed c a).2, if_pos hma]
      rfl
    have hw' : WeightsOk (updateOnly qr fixed c a).logWeights := by
      have := scanUpdate_weights hqr fixed hw hsda
      rwa [← scanUpdate_logWeights] at this
    obtain ⟨i1, i2⟩ := ih (fun a' h' => hm a' (by simp [h'])) (fun a' h' => hsd a' (by simp [h'])) hw'
    refine ⟨?_, ?_⟩
    · simp only [List.map_cons, Belief.logLikelihood]
      rw [← hb, ← i1, ← h2]
      cases l with
      | nil =>
        simp only [flagLast, outs, List.map_cons, List.map_nil, List.sum_cons, List.sum_nil]
        rfl
      | cons b l =>
        simp only [flagLast, outs, List.map_cons, List.sum_cons]
        rfl
    · simp only [List.map_cons, List.foldl_cons]
      rw [i2, hb]
      rfl

theorem updateOnly_regular {qr : QR} (hqr : ValidQR qr) (fixed : ScanFixed nObs nT n nObserved nC θ) {l : List (LoopArgs nObs n nC)}
    (hsd : ∀ a ∈ l, a.measSd ≠ 0) : ∀ {c : Carry nObs nMix n}, (∀ i e, RegularUpper (c.upperChols i e)) →
    ∀ i e, RegularUpper ((l.foldl (updateOnly qr fixed) c).upperChols i e) := by
  induction l with
  | nil => intro c h; exact h
  | cons a l ih =>
    intro c h
    exact ih (fun a' h' => hsd a' (by simp [h']))
      (scanUpdate_equiv hqr hqr (c := c) (d := c) ⟨rfl, rfl, h, h, fun _ _ => rfl⟩ fixed (hsd a (by simp))).1.left

theorem CarryEquiv.of_belief {c d : Carry nObs nMix n} (h : ∀ i, c.belief i = d.belief i) (hc : ∀ i e, RegularUpper (c.upperChols i e))
    (hd : ∀ i e, RegularUpper (d.upperChols i e)) : CarryEquiv c d :=
  ⟨funext fun i => congrArg Belief.mean (h i), funext fun i => congrArg Belief.logWeight (h i), hc, hd,
    fun i e => congrFun (congrArg Belief.cov (h i)) e⟩

theorem flagLast_length (p : Bool) (l : List (LoopArgs nObs n nC)) : (flagLast p l).length = l.length := by
  induction l with
  | nil => rfl
  | cons a l ih =>
    cases l with
    | nil => rfl
    | cons b l => simpa [flagLast] using ih

/-- **C31.** Let `blk` be measurement updates of one period (possibly followed by a predict step if `p`)
in a run of the filter, with any updates before and after it. Reordering `blk` does not change the
total log likelihood of any individual, and all outputs for the later updates (contributions,
residuals, weights and states) stay the same. -/
theorem C31_order_irrelevant {qr : QR} (hqr : ValidQR qr) {fixed : ScanFixed nObs nT n nObserved nC θ} {kappa : ℝ}
    (hf : RegularFixed fixed kappa) {initial : Carry nObs nMix n} (hi : ∀ i e, RegularUpper (initial.upperChols i e))
    (hw : ∀ i, ∑ e, Real.exp (initial.logWeights i e) = 1) {pre blk blk' post : List (LoopArgs nObs n nC)} (hperm : blk.Perm blk') (p : Bool)
    {t : Int} (ht : ∀ a ∈ blk, a.period = t) (hm : ∀ a ∈ blk, a.isMeasurement = true) (hsd : ∀ a ∈ pre ++ blk ++ post, a.measSd ≠ 0)
    {r r'} (hr : logLikelihood qr fixed ⟨none, none, 1, 1⟩ initial (pre ++ flagLast p blk ++ post) = .ok r)
    (hr' : logLikelihood qr fixed ⟨none, none, 1, 1⟩ initial (pre ++ flagLast p blk' ++ post) = .ok r') :
    r.contributions = r'.contributions ∧ r.value = r'.value ∧
    r.outs.take pre.length = r'.outs.take pre.length ∧ r.outs.drop (pre.length + blk.length) = r'.outs.drop (pre.length + blk.length) := by
  obtain ⟨a1, _, a3, a4⟩ := logLikelihood_ok hr
  obtain ⟨b1, _, b3, b4⟩ := logLikelihood_ok hr'
  have hv := (C40_value_is_sum hr).1
  have hv' := (C40_value_is_sum hr').1
  set c := pre.foldl (step qr fixed) initial with hc
  have hcw : WeightsOk c.logWeights := foldl_weights hqr fixed (fun b hb => hsd b (by simp [hb])) hw
  have hcr : ∀ i e, RegularUpper (c.upperChols i e) :=
    (foldl_equiv hqr hqr hf (fun b hb => hsd b (by simp [hb])) (c := initial) (d := initial) ⟨rfl, rfl, hi, hi, fun _ _ => rfl⟩).1.left
  have hsdb : ∀ a ∈ blk, a.measSd ≠ 0 := fun a ha => hsd a (by simp [ha])
  have hsdb' : ∀ a ∈ blk', a.measSd ≠ 0 := fun a ha => hsdb a (hperm.mem_iff.mpr ha)
  have hm' : ∀ a ∈ blk', a.isMeasurement = true := fun a ha => hm a (hperm.mem_iff.mpr ha)
  have ht' : ∀ a ∈ blk', a.period = t := fun a ha => ht a (hperm.mem_iff.mpr ha)
  have key : ∀ i, _ := fun i => belief_perm (hperm.map (fun a => a.measurement fixed i)) (Carry.belief_proper hcw i) (by
    intro m hm
    obtain ⟨a, ha, rfl⟩ := List.mem_map.mp hm
    exact hsdb a ha)
  have k1 : ∀ i, _ := fun i => loglikes_flagLast hqr fixed p hm hsdb i hcw
  have k2 : ∀ i, _ := fun i => loglikes_flagLast hqr fixed p hm' hsdb' i hcw
  have heq : CarryEquiv (blk.foldl (updateOnly qr fixed) c) (blk'.foldl (updateOnly qr fixed) c) :=
    CarryEquiv.of_belief (fun i => by rw [(k1 i).2, (k2 i).2, (key i).1]) (updateOnly_regular hqr fixed hsdb hcr) (updateOnly_regular hqr fixed hsdb' hcr)
  have heq2 : CarryEquiv ((flagLast p blk).foldl (step qr fixed) c) ((flagLast p blk').foldl (step qr fixed) c) := by
    by_cases hb : blk = []
    · subst hb
      have := hperm.symm.eq_nil
      subst this
      exact ⟨rfl, rfl, hcr, hcr, fun _ _ => rfl⟩
    · have hb' : blk' ≠ [] := fun h => hb (by rw [h] at hperm; exact hperm.eq_nil)
      rw [foldl_flagLast qr fixed p ht hb, foldl_flagLast qr fixed p ht' hb']
      split
      · exact predict_equiv hqr hqr heq hf t
      · exact heq
  have hpost := (foldl_equiv hqr hqr hf (args := post) (fun b hb => hsd b (by simp [hb])) heq2).2
  have e1 : r.outs = outs qr fixed initial pre ++ outs qr fixed c (flagLast p blk) ++
      outs qr fixed ((flagLast p blk).foldl (step qr fixed) c) post := by
    rw [a1, outs_append, outs_append, List.foldl_append]
  have e2 : r'.outs = outs qr fixed initial pre ++ outs qr fixed c (flagLast p blk') ++
      outs qr fixed ((flagLast p blk).foldl (step qr fixed) c) post := by
    rw [b1, outs_append, outs_append, List.foldl_append, hpost]
  have hcontr : r.contributions = r'.contributions := by
    funext i
    rw [a3 i, b3 i, e1, e2]
    have hcl : ∀ x, softClipping x none none 1 1 = x := fun x => rfl
    simp only [hcl, List.map_append, List.sum_append, (k1 i).1, (k2 i).1, (key i).2]
  refine ⟨hcontr, by rw [hv, hv', hcontr], ?_, ?_⟩
  · rw [e1, e2, List.append_assoc, List.append_assoc, List.take_left' (outs_length ..), List.take_left' (outs_length ..)]
  · rw [e1, e2, List.drop_left' (by rw [List.length_append, outs_length, outs_length, flagLast_length]),
      List.drop_left' (by rw [List.length_append, outs_length, outs_length, flagLast_length, hperm.length_eq])]

end Skill
