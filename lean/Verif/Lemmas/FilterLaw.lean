import Verif.Lemmas.ExactLikelihood2
/-
The joint distribution of the data of one individual and the state at the last measurement, in a linear model.
-/
namespace Skill
open Matrix MeasureTheory ProbabilityTheory Spec
variable {n : ℕ}

/-- Mean after the update with the measurement of a step. -/
noncomputable def updMean (s : Step n) (m : Fin n → ℝ) (P : Matrix (Fin n) (Fin n) ℝ) (y : ℝ) : Fin n → ℝ :=
  if s.observed then posteriorMean m P s.h s.sd (y - (m ⬝ᵥ s.h + s.c)) else m

/-- Covariance matrix after the update. -/
noncomputable def updCov (s : Step n) (P : Matrix (Fin n) (Fin n) ℝ) : Matrix (Fin n) (Fin n) ℝ := if s.observed then posteriorCov P s.h s.sd else P

/-- Density of the measurement of a step. -/
noncomputable def updDensity (s : Step n) (m : Fin n → ℝ) (P : Matrix (Fin n) (Fin n) ℝ) (y : ℝ) : ℝ :=
  if s.observed then normalDensity (residualVariance P s.h s.sd) (y - (m ⬝ᵥ s.h + s.c)) else 1

theorem kalmanDensity_cons (s : Step n) (ss : List (Step n)) (m : Fin n → ℝ) (P : Matrix (Fin n) (Fin n) ℝ) (y : Fin (ss.length + 1) → ℝ) :
    kalmanDensity (s :: ss) m P y = updDensity s m P (y 0) * kalmanDensity ss (stepMean s (updMean s m P (y 0))) (stepCov s (updCov s P)) (fun k => y k.succ) := rfl

/-- Mean of the state at the last measurement, given all data. -/
noncomputable def filterMean : (steps : List (Step n)) → (m : Fin n → ℝ) → (P : Matrix (Fin n) (Fin n) ℝ) → (Fin steps.length → ℝ) → Fin n → ℝ
  | [], m, _, _ => m
  | [s], m, P, y => updMean s m P (y (0 : Fin 1))
  | s :: s' :: ss, m, P, y => filterMean (s' :: ss) (stepMean s (updMean s m P (y (0 : Fin (ss.length + 2))))) (stepCov s (updCov s P)) (fun k => y k.succ)

/-- The state at the last measurement. -/
def lastState : (steps : List (Step n)) → (x : Fin n → ℝ) → (draws : Fin steps.length → ℝ × (Fin n → ℝ)) → Fin n → ℝ
  | [], x, _ => x
  | [_], x, _ => x
  | s :: s' :: ss, x, d => lastState (s' :: ss) (s.next x (d (0 : Fin (ss.length + 2))).2) (fun k => d k.succ)

theorem updDensity_pos {s : Step n} (hsd : s.sd ≠ 0) (m : Fin n → ℝ) {P : Matrix (Fin n) (Fin n) ℝ} (hP : P.PosSemidef) (y : ℝ) : 0 < updDensity s m P y := by
  unfold updDensity
  split_ifs
  · exact normalDensity_pos (residualVariance_pos hP s.h hsd) _
  · exact one_pos

theorem updCov_posSemidef {s : Step n} (hsd : s.sd ≠ 0) {P : Matrix (Fin n) (Fin n) ℝ} (hP : P.PosSemidef) : (updCov s P).PosSemidef := by
  unfold updCov
  split_ifs
  · exact posteriorCov_posSemidef hP s.h (residualVariance_pos hP s.h hsd)
  · exact hP

theorem kalmanDensity_pos {steps : List (Step n)} (hsd : ∀ s ∈ steps, s.sd ≠ 0) : ∀ (m : Fin n → ℝ) {P : Matrix (Fin n) (Fin n) ℝ}, P.PosSemidef → ∀ y, 0 < kalmanDensity steps m P y := by
  induction steps with
  | nil => intro m P _ y; exact one_pos
  | cons s ss ih =>
    intro m P hP y
    rw [kalmanDensity_cons]
    exact mul_pos (updDensity_pos (hsd s (by simp)) m hP _) (ih (fun s' h => hsd s' (by simp [h])) _ (stepCov_posSemidef s (updCov_posSemidef (hsd s (by simp)) hP)) _)

/-- Conditioning on the measurement of a step. -/
theorem lintegral_update {s : Step n} (hsd : s.sd ≠ 0) (U : Matrix (Fin n) (Fin n) ℝ) : ∃ U' : Matrix (Fin n) (Fin n) ℝ, U'ᵀ * U' = updCov s (Uᵀ * U) ∧
    ∀ (m : Fin n → ℝ) {K : (Fin n → ℝ) → ℝ → ENNReal}, Measurable (fun p : (Fin n → ℝ) × ℝ => K p.1 p.2) →
      ∫⁻ z, ∫⁻ ε, K (m + Uᵀ *ᵥ z) (if s.observed then s.h ⬝ᵥ (m + Uᵀ *ᵥ z) + s.c + s.sd * ε else 0) ∂gaussianReal 0 1 ∂stdNormal (Fin n) =
        ∫⁻ y, ENNReal.ofReal (updDensity s m (Uᵀ * U) y) * ∫⁻ z, K (updMean s m (Uᵀ * U) y + U'ᵀ *ᵥ z) y ∂stdNormal (Fin n) ∂(if s.observed then volume else Measure.dirac 0) := by
  cases ho : s.observed with
  | false =>
    refine ⟨U, by simp [updCov, ho], fun m K hK => ?_⟩
    simp only [updDensity, updMean, ho, Bool.false_eq_true, if_false, ENNReal.ofReal_one, one_mul, lintegral_const, measure_univ, mul_one]
    rw [lintegral_dirac']
    have hp : Measurable (fun p : ℝ × (Fin n → ℝ) => (m + Uᵀ *ᵥ p.2, p.1)) := ((measurable_affine m U).comp measurable_snd).prodMk measurable_fst
    exact Measurable.lintegral_prod_right' (f := fun p : ℝ × (Fin n → ℝ) => K (m + Uᵀ *ᵥ p.2) p.1) (hK.comp hp)
  | true =>
    have hv := residualVariance_pos (posSemidef_gram U) s.h hsd
    obtain ⟨U', _, hU'⟩ := exists_upper_gram _ (posteriorCov_posSemidef (posSemidef_gram U) s.h hv)
    refine ⟨U', by simp [updCov, ho, hU'], fun m K hK => ?_⟩
    simp only [updDensity, updMean, ho, if_true]
    exact lintegral_measure m s.h s.c hv hU' hK

/-- The transition of a step. -/
theorem lintegral_step {s : Step n} (hs : s.Affine) (U : Matrix (Fin n) (Fin n) ℝ) : ∃ U' : Matrix (Fin n) (Fin n) ℝ, U'ᵀ * U' = stepCov s (Uᵀ * U) ∧
    ∀ (m : Fin n → ℝ) {F : (Fin n → ℝ) → ENNReal}, Measurable F →
      ∫⁻ z, ∫⁻ η, F (s.next (m + Uᵀ *ᵥ z) η) ∂stdNormal (Fin n) ∂stdNormal (Fin n) = ∫⁻ z, F (stepMean s m + U'ᵀ *ᵥ z) ∂stdNormal (Fin n) := by
  cases ht : s.transition with
  | none =>
    refine ⟨U, by simp only [stepCov, ht], fun m F _ => ?_⟩
    simp only [Step.next, stepMean, ht, lintegral_const, measure_univ, mul_one]
  | some gq =>
    obtain ⟨g, q⟩ := gq
    obtain ⟨B, d, hg⟩ := hs g q ht
    have e3 : stepCov s (Uᵀ * U) = B * (Uᵀ * U) * Bᵀ + Matrix.diagonal (fun f => q f ^ 2) := by simp only [stepCov, ht, hg, linPart_affine]
    obtain ⟨U', _, hU'⟩ := exists_upper_gram (stepCov s (Uᵀ * U)) (stepCov_posSemidef s (posSemidef_gram U))
    refine ⟨U', hU', fun m F hF => ?_⟩
    have e1 : ∀ x η, s.next x η = fun f => (B *ᵥ x + d) f + q f * η f := fun x η => by simp only [Step.next, ht, hg]
    have e2 : stepMean s m = B *ᵥ m + d := by simp only [stepMean, ht, hg]
    simp only [e1, e2]
    exact lintegral_transition m d q (hU'.trans e3) hF

theorem measurable_lastState {steps : List (Step n)} (hs : ∀ s ∈ steps, s.Affine) :
    Measurable (fun p : (Fin n → ℝ) × (Fin steps.length → ℝ × (Fin n → ℝ)) => lastState steps p.1 p.2) := by
  induction steps with
  | nil => exact measurable_fst
  | cons s ss ih =>
    cases ss with
    | nil => exact measurable_fst
    | cons s' ss =>
      have ih := ih (fun s' h => hs s' (List.mem_cons_of_mem _ h))
      have h0 : Measurable (fun p : (Fin n → ℝ) × (Fin (ss.length + 2) → ℝ × (Fin n → ℝ)) => p.2 0) := (measurable_pi_apply 0).comp measurable_snd
      refine ih.comp (Measurable.prodMk ?_ ?_)
      · exact (hs s (by simp)).measurable_next.comp (measurable_fst.prodMk (measurable_snd.comp h0))
      · exact measurable_pi_iff.mpr (fun j => (measurable_pi_apply j.succ).comp measurable_snd)

theorem measurable_updMean (s : Step n) (P : Matrix (Fin n) (Fin n) ℝ) : Measurable (fun p : (Fin n → ℝ) × ℝ => updMean s p.1 P p.2) := by
  unfold updMean
  split_ifs
  · have : Continuous (fun p : (Fin n → ℝ) × ℝ => posteriorMean p.1 P s.h s.sd (p.2 - (p.1 ⬝ᵥ s.h + s.c))) := by unfold posteriorMean; fun_prop
    exact this.measurable
  · exact measurable_fst

theorem measurable_filterMean {steps : List (Step n)} (hs : ∀ s ∈ steps, s.Affine) : ∀ P : Matrix (Fin n) (Fin n) ℝ,
    Measurable (fun p : (Fin n → ℝ) × (Fin steps.length → ℝ) => filterMean steps p.1 P p.2) := by
  induction steps with
  | nil => intro P; exact measurable_fst
  | cons s ss ih =>
    intro P
    have h0 : Measurable (fun p : (Fin n → ℝ) × (Fin (ss.length + 1) → ℝ) => (p.1, p.2 0)) := measurable_fst.prodMk ((measurable_pi_apply 0).comp measurable_snd)
    cases ss with
    | nil => exact (measurable_updMean s P).comp h0
    | cons s' ss =>
      have ih := ih (fun s' h => hs s' (List.mem_cons_of_mem _ h)) (stepCov s (updCov s P))
      refine ih.comp (Measurable.prodMk ?_ ?_)
      · exact (hs s (by simp)).measurable_stepMean.comp ((measurable_updMean s P).comp h0)
      · exact measurable_pi_iff.mpr (fun j => (measurable_pi_apply j.succ).comp measurable_snd)

/-- Given the data, the state at the last measurement has a normal distribution with mean `filterMean`. -/
theorem lintegral_filter {steps : List (Step n)} (hs : ∀ s ∈ steps, s.Affine) (hsd : ∀ s ∈ steps, s.sd ≠ 0) :
    ∀ U : Matrix (Fin n) (Fin n) ℝ, ∃ V : Matrix (Fin n) (Fin n) ℝ, ∀ (m : Fin n → ℝ) {F : (Fin steps.length → ℝ) → (Fin n → ℝ) → ENNReal}, Measurable (fun p : (Fin steps.length → ℝ) × (Fin n → ℝ) => F p.1 p.2) →
    ∫⁻ z, ∫⁻ d, F (simulate steps (m + Uᵀ *ᵥ z) d) (lastState steps (m + Uᵀ *ᵥ z) d) ∂stdDraws steps.length n ∂stdNormal (Fin n) =
      ∫⁻ y, ENNReal.ofReal (kalmanDensity steps m (Uᵀ * U) y) * ∫⁻ z, F y (filterMean steps m (Uᵀ * U) y + Vᵀ *ᵥ z) ∂stdNormal (Fin n) ∂baseMeasure steps := by
  induction steps with
  | nil =>
    intro U
    refine ⟨U, fun m F hF => ?_⟩
    have e : ∀ (y : Fin ([] : List (Step n)).length → ℝ) x, F y x = F Fin.elim0 x := fun y x => congrArg (fun y => F y x) (funext (fun j => j.elim0))
    simp only [lastState, filterMean, e (simulate _ _ _), kalmanDensity, ENNReal.ofReal_one, one_mul, lintegral_const, measure_univ, mul_one]
    have : baseMeasure ([] : List (Step n)) Set.univ = 1 := by
      unfold baseMeasure
      have := Measure.pi_univ (fun k : Fin ([] : List (Step n)).length => (if (([] : List (Step n)).get k).observed then volume else Measure.dirac 0 : Measure ℝ))
      rw [this]
      rfl
    rw [lintegral_congr (fun y => lintegral_congr (fun z => e y _)), lintegral_const, this, mul_one]
  | cons s ss ih =>
    intro U
    have hss : ∀ s ∈ ss, s.Affine := fun s' h => hs s' (by simp [h])
    have ih := ih hss (fun s' h => hsd s' (by simp [h]))
    have hsa := hs s (by simp)
    obtain ⟨U₁, hU₁, hupd⟩ := lintegral_update (hsd s (by simp)) U
    obtain ⟨U₂, hU₂, hstep⟩ := lintegral_step hsa U₁
    rw [hU₁] at hU₂
    obtain ⟨V, hV⟩ := ih U₂
    rw [hU₂] at hV
    -- the last state and mean
    cases ss with
    | nil =>
      refine ⟨U₁, fun m F hF => ?_⟩
      have hm0 : ∀ x, Measurable (fun d : Fin 1 → ℝ × (Fin n → ℝ) => F (simulate [s] x d) x) := fun x =>
        hF.comp (((measurable_simulate hs).comp (measurable_const.prodMk measurable_id)).prodMk measurable_const)
      have hFK : Measurable (fun p : (Fin n → ℝ) × ℝ => F (Fin.cons p.2 Fin.elim0 : Fin 1 → ℝ) p.1) :=
        hF.comp ((measurable_cons measurable_snd measurable_const).prodMk measurable_fst)
      have hL : ∀ x, ∫⁻ d, F (simulate [s] x d) (lastState [s] x d) ∂stdDraws 1 n =
          ∫⁻ ε, F (Fin.cons (if s.observed then s.h ⬝ᵥ x + s.c + s.sd * ε else 0) Fin.elim0 : Fin 1 → ℝ) x ∂gaussianReal 0 1 := fun x => by
        have := lintegral_draws_cons (hm0 x)
        refine this.trans (lintegral_congr (fun ε => ?_))
        have e : ∀ η ds, simulate [s] x (Fin.cons (ε, η) ds : Fin 1 → ℝ × (Fin n → ℝ)) = (Fin.cons (if s.observed then s.h ⬝ᵥ x + s.c + s.sd * ε else 0) Fin.elim0 : Fin 1 → ℝ) := fun η ds => rfl
        simp only [e, lintegral_const, measure_univ, mul_one]
      have hLHS : ∫⁻ z, ∫⁻ d, F (simulate [s] (m + Uᵀ *ᵥ z) d) (lastState [s] (m + Uᵀ *ᵥ z) d) ∂stdDraws [s].length n ∂stdNormal (Fin n) = _ := lintegral_congr (fun z => hL _)
      rw [hLHS, hupd m (K := fun x y => F (Fin.cons y Fin.elim0 : Fin 1 → ℝ) x) hFK]
      have hG : Measurable (fun y : Fin 1 → ℝ => ENNReal.ofReal (kalmanDensity [s] m (Uᵀ * U) y) * ∫⁻ z, F y (filterMean [s] m (Uᵀ * U) y + U₁ᵀ *ᵥ z) ∂stdNormal (Fin n)) := by
        refine ((measurable_kalmanDensity hs (Uᵀ * U)).comp (measurable_const.prodMk measurable_id)).ennreal_ofReal.mul ?_
        refine Measurable.lintegral_prod_right' (f := fun p : (Fin 1 → ℝ) × (Fin n → ℝ) => F p.1 (filterMean [s] m (Uᵀ * U) p.1 + U₁ᵀ *ᵥ p.2)) ?_
        refine hF.comp (measurable_fst.prodMk (Measurable.add ((measurable_filterMean hs _).comp (measurable_const.prodMk measurable_fst)) ?_))
        have : Continuous (fun z : Fin n → ℝ => U₁ᵀ *ᵥ z) := by fun_prop
        exact this.measurable.comp measurable_snd
      have hRHS := lintegral_base_cons s [] hG
      refine Eq.trans ?_ hRHS.symm
      refine lintegral_congr (fun y => ?_)
      have hbase : baseMeasure ([] : List (Step n)) Set.univ = 1 := by
        unfold baseMeasure
        have := Measure.pi_univ (fun k : Fin ([] : List (Step n)).length => (if (([] : List (Step n)).get k).observed then volume else Measure.dirac 0 : Measure ℝ))
        rw [this]
        rfl
      have e : ∀ ys : Fin ([] : List (Step n)).length → ℝ, ENNReal.ofReal (kalmanDensity [s] m (Uᵀ * U) (Fin.cons y ys)) * ∫⁻ z, F (Fin.cons y ys) (filterMean [s] m (Uᵀ * U) (Fin.cons y ys) + U₁ᵀ *ᵥ z) ∂stdNormal (Fin n) =
          ENNReal.ofReal (updDensity s m (Uᵀ * U) y) * ∫⁻ z, F (Fin.cons y Fin.elim0 : Fin 1 → ℝ) (updMean s m (Uᵀ * U) y + U₁ᵀ *ᵥ z) ∂stdNormal (Fin n) := by
        intro ys
        have : ys = Fin.elim0 := funext (fun j => j.elim0)
        subst this
        congr 2
        exact mul_one _
      rw [lintegral_congr e, lintegral_const, hbase, mul_one]
    | cons s' ss =>
      refine ⟨V, fun m F hF => ?_⟩
      have hsim := measurable_simulate hss
      have hlst := measurable_lastState hss
      set K : (Fin n → ℝ) → ℝ → ENNReal := fun x y => ∫⁻ η, ∫⁻ ds, F (Fin.cons y (simulate (s' :: ss) (s.next x η) ds)) (lastState (s' :: ss) (s.next x η) ds) ∂stdDraws (s' :: ss).length n ∂stdNormal (Fin n) with hK
      have hKm : Measurable (fun p : (Fin n → ℝ) × ℝ => K p.1 p.2) := by
        refine Measurable.lintegral_prod_right' (f := fun p : ((Fin n → ℝ) × ℝ) × (Fin n → ℝ) =>
          ∫⁻ ds, F (Fin.cons p.1.2 (simulate (s' :: ss) (s.next p.1.1 p.2) ds)) (lastState (s' :: ss) (s.next p.1.1 p.2) ds) ∂stdDraws (s' :: ss).length n) ?_
        refine Measurable.lintegral_prod_right' (f := fun p : (((Fin n → ℝ) × ℝ) × (Fin n → ℝ)) × (Fin (s' :: ss).length → ℝ × (Fin n → ℝ)) =>
          F (Fin.cons p.1.1.2 (simulate (s' :: ss) (s.next p.1.1.1 p.1.2) p.2)) (lastState (s' :: ss) (s.next p.1.1.1 p.1.2) p.2)) ?_
        have hp : Measurable (fun p : (((Fin n → ℝ) × ℝ) × (Fin n → ℝ)) × (Fin (s' :: ss).length → ℝ × (Fin n → ℝ)) => (p.1.1.1, p.1.2)) := by fun_prop
        have hq := hsa.measurable_next.comp hp
        exact hF.comp ((measurable_cons (by fun_prop) (hsim.comp (hq.prodMk measurable_snd))).prodMk (hlst.comp (hq.prodMk measurable_snd)))
      have hmeas0 : ∀ x, Measurable (fun d : Fin ((s' :: ss).length + 1) → ℝ × (Fin n → ℝ) => F (simulate (s :: s' :: ss) x d) (lastState (s :: s' :: ss) x d)) := fun x =>
        hF.comp (((measurable_simulate hs).comp (measurable_const.prodMk measurable_id)).prodMk ((measurable_lastState hs).comp (measurable_const.prodMk measurable_id)))
      have hL : ∀ x, ∫⁻ d, F (simulate (s :: s' :: ss) x d) (lastState (s :: s' :: ss) x d) ∂stdDraws ((s' :: ss).length + 1) n =
          ∫⁻ ε, K x (if s.observed then s.h ⬝ᵥ x + s.c + s.sd * ε else 0) ∂gaussianReal 0 1 := fun x => by
        rw [lintegral_draws_cons (hmeas0 x)]
        rfl
      have hLHS : ∫⁻ z, ∫⁻ d, F (simulate (s :: s' :: ss) (m + Uᵀ *ᵥ z) d) (lastState (s :: s' :: ss) (m + Uᵀ *ᵥ z) d) ∂stdDraws (s :: s' :: ss).length n ∂stdNormal (Fin n) =
          ∫⁻ z, ∫⁻ ε, K (m + Uᵀ *ᵥ z) (if s.observed then s.h ⬝ᵥ (m + Uᵀ *ᵥ z) + s.c + s.sd * ε else 0) ∂gaussianReal 0 1 ∂stdNormal (Fin n) :=
        lintegral_congr (fun z => hL _)
      have hFc : ∀ y : ℝ, Measurable (fun p : (Fin (s' :: ss).length → ℝ) × (Fin n → ℝ) => F (Fin.cons y p.1) p.2) := fun y =>
        hF.comp ((measurable_cons measurable_const measurable_fst).prodMk measurable_snd)
      have hT : ∀ (m : Fin n → ℝ) (y : ℝ), ∫⁻ z, K (m + U₁ᵀ *ᵥ z) y ∂stdNormal (Fin n) =
          ∫⁻ ys, ENNReal.ofReal (kalmanDensity (s' :: ss) (stepMean s m) (stepCov s (updCov s (Uᵀ * U))) ys) *
            ∫⁻ z, F (Fin.cons y ys) (filterMean (s' :: ss) (stepMean s m) (stepCov s (updCov s (Uᵀ * U))) ys + Vᵀ *ᵥ z) ∂stdNormal (Fin n) ∂baseMeasure (s' :: ss) := by
        intro m y
        have hH : Measurable (fun x : Fin n → ℝ => ∫⁻ ds, F (Fin.cons y (simulate (s' :: ss) x ds)) (lastState (s' :: ss) x ds) ∂stdDraws (s' :: ss).length n) := by
          refine Measurable.lintegral_prod_right' (f := fun p : (Fin n → ℝ) × (Fin (s' :: ss).length → ℝ × (Fin n → ℝ)) => F (Fin.cons y (simulate (s' :: ss) p.1 p.2)) (lastState (s' :: ss) p.1 p.2)) ?_
          exact (hFc y).comp (hsim.prodMk hlst)
        have h1 := hstep m hH
        simp only [hK]
        rw [h1, hV (stepMean s m) (F := fun ys x => F (Fin.cons y ys) x) (hFc y)]
      have hVm : Measurable (fun z : Fin n → ℝ => Vᵀ *ᵥ z) := by
        have : Continuous (fun z : Fin n → ℝ => Vᵀ *ᵥ z) := by fun_prop
        exact this.measurable
      have hG : Measurable (fun y : Fin ((s' :: ss).length + 1) → ℝ => ENNReal.ofReal (kalmanDensity (s :: s' :: ss) m (Uᵀ * U) y) *
          ∫⁻ z, F y (filterMean (s :: s' :: ss) m (Uᵀ * U) y + Vᵀ *ᵥ z) ∂stdNormal (Fin n)) := by
        refine ((measurable_kalmanDensity hs (Uᵀ * U)).comp (measurable_const.prodMk measurable_id)).ennreal_ofReal.mul ?_
        refine Measurable.lintegral_prod_right' (f := fun p : (Fin (s :: s' :: ss).length → ℝ) × (Fin n → ℝ) => F p.1 (filterMean (s :: s' :: ss) m (Uᵀ * U) p.1 + Vᵀ *ᵥ p.2)) ?_
        exact hF.comp (measurable_fst.prodMk (Measurable.add ((measurable_filterMean hs _).comp (measurable_const.prodMk measurable_fst)) (hVm.comp measurable_snd)))
      have hRHS := lintegral_base_cons s (s' :: ss) hG
      refine hLHS.trans (Eq.trans ?_ hRHS.symm)
      rw [hupd m hKm]
      refine lintegral_congr (fun y => ?_)
      rw [hT, ← lintegral_const_mul' _ _ ENNReal.ofReal_ne_top]
      refine lintegral_congr (fun ys => ?_)
      have e1 : kalmanDensity (s :: s' :: ss) m (Uᵀ * U) (Fin.cons y ys) = updDensity s m (Uᵀ * U) y * kalmanDensity (s' :: ss) (stepMean s (updMean s m (Uᵀ * U) y)) (stepCov s (updCov s (Uᵀ * U))) ys := rfl
      have e2 : filterMean (s :: s' :: ss) m (Uᵀ * U) (Fin.cons y ys) = filterMean (s' :: ss) (stepMean s (updMean s m (Uᵀ * U) y)) (stepCov s (updCov s (Uᵀ * U))) ys := rfl
      rw [e1, e2, ENNReal.ofReal_mul (updDensity_pos (hsd s (by simp)) m (posSemidef_gram U) y).le, mul_assoc]

end Skill
