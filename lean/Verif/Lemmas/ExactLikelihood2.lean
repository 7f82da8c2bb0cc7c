import Verif.Lemmas.ExactLikelihood
/-
The density of the data of one individual in a linear model, by induction over the steps.
-/
namespace Skill
open Matrix MeasureTheory ProbabilityTheory Spec
variable {n : ℕ}

/-- The transition of a step is affine. -/
def Spec.Step.Affine (s : Step n) : Prop := ∀ g q, s.transition = some (g, q) → ∃ (B : Matrix (Fin n) (Fin n) ℝ) (d : Fin n → ℝ), g = fun x => B *ᵥ x + d

/-- Mean of the state after a step. -/
def stepMean (s : Step n) (m : Fin n → ℝ) : Fin n → ℝ :=
  match s.transition with
  | none => m
  | some (g, _) => g m

/-- Covariance of the state after a step. -/
def stepCov (s : Step n) (P : Matrix (Fin n) (Fin n) ℝ) : Matrix (Fin n) (Fin n) ℝ :=
  match s.transition with
  | none => P
  | some (g, q) => linPart g * P * (linPart g)ᵀ + Matrix.diagonal (fun f => q f ^ 2)

/-- The density of the data of one individual as computed by the Kalman recursions. -/
noncomputable def kalmanDensity : (steps : List (Step n)) → (m : Fin n → ℝ) → (P : Matrix (Fin n) (Fin n) ℝ) → (Fin steps.length → ℝ) → ℝ
  | [], _, _, _ => 1
  | s :: ss, m, P, y =>
    (if s.observed then normalDensity (residualVariance P s.h s.sd) (y 0 - (m ⬝ᵥ s.h + s.c)) else 1) *
      kalmanDensity ss
        (stepMean s (if s.observed then posteriorMean m P s.h s.sd (y 0 - (m ⬝ᵥ s.h + s.c)) else m))
        (stepCov s (if s.observed then posteriorCov P s.h s.sd else P)) (fun k => y k.succ)

theorem stepCov_posSemidef (s : Step n) {P : Matrix (Fin n) (Fin n) ℝ} (hP : P.PosSemidef) : (stepCov s P).PosSemidef := by
  unfold stepCov
  split
  · exact hP
  · rename_i g q _
    refine Matrix.PosSemidef.add ?_ ?_
    · have := hP.mul_mul_conjTranspose_same (linPart g)
      rwa [conjTranspose_eq_transpose_of_trivial] at this
    · exact Matrix.PosSemidef.diagonal (fun f => sq_nonneg _)

theorem Spec.Step.Affine.measurable_next {s : Step n} (hs : s.Affine) : Measurable (fun p : (Fin n → ℝ) × (Fin n → ℝ) => s.next p.1 p.2) := by
  unfold Step.next
  cases h : s.transition with
  | none => exact measurable_fst
  | some gq =>
    obtain ⟨g, q⟩ := gq
    obtain ⟨B, d, rfl⟩ := hs g q h
    have : Continuous (fun p : (Fin n → ℝ) × (Fin n → ℝ) => (fun f => (B *ᵥ p.1 + d) f + q f * p.2 f : Fin n → ℝ)) := by fun_prop
    exact this.measurable

theorem Spec.Step.Affine.measurable_stepMean {s : Step n} (hs : s.Affine) : Measurable (stepMean s) := by
  unfold stepMean
  cases h : s.transition with
  | none => exact measurable_id
  | some gq =>
    obtain ⟨g, q⟩ := gq
    obtain ⟨B, d, rfl⟩ := hs g q h
    have : Continuous (fun m : Fin n → ℝ => B *ᵥ m + d) := by fun_prop
    exact this.measurable

theorem measurable_cons {k : ℕ} {Ω : Type} [MeasurableSpace Ω] {f : Ω → ℝ} {g : Ω → Fin k → ℝ} (hf : Measurable f) (hg : Measurable g) :
    Measurable (fun ω => (Fin.cons (f ω) (g ω) : Fin (k + 1) → ℝ)) := by
  refine measurable_pi_iff.mpr (fun j => ?_)
  refine Fin.cases ?_ (fun j => ?_) j
  · exact hf
  · exact (measurable_pi_apply j).comp hg

theorem measurable_simulate {steps : List (Step n)} (hs : ∀ s ∈ steps, s.Affine) :
    Measurable (fun p : (Fin n → ℝ) × (Fin steps.length → ℝ × (Fin n → ℝ)) => simulate steps p.1 p.2) := by
  induction steps with
  | nil => exact measurable_const
  | cons s ss ih =>
    have ih := ih (fun s' h => hs s' (by simp [h]))
    have h0 : Measurable (fun p : (Fin n → ℝ) × (Fin (ss.length + 1) → ℝ × (Fin n → ℝ)) => p.2 0) := (measurable_pi_apply 0).comp measurable_snd
    refine measurable_cons ?_ ?_
    · split
      · have : Continuous (fun q : (Fin n → ℝ) × (ℝ × (Fin n → ℝ)) => s.h ⬝ᵥ q.1 + s.c + s.sd * q.2.1) := by fun_prop
        exact this.measurable.comp (measurable_fst.prodMk h0)
      · exact measurable_const
    · refine ih.comp (Measurable.prodMk ?_ ?_)
      · exact (hs s (by simp)).measurable_next.comp (measurable_fst.prodMk (measurable_snd.comp h0))
      · exact measurable_pi_iff.mpr (fun j => (measurable_pi_apply j.succ).comp measurable_snd)

theorem measurable_normalDensity (s : ℝ) : Measurable (normalDensity s) := measurable_gaussianPDFReal _ _

theorem measurable_kalmanDensity {steps : List (Step n)} (hs : ∀ s ∈ steps, s.Affine) : ∀ P : Matrix (Fin n) (Fin n) ℝ,
    Measurable (fun p : (Fin n → ℝ) × (Fin steps.length → ℝ) => kalmanDensity steps p.1 P p.2) := by
  induction steps with
  | nil => intro P; exact measurable_const
  | cons s ss ih =>
    intro P
    have ih := ih (fun s' h => hs s' (by simp [h]))
    have h0 : Measurable (fun p : (Fin n → ℝ) × (Fin (ss.length + 1) → ℝ) => p.2 0) := (measurable_pi_apply 0).comp measurable_snd
    have hc : Measurable (fun p : (Fin n → ℝ) × (Fin (ss.length + 1) → ℝ) => p.2 0 - (p.1 ⬝ᵥ s.h + s.c)) := by
      have : Continuous (fun q : (Fin n → ℝ) × ℝ => q.2 - (q.1 ⬝ᵥ s.h + s.c)) := by fun_prop
      exact this.measurable.comp (measurable_fst.prodMk h0)
    have ht : Measurable (fun p : (Fin n → ℝ) × (Fin (ss.length + 1) → ℝ) => (fun k : Fin ss.length => p.2 k.succ)) :=
      measurable_pi_iff.mpr (fun j => (measurable_pi_apply j.succ).comp measurable_snd)
    show Measurable (fun p : (Fin n → ℝ) × (Fin (ss.length + 1) → ℝ) =>
      (if s.observed then normalDensity (residualVariance P s.h s.sd) (p.2 0 - (p.1 ⬝ᵥ s.h + s.c)) else 1) *
      kalmanDensity ss
        (stepMean s (if s.observed then posteriorMean p.1 P s.h s.sd (p.2 0 - (p.1 ⬝ᵥ s.h + s.c)) else p.1))
        (stepCov s (if s.observed then posteriorCov P s.h s.sd else P)) (fun k => p.2 k.succ))
    refine Measurable.mul ?_ ((ih _).comp (Measurable.prodMk ((hs s (by simp)).measurable_stepMean.comp ?_) ht))
    · split
      · exact (measurable_normalDensity _).comp hc
      · exact measurable_const
    · split
      · have : Continuous (fun q : (Fin n → ℝ) × ℝ => posteriorMean q.1 P s.h s.sd q.2) := by unfold posteriorMean; fun_prop
        exact this.measurable.comp (measurable_fst.prodMk hc)
      · exact measurable_fst

instance (b : Bool) : SigmaFinite (if b then volume else Measure.dirac 0 : Measure ℝ) := by
  cases b
  · exact inferInstanceAs (SigmaFinite (Measure.dirac 0))
  · exact inferInstanceAs (SigmaFinite volume)

theorem lintegral_base_cons (s : Step n) (ss : List (Step n)) {F : (Fin (ss.length + 1) → ℝ) → ENNReal} (hF : Measurable F) :
    ∫⁻ y, F y ∂baseMeasure (s :: ss) = ∫⁻ y, ∫⁻ ys, F (Fin.cons y ys) ∂baseMeasure ss ∂(if s.observed then volume else Measure.dirac 0) := by
  unfold baseMeasure
  exact lintegral_pi_cons (fun k : Fin (ss.length + 1) => if ((s :: ss).get k).observed then volume else Measure.dirac 0) hF

instance (steps : List (Step n)) : SigmaFinite (baseMeasure steps) := by
  unfold baseMeasure; infer_instance

theorem lintegral_draws_cons {k : ℕ} {F : (Fin (k + 1) → ℝ × (Fin n → ℝ)) → ENNReal} (hF : Measurable F) :
    ∫⁻ w, F w ∂stdDraws (k + 1) n = ∫⁻ ε, ∫⁻ η, ∫⁻ ds, F (Fin.cons (ε, η) ds) ∂stdDraws k n ∂stdNormal (Fin n) ∂gaussianReal 0 1 := by
  unfold stdDraws
  rw [lintegral_pi_cons _ hF, lintegral_prod]
  have : Measurable (fun p : (ℝ × (Fin n → ℝ)) × (Fin k → ℝ × (Fin n → ℝ)) => F (Fin.cons p.1 p.2)) := by
    refine hF.comp (measurable_pi_iff.mpr (fun j => ?_))
    refine Fin.cases ?_ (fun j => ?_) j
    · exact measurable_fst
    · exact (measurable_pi_apply j).comp measurable_snd
  exact this.lintegral_prod_right'.aemeasurable

/-- The Kalman recursions give the density of the simulated data. -/
theorem lintegral_simulate {steps : List (Step n)} (hs : ∀ s ∈ steps, s.Affine) (hsd : ∀ s ∈ steps, s.sd ≠ 0) :
    ∀ (m : Fin n → ℝ) (U : Matrix (Fin n) (Fin n) ℝ) {F : (Fin steps.length → ℝ) → ENNReal}, Measurable F →
    ∫⁻ z, ∫⁻ d, F (simulate steps (m + Uᵀ *ᵥ z) d) ∂stdDraws steps.length n ∂stdNormal (Fin n) =
      ∫⁻ y, ENNReal.ofReal (kalmanDensity steps m (Uᵀ * U) y) * F y ∂baseMeasure steps := by
  induction steps with
  | nil =>
    intro m U F hF
    have e : ∀ y : Fin ([] : List (Step n)).length → ℝ, F y = F Fin.elim0 := fun y => congrArg F (funext (fun j => j.elim0))
    simp only [e (simulate _ _ _), kalmanDensity, ENNReal.ofReal_one, one_mul]
    rw [lintegral_congr e]
    simp only [lintegral_const, measure_univ, mul_one]
    have : baseMeasure ([] : List (Step n)) Set.univ = 1 := by
      unfold baseMeasure
      have := Measure.pi_univ (fun k : Fin ([] : List (Step n)).length => (if (([] : List (Step n)).get k).observed then volume else Measure.dirac 0 : Measure ℝ))
      rw [this]
      rfl
    rw [this, mul_one]
  | cons s ss ih =>
    intro m U F hF
    have hss : ∀ s ∈ ss, s.Affine := fun s' h => hs s' (by simp [h])
    have ih := ih hss (fun s' h => hsd s' (by simp [h]))
    have hsa := hs s (by simp)
    have hsd0 := hsd s (by simp)
    have hFc : ∀ y : ℝ, Measurable (fun ys : Fin ss.length → ℝ => F (Fin.cons y ys)) := fun y =>
      hF.comp (measurable_cons measurable_const measurable_id)
    have hsim := measurable_simulate hss
    set K : (Fin n → ℝ) → ℝ → ENNReal := fun x y => ∫⁻ η, ∫⁻ ds, F (Fin.cons y (simulate ss (s.next x η) ds)) ∂stdDraws ss.length n ∂stdNormal (Fin n) with hK
    have hKm : Measurable (fun p : (Fin n → ℝ) × ℝ => K p.1 p.2) := by
      refine Measurable.lintegral_prod_right' (f := fun p : ((Fin n → ℝ) × ℝ) × (Fin n → ℝ) =>
        ∫⁻ ds, F (Fin.cons p.1.2 (simulate ss (s.next p.1.1 p.2) ds)) ∂stdDraws ss.length n) ?_
      refine Measurable.lintegral_prod_right' (f := fun p : (((Fin n → ℝ) × ℝ) × (Fin n → ℝ)) × (Fin ss.length → ℝ × (Fin n → ℝ)) =>
        F (Fin.cons p.1.1.2 (simulate ss (s.next p.1.1.1 p.1.2) p.2))) ?_
      have hp : Measurable (fun p : (((Fin n → ℝ) × ℝ) × (Fin n → ℝ)) × (Fin ss.length → ℝ × (Fin n → ℝ)) => (p.1.1.1, p.1.2)) := by fun_prop
      have hq := hsa.measurable_next.comp hp
      exact hF.comp (measurable_cons (by fun_prop) (hsim.comp (hq.prodMk measurable_snd)))
    have hmeas0 : ∀ x, Measurable (fun d : Fin (ss.length + 1) → ℝ × (Fin n → ℝ) => F (simulate (s :: ss) x d)) := fun x =>
      hF.comp ((measurable_simulate hs).comp (measurable_const.prodMk measurable_id))
    have hL : ∀ x, ∫⁻ d, F (simulate (s :: ss) x d) ∂stdDraws (ss.length + 1) n =
        ∫⁻ ε, K x (if s.observed then s.h ⬝ᵥ x + s.c + s.sd * ε else 0) ∂gaussianReal 0 1 := fun x => by
      rw [lintegral_draws_cons (hmeas0 x)]
      rfl
    have hLHS : ∫⁻ z, ∫⁻ d, F (simulate (s :: ss) (m + Uᵀ *ᵥ z) d) ∂stdDraws (s :: ss).length n ∂stdNormal (Fin n) =
        ∫⁻ z, ∫⁻ ε, K (m + Uᵀ *ᵥ z) (if s.observed then s.h ⬝ᵥ (m + Uᵀ *ᵥ z) + s.c + s.sd * ε else 0) ∂gaussianReal 0 1 ∂stdNormal (Fin n) :=
      lintegral_congr (fun z => hL _)
    have hT : ∀ (m : Fin n → ℝ) (U : Matrix (Fin n) (Fin n) ℝ) (y : ℝ), ∫⁻ z, K (m + Uᵀ *ᵥ z) y ∂stdNormal (Fin n) =
        ∫⁻ ys, ENNReal.ofReal (kalmanDensity ss (stepMean s m) (stepCov s (Uᵀ * U)) ys) * F (Fin.cons y ys) ∂baseMeasure ss := by
      intro m U y
      simp only [hK]
      cases ht : s.transition with
      | none =>
        have e1 : ∀ x η, s.next x η = x := fun x η => by simp only [Step.next, ht]
        have e2 : stepMean s m = m := by simp only [stepMean, ht]
        have e3 : stepCov s (Uᵀ * U) = Uᵀ * U := by simp only [stepCov, ht]
        simp only [e1, e2, e3, lintegral_const, measure_univ, mul_one]
        exact ih m U (hFc y)
      | some gq =>
        obtain ⟨g, q⟩ := gq
        obtain ⟨B, d, hg⟩ := hsa g q ht
        have e1 : ∀ x η, s.next x η = fun f => (B *ᵥ x + d) f + q f * η f := fun x η => by simp only [Step.next, ht, hg]
        have e2 : stepMean s m = B *ᵥ m + d := by simp only [stepMean, ht, hg]
        have e3 : stepCov s (Uᵀ * U) = B * (Uᵀ * U) * Bᵀ + Matrix.diagonal (fun f => q f ^ 2) := by
          simp only [stepCov, ht, hg, linPart_affine]
        obtain ⟨U', _, hU'⟩ := exists_upper_gram (stepCov s (Uᵀ * U)) (stepCov_posSemidef s (posSemidef_gram U))
        have hH : Measurable (fun x : Fin n → ℝ => ∫⁻ ds, F (Fin.cons y (simulate ss x ds)) ∂stdDraws ss.length n) := by
          refine Measurable.lintegral_prod_right' (f := fun p : (Fin n → ℝ) × (Fin ss.length → ℝ × (Fin n → ℝ)) => F (Fin.cons y (simulate ss p.1 p.2))) ?_
          exact (hFc y).comp hsim
        have h1 := lintegral_transition m d q (hU'.trans e3) hH
        simp only [e1]
        rw [h1, e2, ih (B *ᵥ m + d) U' (hFc y), hU']
    have hG : Measurable (fun y : Fin (ss.length + 1) → ℝ => ENNReal.ofReal (kalmanDensity (s :: ss) m (Uᵀ * U) y) * F y) :=
      ((measurable_kalmanDensity hs (Uᵀ * U)).comp (measurable_const.prodMk measurable_id)).ennreal_ofReal.mul hF
    have hRHS := lintegral_base_cons s ss hG
    refine hLHS.trans (Eq.trans ?_ hRHS.symm)
    cases ho : s.observed with
    | false =>
      simp only [Bool.false_eq_true, if_false, lintegral_const, measure_univ, mul_one]
      rw [hT, lintegral_dirac']
      · simp only [kalmanDensity, ho, Bool.false_eq_true, if_false, one_mul, Fin.cons_succ]
      · refine Measurable.lintegral_prod_right' (f := fun p : ℝ × (Fin ss.length → ℝ) =>
          ENNReal.ofReal (kalmanDensity (s :: ss) m (Uᵀ * U) (Fin.cons p.1 p.2)) * F (Fin.cons p.1 p.2)) ?_
        exact hG.comp (measurable_cons measurable_fst measurable_snd)
    | true =>
      simp only [if_true]
      have hv := residualVariance_pos (posSemidef_gram U) s.h hsd0
      obtain ⟨U', _, hU'⟩ := exists_upper_gram _ (posteriorCov_posSemidef (posSemidef_gram U) s.h hv)
      rw [lintegral_measure m s.h s.c hv hU' hKm]
      refine lintegral_congr (fun y => ?_)
      rw [hT, ← lintegral_const_mul']
      · refine lintegral_congr (fun ys => ?_)
        simp only [kalmanDensity, ho, if_true, Fin.cons_zero, Fin.cons_succ]
        rw [hU', ENNReal.ofReal_mul (normalDensity_pos hv _).le, mul_assoc]
      · exact ENNReal.ofReal_ne_top

/-- The distribution of the data has the density computed by the Kalman recursions. -/
theorem dataLaw_eq {steps : List (Step n)} (hs : ∀ s ∈ steps, s.Affine) (hsd : ∀ s ∈ steps, s.sd ≠ 0) (m : Fin n → ℝ) (U : Matrix (Fin n) (Fin n) ℝ) :
    dataLaw m U steps = (baseMeasure steps).withDensity (fun y => ENNReal.ofReal (kalmanDensity steps m (Uᵀ * U) y)) := by
  have hsim : Measurable (fun d : (Fin n → ℝ) × (Fin steps.length → ℝ × (Fin n → ℝ)) => simulate steps (m + Uᵀ *ᵥ d.1) d.2) :=
    (measurable_simulate hs).comp (((measurable_affine m U).comp measurable_fst).prodMk measurable_snd)
  have hd : Measurable (fun y => ENNReal.ofReal (kalmanDensity steps m (Uᵀ * U) y)) :=
    ((measurable_kalmanDensity hs (Uᵀ * U)).comp (measurable_const.prodMk measurable_id)).ennreal_ofReal
  refine Measure.ext_of_lintegral _ (fun F hF => ?_)
  unfold dataLaw
  rw [lintegral_map hF hsim, lintegral_prod (fun d : (Fin n → ℝ) × (Fin steps.length → ℝ × (Fin n → ℝ)) => F (simulate steps (m + Uᵀ *ᵥ d.1) d.2)) (hF.comp hsim).aemeasurable, lintegral_withDensity_eq_lintegral_mul _ hd hF]
  exact lintegral_simulate hs hsd m U hF

end Skill
