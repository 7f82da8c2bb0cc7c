import Verif.Props.Pipeline

/-! The density of the data of an individual is continuous in the parameters, and bounded if these vary in a compact set. -/

namespace Skill
open Matrix MeasureTheory ProbabilityTheory Spec
open scoped Topology

variable {n : ℕ} {X : Type} [TopologicalSpace X]

/-- A step of a state space model that depends continuously on parameters. -/
structure ContinuousStep (s : X → Step n) : Prop where
  h : Continuous (fun x => (s x).h)
  c : Continuous (fun x => (s x).c)
  sd : Continuous (fun x => (s x).sd)
  sd_ne : ∀ x, (s x).sd ≠ 0
  observed : ∃ b, ∀ x, (s x).observed = b
  transition : (∀ x, (s x).transition = none) ∨ ∃ (g : X → (Fin n → ℝ) → Fin n → ℝ) (q : X → Fin n → ℝ), (∀ x, (s x).transition = some (g x, q x)) ∧ Continuous q ∧
    ∀ a : X → Fin n → ℝ, Continuous a → Continuous (fun x => g x (a x))

theorem continuous_residualVariance {P : X → Matrix (Fin n) (Fin n) ℝ} {h : X → Fin n → ℝ} {sd : X → ℝ} (hP : Continuous P) (hh : Continuous h) (hsd : Continuous sd) :
    Continuous (fun x => residualVariance (P x) (h x) (sd x)) := by
  unfold residualVariance
  exact (hh.dotProduct (hP.matrix_mulVec hh)).add (hsd.pow 2)

theorem continuous_normalDensity_of {v r : X → ℝ} (hv : Continuous v) (hr : Continuous r) (hpos : ∀ x, 0 < v x) : Continuous (fun x => normalDensity (v x) (r x)) := by
  unfold normalDensity
  simp only [gaussianPDFReal, Real.coe_toNNReal', sub_zero]
  have hm0 : ∀ x, 0 < max (v x) 0 := fun x => (hpos x).trans_le (le_max_left _ _)
  have hm : ∀ x, max (v x) 0 ≠ 0 := fun x => (hm0 x).ne'
  have hc : Continuous (fun x => max (v x) 0) := hv.max continuous_const
  refine Continuous.mul (Continuous.inv₀ (Real.continuous_sqrt.comp (continuous_const.mul hc)) (fun x => ?_)) (Real.continuous_exp.comp ((hr.pow 2).neg.div (continuous_const.mul hc) (fun x => ?_)))
  · exact (Real.sqrt_pos.mpr (by have := hm0 x; positivity)).ne'
  · exact mul_ne_zero two_ne_zero (hm x)

section
variable {s : X → Step n} (hs : ContinuousStep s) {m : X → Fin n → ℝ} {P : X → Matrix (Fin n) (Fin n) ℝ} (hm : Continuous m) (hP : Continuous P) (hpsd : ∀ x, (P x).PosSemidef) (y : ℝ)
include hs hpsd

theorem ContinuousStep.variance_pos (x : X) : 0 < residualVariance (P x) (s x).h (s x).sd := residualVariance_pos (hpsd x) _ (hs.sd_ne x)

include hP

theorem ContinuousStep.updCov : Continuous (fun x => updCov (s x) (P x)) := by
  obtain ⟨b, hb⟩ := hs.observed
  unfold Skill.updCov
  simp only [hb]
  cases b with
  | false => exact hP
  | true =>
    simp only [if_true]
    unfold posteriorCov
    refine hP.sub (((continuous_residualVariance hP hs.h hs.sd).inv₀ (fun x => (hs.variance_pos hpsd x).ne')).smul ((hP.matrix_mul ?_).matrix_mul hP))
    exact continuous_matrix (fun i j => ((continuous_apply i).comp hs.h).mul ((continuous_apply j).comp hs.h))

include hm

omit hP hpsd in
theorem ContinuousStep.residual : Continuous (fun x => y - (m x ⬝ᵥ (s x).h + (s x).c)) := continuous_const.sub ((hm.dotProduct hs.h).add hs.c)

theorem ContinuousStep.updMean : Continuous (fun x => updMean (s x) (m x) (P x) y) := by
  obtain ⟨b, hb⟩ := hs.observed
  unfold Skill.updMean
  simp only [hb]
  cases b with
  | false => exact hm
  | true =>
    simp only [if_true]
    unfold posteriorMean
    exact hm.add (((hs.residual hm y).div (continuous_residualVariance hP hs.h hs.sd) (fun x => (hs.variance_pos hpsd x).ne')).smul (hP.matrix_mulVec hs.h))

theorem ContinuousStep.updDensity : Continuous (fun x => updDensity (s x) (m x) (P x) y) := by
  obtain ⟨b, hb⟩ := hs.observed
  unfold Skill.updDensity
  simp only [hb]
  cases b with
  | false => exact continuous_const
  | true =>
    simp only [if_true]
    exact continuous_normalDensity_of (continuous_residualVariance hP hs.h hs.sd) (hs.residual hm y) (hs.variance_pos hpsd)

end

theorem ContinuousStep.stepMean {s : X → Step n} (hs : ContinuousStep s) {m : X → Fin n → ℝ} (hm : Continuous m) : Continuous (fun x => stepMean (s x) (m x)) := by
  unfold Skill.stepMean
  rcases hs.transition with h | ⟨g, q, h, _, hg⟩
  · simp only [h]
    exact hm
  · simp only [h]
    exact hg m hm

theorem ContinuousStep.stepCov {s : X → Step n} (hs : ContinuousStep s) {P : X → Matrix (Fin n) (Fin n) ℝ} (hP : Continuous P) : Continuous (fun x => stepCov (s x) (P x)) := by
  unfold Skill.stepCov
  rcases hs.transition with h | ⟨g, q, h, hq, hg⟩
  · simp only [h]
    exact hP
  · simp only [h]
    have hl : Continuous (fun x => linPart (g x)) := by
      refine continuous_matrix (fun i j => ?_)
      exact ((continuous_apply i).comp (hg (fun _ => Pi.single j 1) continuous_const)).sub ((continuous_apply i).comp (hg (fun _ => 0) continuous_const))
    refine ((hl.matrix_mul hP).matrix_mul hl.matrix_transpose).add (Continuous.matrix_diagonal ?_)
    exact continuous_pi (fun f => ((continuous_apply f).comp hq).pow 2)

theorem kalmanDensity_nil {l : List (Step n)} (h : l = []) (m : Fin n → ℝ) (P : Matrix (Fin n) (Fin n) ℝ) (y) : kalmanDensity l m P y = 1 := by
  subst h
  rfl

theorem kalmanDensity_of_cons {l tl : List (Step n)} {s : Step n} (h : l = s :: tl) (m : Fin n → ℝ) (P : Matrix (Fin n) (Fin n) ℝ) (y : ℕ → ℝ) :
    kalmanDensity l m P (fun k => y k) = updDensity s m P (y 0) * kalmanDensity tl (stepMean s (updMean s m P (y 0))) (stepCov s (updCov s P)) (fun k => y (k + 1)) := by
  subst h
  rfl

theorem kalmanDensity_nonneg (steps : List (Step n)) : ∀ (m : Fin n → ℝ) (P : Matrix (Fin n) (Fin n) ℝ) (y), 0 ≤ kalmanDensity steps m P y := by
  induction steps with
  | nil => exact fun _ _ _ => zero_le_one
  | cons s ss ih =>
    intro m P y
    rw [kalmanDensity_cons]
    refine mul_nonneg ?_ (ih _ _ _)
    unfold updDensity
    split_ifs
    · exact gaussianPDFReal_nonneg _ _ _
    · exact zero_le_one

/-- The density is continuous in the parameters. -/
theorem kalmanDensity_parameters : ∀ (N : ℕ) {steps : X → List (Step n)}, (∀ x, (steps x).length = N) → (∀ j < N, ∃ s : X → Step n, (∀ x, (steps x)[j]? = some (s x)) ∧ ContinuousStep s) →
    ∀ {m : X → Fin n → ℝ} {P : X → Matrix (Fin n) (Fin n) ℝ}, Continuous m → Continuous P → (∀ x, (P x).PosSemidef) → ∀ y : ℕ → ℝ, Continuous (fun x => kalmanDensity (steps x) (m x) (P x) (fun k => y k)) := by
  intro N
  induction N with
  | zero =>
    intro steps hl _ m P _ _ _ y
    have : ∀ x, kalmanDensity (steps x) (m x) (P x) (fun k => y k) = 1 := fun x => kalmanDensity_nil (List.length_eq_zero_iff.mp (hl x)) _ _ _
    simp only [this]
    exact continuous_const
  | succ N ih =>
    intro steps hl hsteps m P hm hP hpsd y
    obtain ⟨s, hs, hcs⟩ := hsteps 0 (by omega)
    have hcons : ∀ x, steps x = s x :: (steps x).tail := by
      intro x
      have := hs x
      cases hx : steps x with
      | nil => rw [hx] at this; cases this
      | cons a l => rw [hx] at this; cases this; rfl
    have hrew : ∀ x, kalmanDensity (steps x) (m x) (P x) (fun k => y k) = Skill.updDensity (s x) (m x) (P x) (y 0) *
        kalmanDensity (steps x).tail (Skill.stepMean (s x) (Skill.updMean (s x) (m x) (P x) (y 0))) (Skill.stepCov (s x) (Skill.updCov (s x) (P x))) (fun k => y (k + 1)) := by
      intro x
      exact kalmanDensity_of_cons (hcons x) _ _ y
    simp only [hrew]
    refine (hcs.updDensity hm hP hpsd _).mul (ih (steps := fun x => (steps x).tail) (fun x => by rw [List.length_tail, hl]; omega) (fun j hj => ?_) (hcs.stepMean (hcs.updMean hm hP hpsd _)) (hcs.stepCov (hcs.updCov hP hpsd))
      (fun x => stepCov_posSemidef _ (updCov_posSemidef (hcs.sd_ne x) (hpsd x))) (fun k => y (k + 1)))
    obtain ⟨s', hs', h'⟩ := hsteps (j + 1) (by omega)
    refine ⟨s', fun x => ?_, h'⟩
    rw [List.getElem?_tail]
    exact hs' x

/-- A bound for the density that is continuous in the parameters. -/
theorem kalmanDensity_parameters_le : ∀ (N : ℕ) {steps : X → List (Step n)}, (∀ x, (steps x).length = N) → (∀ j < N, ∃ s : X → Step n, (∀ x, (steps x)[j]? = some (s x)) ∧ ContinuousStep s) →
    ∃ B : X → ℝ, Continuous B ∧ (∀ x, 0 ≤ B x) ∧ ∀ (x : X) (m : Fin n → ℝ) (P : Matrix (Fin n) (Fin n) ℝ), P.PosSemidef → ∀ y, kalmanDensity (steps x) m P y ≤ B x := by
  intro N
  induction N with
  | zero =>
    intro steps hl _
    refine ⟨fun _ => 1, continuous_const, fun _ => zero_le_one, fun x m P _ => ?_⟩
    rw [List.length_eq_zero_iff.mp (hl x)]
    exact fun _ => le_refl _
  | succ N ih =>
    intro steps hl hsteps
    obtain ⟨s, hs, hcs⟩ := hsteps 0 (by omega)
    obtain ⟨B, hB, hB0, hle⟩ := ih (steps := fun x => (steps x).tail) (fun x => by rw [List.length_tail, hl]; omega) (fun j hj => by
      obtain ⟨s', hs', h'⟩ := hsteps (j + 1) (by omega)
      refine ⟨s', fun x => ?_, h'⟩
      rw [List.getElem?_tail]
      exact hs' x)
    have hcons : ∀ x, steps x = s x :: (steps x).tail := by
      intro x
      have := hs x
      cases hx : steps x with
      | nil => rw [hx] at this; cases this
      | cons a l => rw [hx] at this; cases this; rfl
    refine ⟨fun x => max 1 (√(2 * Real.pi * (s x).sd ^ 2))⁻¹ * B x, ?_, fun x => mul_nonneg (zero_le_one.trans (le_max_left _ _)) (hB0 x), ?_⟩
    · refine (continuous_const.max (Continuous.inv₀ (Real.continuous_sqrt.comp (continuous_const.mul (hcs.sd.pow 2))) (fun x => ?_))).mul hB
      have hsd := hcs.sd_ne x
      have hroot : 0 < √(2 * Real.pi * (s x).sd ^ 2) := Real.sqrt_pos.mpr (by positivity)
      exact hroot.ne'
    · intro x m P hP
      have hx := hle x
      rw [hcons x]
      intro y
      rw [kalmanDensity_cons]
      have h1 : Skill.updDensity (s x) m P (y 0) ≤ max 1 (√(2 * Real.pi * (s x).sd ^ 2))⁻¹ := by
        unfold Skill.updDensity
        split_ifs
        · refine (normalDensity_le _ _).trans (le_trans ?_ (le_max_right _ _))
          have hsd := hcs.sd_ne x
          have hv := residualVariance_pos hP (s x).h hsd
          have hroot : 0 < √(2 * Real.pi * (s x).sd ^ 2) := Real.sqrt_pos.mpr (by positivity)
          refine inv_anti₀ hroot (Real.sqrt_le_sqrt ?_)
          rw [Real.coe_toNNReal _ hv.le]
          refine mul_le_mul_of_nonneg_left ?_ (by positivity)
          unfold residualVariance
          have := hP.dotProduct_mulVec_nonneg (s x).h
          simp only [star_trivial] at this
          linarith
        · exact le_max_left _ _
      refine mul_le_mul h1 (hx _ _ (stepCov_posSemidef _ (updCov_posSemidef (hcs.sd_ne x) hP)) _) (kalmanDensity_nonneg _ _ _ _) (zero_le_one.trans (le_max_left _ _))

section
variable {m : ModelDict ℝ} {k : ℕ} {pm : Processed ℝ}

theorem continuous_nextState (hna : m.anchoring = none) {v : X → Loc → ℝ} (hv : ∀ l, Continuous (fun x => v x l)) (cov : Covariates) (t : ℕ) {a : X → String → ℝ} (ha : ∀ f, Continuous (fun x => a x f)) (f : String) :
    Continuous (fun x => nextState m (v x) cov t (a x) f) := by
  have hout : ∀ f, outcome m f = none := fun f => by unfold outcome; rw [hna]; rfl
  have hval : ∀ x g, anchoredValue m (v x) t g (a x g) = a x g := fun x g => by
    unfold anchoredValue anchorConstant anchorScale
    rw [hout]
    ring
  unfold nextState
  simp only [anchorConstant, anchorScale, hout, hval, sub_zero, div_one]
  have hs : ∀ g, Continuous (fun x => if g ∈ latents m then a x g else cov.factor t g) := by
    intro g
    split_ifs
    · exact ha g
    · exact continuous_const
  unfold nextAnchored
  split_ifs
  · exact hs f
  · unfold linearValue linearTerms
    refine Continuous.add ?_ (hv _)
    exact continuous_list_sum _ (fun g _ => (hv _).mul (hs g))

/-- The steps of the state space model are continuous in the parameters. -/
theorem covSteps_continuous (hpm : processModel m = .ok pm) (hm : LinearModel m k) (hna : m.anchoring = none) (hg : GoodNames m) {nT : ℕ} (hT : pm.dimensions.nPeriods = nT + 2) (custom : String → CustomFn) (cov : Covariates)
    {v : X → Loc → ℝ} (hv : ∀ l, Continuous (fun x => v x l)) (hproper : ∀ x, ProperValues m k (v x)) :
    ∀ j < pm.updateInfo.length, ∃ s : X → Step (nLat m), (∀ x, (covSteps custom m pm (v x) nT cov)[j]? = some (s x)) ∧ ContinuousStep s := by
  intro j hj
  have hu := List.getElem?_eq_getElem hj
  have hrow : ∀ x, (pm.updateInfo.map (labelRow m (v x)))[j]? = some (labelRow m (v x) pm.updateInfo[j]) := fun x => by rw [List.getElem?_map, hu]; rfl
  have hget : ∀ x, (covSteps custom m pm (v x) nT cov)[j]? = some _ := fun x => by
    rw [covSteps, List.getElem?_map, covArgs, loopArgs_get (nT + 1) (hrow x) (y := fun _ => if cov.isObserved pm.updateInfo[j].period pm.updateInfo[j].var then some 0 else none) (by rw [covData, List.getElem?_map, hu]; rfl)]
    rfl
  refine ⟨_, hget, ?_⟩
  have hup : IsUpdate m pm.updateInfo[j].period pm.updateInfo[j].var := (C01_update_info_exact hpm).2.1 _ _ |>.mp ⟨_, List.getElem_mem hj, rfl, rfl⟩
  constructor
  · refine continuous_pi (fun f => ?_)
    show Continuous (fun x => if latName m f ∈ pm.updateInfo[j].trueCols then v x ⟨.loadings, pm.updateInfo[j].period, pm.updateInfo[j].var, latName m f⟩ else 0)
    split_ifs
    · exact hv _
    · exact continuous_const
  · show Continuous (fun x => ∑ c : Fin (nCon m), cov.control (jaxIndex (nT + 1) (if pm.updateInfo[j].period = nT + 1 then -1 else (pm.updateInfo[j].period : Int))) (conName m c) *
      v x ⟨.controls, pm.updateInfo[j].period, pm.updateInfo[j].var, conName m c⟩)
    exact continuous_finsetSum _ (fun c _ => continuous_const.mul (hv _))
  · exact hv _
  · exact fun x => (hproper x).sds _ _ hup
  · exact ⟨(if cov.isObserved pm.updateInfo[j].period pm.updateInfo[j].var then some (0 : ℝ) else none).isSome, fun x => rfl⟩
  · have hnext : ∀ x, ((pm.updateInfo.map (labelRow m (v x)))[j + 1]?).map (fun r => r.period) = (pm.updateInfo[j + 1]?).map (fun r => r.period) := fun x => by
      rw [List.getElem?_map, Option.map_map]
      rfl
    by_cases hp : (pm.updateInfo[j + 1]?).map (fun r => r.period) = some (pm.updateInfo[j].period + 1)
    · right
      obtain ⟨r, hr, hrp⟩ := Option.map_eq_some_iff.mp hp
      have hlt : pm.updateInfo[j].period ≤ nT := by
        have h := isUpdate_period ((C01_update_info_exact hpm).2.1 _ _ |>.mp ⟨r, List.mem_of_getElem? hr, rfl, rfl⟩)
        rw [isPeriod_iff hpm] at h
        omega
      refine ⟨fun x => unanchoredTransition (covFixed custom m pm (v x) nT cov) 0 pm.updateInfo[j].period, fun x => (covFixed custom m pm (v x) nT cov).shockSds (jaxIndex nT pm.updateInfo[j].period), fun x => ?_, ?_, fun a ha => ?_⟩
      · unfold stepOf
        have hper : (if (labelRow m (v x) pm.updateInfo[j]).period = nT + 1 then (-1 : Int) else ((labelRow m (v x) pm.updateInfo[j]).period : Int)) = pm.updateInfo[j].period := by
          exact if_neg (show ¬ pm.updateInfo[j].period = nT + 1 by omega)
        dsimp only
        rw [hper, hnext]
        exact if_pos (decide_eq_true hp)
      · exact continuous_pi (fun f => hv _)
      · refine continuous_pi (fun f => ?_)
        let nm : X → String → ℝ := fun x g => if h : ∃ f' : Fin (nLat m), latName m f' = g then a x h.choose else 0
        have hnm : ∀ x (f' : Fin (nLat m)), nm x (latName m f') = a x f' := by
          intro x f'
          have h : ∃ f'' : Fin (nLat m), latName m f'' = latName m f' := ⟨f', rfl⟩
          show (if h : ∃ f'' : Fin (nLat m), latName m f'' = latName m f' then a x h.choose else 0) = a x f'
          rw [dif_pos h]
          congr 1
          exact latName_injective hg h.choose_spec
        have hcn : ∀ g, Continuous (fun x => nm x g) := by
          intro g
          by_cases h : ∃ f' : Fin (nLat m), latName m f' = g
          · simp only [nm, dif_pos h]
            exact (continuous_apply _).comp ha
          · simp only [nm, dif_neg h]
            exact continuous_const
        have := fun x => unanchored_label hm hpm hg custom (v x) cov hlt (x := a x) (hnm x) f
        simp only [this]
        exact continuous_nextState hna hv cov _ hcn _
    · left
      intro x
      unfold stepOf
      dsimp only
      rw [hnext]
      exact if_neg (fun h => hp (of_decide_eq_true h))

/-- The density of the data of an individual is continuous in the parameters. -/
theorem valuesDensity_parameters (hpm : processModel m = .ok pm) (hm : LinearModel m k) (hna : m.anchoring = none) (hg : GoodNames m) {nT : ℕ} (hT : pm.dimensions.nPeriods = nT + 2) (custom : String → CustomFn) (cov : Covariates)
    {v : X → Loc → ℝ} (hv : ∀ l, Continuous (fun x => v x l)) (hproper : ∀ x, ProperValues m k (v x)) (y) : Continuous (fun x => valuesDensity custom m pm nT (v x) cov y) := by
  unfold valuesDensity covDensity
  refine continuous_finsetSum _ (fun e _ => (hv _).mul ?_)
  have hchol : Continuous (fun x => (labelCarry m (v x) 1 pm.dimensions.nMixtures).upperChols 0 e) := by
    refine continuous_matrix (fun a b => ?_)
    show Continuous (fun x => if a ≤ b then v x ⟨.initialCholcovs, 0, Skill.mixtureName e, latName m b ++ "-" ++ latName m a⟩ else 0)
    split_ifs
    · exact hv _
    · exact continuous_const
  have h := kalmanDensity_parameters pm.updateInfo.length (steps := fun x => covSteps custom m pm (v x) nT cov) (fun x => covSteps_length custom m pm (v x) nT cov) (covSteps_continuous hpm hm hna hg hT custom cov hv hproper)
    (m := fun x => (labelCarry m (v x) 1 pm.dimensions.nMixtures).states 0 e) (continuous_pi (fun f => hv _)) (hchol.matrix_transpose.matrix_mul hchol) (fun x => posSemidef_conjTranspose_mul_self _)
    (fun j => if h : j < (updateList pm).length then y ⟨j, h⟩ else 0)
  refine (continuous_congr (fun x => ?_)).mpr h
  congr 1
  funext j
  rw [dif_pos (j.isLt.trans_eq (updateList_length custom m pm (v x) nT cov))]
  rfl

/-- The density of the data of an individual is bounded, uniformly for parameters in a compact set. -/
theorem valuesDensity_bounded [CompactSpace X] (hpm : processModel m = .ok pm) (hm : LinearModel m k) (hna : m.anchoring = none) (hg : GoodNames m) {nT : ℕ} (hT : pm.dimensions.nPeriods = nT + 2) (custom : String → CustomFn) (cov : Covariates)
    {v : X → Loc → ℝ} (hv : ∀ l, Continuous (fun x => v x l)) (hproper : ∀ x, ProperValues m k (v x)) : ∃ D : ℝ, ∀ x y, valuesDensity custom m pm nT (v x) cov y ≤ D := by
  have hk : pm.dimensions.nMixtures = k := ((hasNMixtures_of_ok hpm k).mp hm.mixture).symm
  subst hk
  obtain ⟨B, hB, hB0, hle⟩ := kalmanDensity_parameters_le pm.updateInfo.length (steps := fun x => covSteps custom m pm (v x) nT cov) (fun x => covSteps_length custom m pm (v x) nT cov) (covSteps_continuous hpm hm hna hg hT custom cov hv hproper)
  obtain ⟨D, hD⟩ := (isCompact_range hB).bddAbove
  refine ⟨D, fun x y => ?_⟩
  unfold valuesDensity covDensity
  calc _ ≤ ∑ e : Fin pm.dimensions.nMixtures, v x ⟨.mixtureWeights, 0, Spec.mixtureName e, "-"⟩ * B x :=
        Finset.sum_le_sum (fun e _ => mul_le_mul_of_nonneg_left (hle x _ _ (posSemidef_conjTranspose_mul_self _) _) ((hproper x).positive e e.isLt).le)
    _ = B x := by rw [← Finset.sum_mul, (hproper x).sum, one_mul]
    _ ≤ D := hD ⟨x, rfl⟩

end

end Skill
