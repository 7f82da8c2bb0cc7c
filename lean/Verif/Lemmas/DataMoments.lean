import Verif.Spec.LabelModel
import Mathlib.Probability.Distributions.Gaussian.Real

/-! The measurements of an individual in a linear model have second moments. -/

namespace Skill
open MeasureTheory ProbabilityTheory Spec

variable {Ω : Type} [MeasurableSpace Ω] {P : Measure Ω}

theorem memLp_plus {f g : Ω → ℝ} (hf : MemLp f 2 P) (hg : MemLp g 2 P) : MemLp (fun ω => f ω + g ω) 2 P := hf.add hg

theorem memLp_times {f : Ω → ℝ} (c : ℝ) (hf : MemLp f 2 P) : MemLp (fun ω => c * f ω) 2 P := hf.const_mul c

theorem memLp_list {α : Type} (l : List α) {f : α → Ω → ℝ} (h : ∀ a ∈ l, MemLp (f a) 2 P) : MemLp (fun ω => (l.map (fun a => f a ω)).sum) 2 P := by
  induction l with
  | nil => exact MemLp.zero
  | cons a l ih =>
    simp only [List.map_cons, List.sum_cons]
    exact memLp_plus (h a (by simp)) (ih (fun b hb => h b (by simp [hb])))

variable [IsProbabilityMeasure P] {val : Loc → ℝ} {k : ℕ} {E : Ω → Fin k} {Z : Noise → Ω → ℝ}

theorem memLp_noise (hZ : RandomNoise P val E Z) (j : Noise) : MemLp (Z j) 2 P := by
  have h := memLp_id_gaussianReal' (μ := 0) (v := 1) 2 (by simp)
  rw [← hZ.normal j] at h
  exact (memLp_map_measure_iff aestronglyMeasurable_id (hZ.measurable j).aemeasurable).mp h

theorem memLp_start (hZ : RandomNoise P val E Z) (m : ModelDict ℝ) (v : Loc → ℝ) (e : ℕ) (f : String) : MemLp (fun ω => startState m v e (fun j => Z j ω) f) 2 P :=
  memLp_plus (memLp_const _) (memLp_list _ (fun g _ => memLp_times _ (memLp_noise hZ (.start g))))

theorem memLp_states (hZ : RandomNoise P val E Z) (m : ModelDict ℝ) (v : Loc → ℝ) (cov : Covariates) (e : ℕ) : ∀ (t : ℕ) (f : String), MemLp (fun ω => latentStates m v cov e (fun j => Z j ω) t f) 2 P
  | 0, f => memLp_start hZ m v e f
  | t + 1, f => by
    have ih := memLp_states hZ m v cov e t
    have hs : ∀ g, MemLp (fun ω => if g ∈ latents m then anchoredValue m v t g (latentStates m v cov e (fun j => Z j ω) t g) else cov.factor t g) 2 P := by
      intro g
      split_ifs
      · exact memLp_plus (memLp_const _) (memLp_times _ (ih g))
      · exact memLp_const _
    have hn : MemLp (fun ω => nextAnchored m v t (fun g => if g ∈ latents m then anchoredValue m v t g (latentStates m v cov e (fun j => Z j ω) t g) else cov.factor t g) f) 2 P := by
      unfold nextAnchored
      split_ifs
      · exact hs f
      · unfold linearValue
        exact memLp_plus (memLp_list _ (fun g _ => memLp_times _ (hs g))) (memLp_const _)
    have hd : MemLp (fun ω => nextState m v cov t (latentStates m v cov e (fun j => Z j ω) t) f) 2 P := by
      have h := memLp_times (anchorScale m v (t + 1) f)⁻¹ (memLp_plus hn (memLp_const (-anchorConstant m v (t + 1) f)))
      refine (memLp_congr_ae (Filter.Eventually.of_forall (fun ω => ?_))).mp h
      unfold nextState
      rw [div_eq_inv_mul, sub_eq_add_neg]
    exact memLp_plus hd (memLp_times _ (memLp_noise hZ (.shock t f)))

theorem memLp_measurement (hZ : RandomNoise P val E Z) (m : ModelDict ℝ) (v : Loc → ℝ) (cov : Covariates) (e : ℕ) (t : ℕ) (name : String) : MemLp (fun ω => measurementValue m v cov e (fun j => Z j ω) t name) 2 P := by
  unfold measurementValue
  refine memLp_plus (memLp_plus (memLp_const _) (memLp_list _ (fun f _ => ?_))) (memLp_times _ (memLp_noise hZ (.error t name)))
  split_ifs
  · exact memLp_times _ (memLp_states hZ m v cov e t f)
  · exact memLp_const _

/-- Choosing one of finitely many random variables. -/
theorem memLp_choice (hE : Measurable E) {f : Fin k → Ω → ℝ} (h : ∀ e, MemLp (f e) 2 P) : MemLp (fun ω => f (E ω) ω) 2 P := by
  have : (fun ω => f (E ω) ω) = fun ω => ∑ e, (E ⁻¹' {e}).indicator (f e) ω := by
    funext ω
    rw [Finset.sum_eq_single (E ω)]
    · rw [Set.indicator_of_mem (show ω ∈ E ⁻¹' {E ω} from rfl)]
    · intro e _ he
      exact Set.indicator_of_notMem (fun h => he h.symm) _
    · simp
  rw [this]
  exact memLp_finsetSum _ (fun e _ => (h e).indicator (hE (measurableSet_singleton e)))

theorem memLp_observed (hZ : RandomNoise P val E Z) (m : ModelDict ℝ) (v : Loc → ℝ) (cov : Covariates) (updates : List (Nat × String)) (j : Fin updates.length) :
    MemLp (fun ω => observedData updates cov (measurementValue m v cov (E ω) (fun j => Z j ω)) j) 2 P := by
  unfold observedData
  split_ifs
  · exact memLp_choice (f := fun e ω => measurementValue m v cov e (fun j => Z j ω) (updates.get j).1 (updates.get j).2) hZ.measurable_element (fun e => memLp_measurement hZ m v cov e _ _)
  · exact memLp_const _

/-! Measurability as functions of the random numbers. -/

theorem measurable_list {α β : Type} [MeasurableSpace β] (l : List α) {f : α → β → ℝ} (h : ∀ a ∈ l, Measurable (f a)) : Measurable (fun b => (l.map (fun a => f a b)).sum) := by
  induction l with
  | nil => exact measurable_const
  | cons a l ih =>
    simp only [List.map_cons, List.sum_cons]
    exact (h a (by simp)).add (ih (fun b hb => h b (by simp [hb])))

theorem measurable_states (m : ModelDict ℝ) (v : Loc → ℝ) (cov : Covariates) (e : ℕ) : ∀ (t : ℕ) (f : String), Measurable (fun z : Noise → ℝ => latentStates m v cov e z t f)
  | 0, f => measurable_const.add (measurable_list _ (fun g _ => (measurable_pi_apply (Noise.start g)).const_mul _))
  | t + 1, f => by
    have ih := measurable_states m v cov e t
    have hs : ∀ g, Measurable (fun z : Noise → ℝ => if g ∈ latents m then anchoredValue m v t g (latentStates m v cov e z t g) else cov.factor t g) := by
      intro g
      split_ifs
      · exact measurable_const.add ((ih g).const_mul _)
      · exact measurable_const
    have hn : Measurable (fun z : Noise → ℝ => nextAnchored m v t (fun g => if g ∈ latents m then anchoredValue m v t g (latentStates m v cov e z t g) else cov.factor t g) f) := by
      unfold nextAnchored
      split_ifs
      · exact hs f
      · unfold linearValue
        exact (measurable_list _ (fun g _ => (hs g).const_mul _)).add measurable_const
    have hd : Measurable (fun z : Noise → ℝ => nextState m v cov t (latentStates m v cov e z t) f) := (hn.sub measurable_const).div_const _
    exact hd.add ((measurable_pi_apply (Noise.shock t f)).const_mul _)

theorem measurable_measurement (m : ModelDict ℝ) (v : Loc → ℝ) (cov : Covariates) (e : ℕ) (t : ℕ) (name : String) : Measurable (fun z : Noise → ℝ => measurementValue m v cov e z t name) := by
  unfold measurementValue
  refine (measurable_const.add (measurable_list _ (fun f _ => ?_))).add ((measurable_pi_apply (Noise.error t name)).const_mul _)
  split_ifs
  · exact (measurable_states m v cov e t f).const_mul _
  · exact measurable_const

theorem measurable_observed (m : ModelDict ℝ) (v : Loc → ℝ) (cov : Covariates) (updates : List (Nat × String)) :
    Measurable (fun d : Fin k × (Noise → ℝ) => observedData updates cov (measurementValue m v cov d.1 d.2)) := by
  refine measurable_from_prod_countable_right (fun e => measurable_pi_iff.mpr (fun j => ?_))
  unfold observedData
  split_ifs
  · exact measurable_measurement m v cov e _ _
  · exact measurable_const

end Skill
