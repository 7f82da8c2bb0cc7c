import Verif.Lemmas.SameLaw

/-! The joint distribution of the data and a latent factor does not depend on the order of the entries of a model dictionary (used for C107). -/

namespace Skill
open Matrix MeasureTheory ProbabilityTheory Spec

variable {m m' : ModelDict ℝ} {Ω : Type} [MeasurableSpace Ω] {P : Measure Ω} [IsProbabilityMeasure P] {k : ℕ} {val val' : Loc → ℝ} {E : Ω → Fin k} {Z : Noise → Ω → ℝ}

theorem statesFrom_later (m : ModelDict ℝ) (v : Loc → ℝ) (cov : Covariates) (s : String → ℝ) (z : Noise → ℝ) (t : ℕ) : statesFrom m v cov s (laterNoise z) t = statesFrom m v cov s z t := by
  induction t with
  | zero => rfl
  | succ t ih =>
    funext f
    unfold statesFrom
    rw [ih]
    rfl

/-- The joint distribution of the data and a latent factor given the mixture element, in terms of the distributions of initial factors and later random numbers. -/
theorem joint_prod (h : SameModel m m') (hg : GoodNames m) (hg' : GoodNames m') (hZ : RandomNoise P val E Z) {v v' : Loc → ℝ} (hv : Dynamic v v') (e' : ℕ) (cov : Covariates) (updates : List (Nat × String)) (t : ℕ) {f : String} (hf : f ∈ latents m) :
    P.map (fun ω => (observedData updates cov (measurementValue m' v' cov e' (fun j => Z j ω)), latentStates m' v' cov e' (fun j => Z j ω) t f)) =
      ((P.map (fun ω (i : Fin (nLat m)) => startState m' v' e' (fun j => Z j ω) (latName m i))).prod (P.map (fun ω => laterNoise (fun j => Z j ω)))).map
        (fun d => (observedData updates cov (measurementFrom m v cov (byLatent m d.1) d.2), statesFrom m v cov (byLatent m d.1) d.2 t f)) := by
  have hZm : Measurable (fun ω j => Z j ω) := measurable_pi_iff.mpr hZ.measurable
  have hR : Measurable (fun ω => laterNoise (fun j => Z j ω)) := measurable_laterNoise.comp hZm
  have hS : Measurable (fun ω (i : Fin (nLat m)) => startState m' v' e' (fun j => Z j ω) (latName m i)) :=
    measurable_pi_iff.mpr (fun i => (measurable_states m' v' cov e' 0 (latName m i)).comp hZm)
  have hφ : Measurable (fun (z : Fin (nLat m) → ℝ) (i : Fin (nLat m)) => v' ⟨.initialStates, 0, Spec.mixtureName e', latName m i⟩ + (cholMatrix m m' v' e' *ᵥ z) i) := by
    have hA : Measurable (fun z : Fin (nLat m) → ℝ => (cholMatrix m m' v' e')ᵀᵀ *ᵥ z) := (mulVecCLM (cholMatrix m m' v' e')ᵀ).continuous.measurable
    rw [transpose_transpose] at hA
    exact measurable_pi_iff.mpr (fun i => measurable_const.add ((measurable_pi_apply i).comp hA))
  have hind : IndepFun (fun ω (i : Fin (nLat m)) => startState m' v' e' (fun j => Z j ω) (latName m i)) (fun ω => laterNoise (fun j => Z j ω)) P := by
    rw [funext (fun ω => start_matrix h hg hg' v' e' (fun j => Z j ω))]
    exact (start_independent m hZ).comp hφ measurable_id
  rw [← (indepFun_iff_map_prod_eq_prod_map_map hS.aemeasurable hR.aemeasurable).mp hind,
    Measure.map_map ((measurable_observedFrom m v cov updates).prodMk (measurable_statesFrom m v cov t f)) (hS.prodMk hR)]
  congr 1
  funext ω
  have hstart : ∀ f ∈ latents m, startState m' v' e' (fun j => Z j ω) f = byLatent m (fun i => startState m' v' e' (fun j => Z j ω) (latName m i)) f := fun f hf => (byLatent_eq m (startState m' v' e' (fun j => Z j ω)) hf).symm
  simp only [Function.comp]
  congr 1
  · congr 1
    funext t w
    rw [measurement_eq]
    exact h.measurement hg hg' hv cov (z := laterNoise (fun j => Z j ω)) (z' := fun j => Z j ω) hstart (fun _ _ => rfl) (fun _ _ => rfl) t w
  · rw [states_eq, statesFrom_later]
    exact h.states hg hg' hv cov hstart (fun j => Z j ω) t f hf

/-- The data of an individual and a latent factor have the same joint distribution in both models. -/
theorem same_joint (h : SameModel m m') (hg : GoodNames m) (hg' : GoodNames m') {σ : Equiv.Perm (Fin k)} (hp : SameParameters m m' σ val val') (hZ : RandomNoise P val E Z) (cov : Covariates) (updates : List (Nat × String)) (t : ℕ)
    {f : String} (hf : f ∈ latents m) :
    P.map (fun ω => (observedData updates cov (measurementValue m' val' cov (σ (E ω)) (fun j => Z j ω)), latentStates m' val' cov (σ (E ω)) (fun j => Z j ω) t f)) =
      P.map (fun ω => (observedData updates cov (measurementValue m val cov (E ω) (fun j => Z j ω)), latentStates m val cov (E ω) (fun j => Z j ω) t f)) := by
  have hX : ∀ (m : ModelDict ℝ) (v : Loc → ℝ) (e : ℕ), Measurable (fun z : Noise → ℝ => (observedData updates cov (measurementValue m v cov e z), latentStates m v cov e z t f)) := by
    intro m v e
    exact ((measurable_observed (k := e + 1) m v cov updates).comp (measurable_const (a := Fin.last e) |>.prodMk measurable_id)).prodMk (measurable_states m v cov e t f)
  refine Measure.ext (fun A hA => ?_)
  rw [mixture_map hZ (X := fun e z => (observedData updates cov (measurementValue m' val' cov (σ e) z), latentStates m' val' cov (σ e) z t f)) (fun e => hX m' val' _) hA,
    mixture_map hZ (X := fun e z => (observedData updates cov (measurementValue m val cov e z), latentStates m val cov e z t f)) (fun e => hX m val _) hA]
  refine Finset.sum_congr rfl (fun e _ => ?_)
  rw [joint_prod h hg hg' hZ (fun l h1 h2 h3 => hp.others l h1 h2 h3) _ cov updates t hf, joint_prod (SameModel.refl m) hg hg hZ (fun _ _ _ _ => rfl : Dynamic val val) _ cov updates t hf, start_law h hg hg' hZ (hp.means e) (hp.covs e)]

end Skill
