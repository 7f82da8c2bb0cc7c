import Verif.Lemmas.FilterLaw
import Verif.Lemmas.SimulationPath
import Mathlib.Probability.Independence.Basic
/-
The data up to some step and the state at that step.
-/
namespace Skill
open Matrix MeasureTheory ProbabilityTheory Spec
variable {n : ℕ}

/-- A selection of different elements of an independent and identically distributed sequence. -/
theorem map_pi_select {ι κ X : Type} [Fintype ι] [Fintype κ] [MeasurableSpace X] (μ : Measure X) [IsProbabilityMeasure μ] {g : ι → κ} (hg : Function.Injective g) :
    (Measure.pi (fun _ : κ => μ)).map (fun d j => d (g j)) = Measure.pi (fun _ : ι => μ) := by
  have hi : iIndepFun (fun (j : κ) (d : κ → X) => d j) (Measure.pi (fun _ : κ => μ)) := iIndepFun_pi (X := fun _ => id) (fun _ => aemeasurable_id)
  have h := (iIndepFun_iff_map_fun_eq_pi_map (f := fun (a : ι) (d : κ → X) => d (g a)) (fun a => (measurable_pi_apply (g a)).aemeasurable)).mp (hi.precomp hg)
  rw [h]
  congr 1
  funext a
  exact (measurePreserving_eval _ (g a)).map_eq

/-- Positions of the first steps. -/
def prefixPos (steps : List (Step n)) (k : ℕ) (j : Fin (steps.take k).length) : Fin steps.length := ⟨j.val, lt_of_lt_of_le j.isLt (by simp)⟩

theorem prefixPos_injective (steps : List (Step n)) (k : ℕ) : Function.Injective (prefixPos steps k) := fun a b h => by
  have := congrArg (fun p : Fin steps.length => p.val) h
  exact Fin.ext this

theorem simulate_take (steps : List (Step n)) (k : ℕ) (x : Fin n → ℝ) (d : Fin steps.length → ℝ × (Fin n → ℝ)) (j : Fin (steps.take k).length) :
    simulate (steps.take k) x (fun j => d (prefixPos steps k j)) j = simulate steps x d (prefixPos steps k j) := by
  induction steps generalizing k x with
  | nil => exact (prefixPos [] k j).elim0
  | cons s ss ih =>
    cases k with
    | zero => exact j.elim0
    | succ k =>
      refine Fin.cases ?_ (fun j => ?_) (show Fin ((ss.take k).length + 1) from j)
      · rfl
      · exact ih k (s.next x (d (0 : Fin (ss.length + 1))).2) (fun k => d k.succ) j

theorem lastState_take (steps : List (Step n)) {k : ℕ} (hk : k < steps.length) (x : Fin n → ℝ) (d : Fin steps.length → ℝ × (Fin n → ℝ)) (η : ℕ → Fin n → ℝ) (hη : ∀ j : Fin steps.length, η j = (d j).2) :
    lastState (steps.take (k + 1)) x (fun j => d (prefixPos steps (k + 1) j)) = stateAt steps x η k := by
  induction steps generalizing k x η with
  | nil => simp at hk
  | cons s ss ih =>
    cases k with
    | zero => rfl
    | succ k =>
      cases ss with
      | nil => simp at hk
      | cons s' ss =>
        have h0 : η 0 = (d (0 : Fin (ss.length + 2))).2 := hη (0 : Fin (ss.length + 2))
        rw [stateAt_cons, h0]
        exact ih (by simpa using hk) (s.next x (d (0 : Fin (ss.length + 2))).2) (fun j => d j.succ) (fun j => η (j + 1)) (fun j => hη j.succ)

/-- The draws of shocks by position. -/
def shocksOf {K : ℕ} (d : Fin K → ℝ × (Fin n → ℝ)) (k : ℕ) : Fin n → ℝ := if h : k < K then (d ⟨k, h⟩).2 else 0

theorem lintegral_prefix {steps : List (Step n)} (hs : ∀ s ∈ steps, s.Affine) {k : ℕ} (hk : k < steps.length) (m : Fin n → ℝ) (U : Matrix (Fin n) (Fin n) ℝ)
    {F : (Fin (steps.take (k + 1)).length → ℝ) → (Fin n → ℝ) → ENNReal} (hF : Measurable (fun p : (Fin (steps.take (k + 1)).length → ℝ) × (Fin n → ℝ) => F p.1 p.2)) :
    ∫⁻ d, F (fun j => simulate steps (m + Uᵀ *ᵥ d.1) d.2 (prefixPos steps (k + 1) j)) (stateAt steps (m + Uᵀ *ᵥ d.1) (shocksOf d.2) k) ∂(stdNormal (Fin n)).prod (stdDraws steps.length n) =
      ∫⁻ z, ∫⁻ d, F (simulate (steps.take (k + 1)) (m + Uᵀ *ᵥ z) d) (lastState (steps.take (k + 1)) (m + Uᵀ *ᵥ z) d) ∂stdDraws (steps.take (k + 1)).length n ∂stdNormal (Fin n) := by
  have hpre : ∀ s ∈ steps.take (k + 1), s.Affine := fun s h => hs s (List.mem_of_mem_take h)
  set G : (Fin n → ℝ) × (Fin (steps.take (k + 1)).length → ℝ × (Fin n → ℝ)) → ENNReal := fun p =>
    F (simulate (steps.take (k + 1)) (m + Uᵀ *ᵥ p.1) p.2) (lastState (steps.take (k + 1)) (m + Uᵀ *ᵥ p.1) p.2) with hG
  have hGm : Measurable G := by
    have h1 : Measurable (fun p : (Fin n → ℝ) × (Fin (steps.take (k + 1)).length → ℝ × (Fin n → ℝ)) => (m + Uᵀ *ᵥ p.1, p.2)) :=
      ((measurable_affine m U).comp measurable_fst).prodMk measurable_snd
    exact hF.comp (((measurable_simulate hpre).comp h1).prodMk ((measurable_lastState hpre).comp h1))
  have e : ∀ d : (Fin n → ℝ) × (Fin steps.length → ℝ × (Fin n → ℝ)),
      F (fun j => simulate steps (m + Uᵀ *ᵥ d.1) d.2 (prefixPos steps (k + 1) j)) (stateAt steps (m + Uᵀ *ᵥ d.1) (shocksOf d.2) k) = G (d.1, fun j => d.2 (prefixPos steps (k + 1) j)) := by
    intro d
    rw [hG]
    dsimp only
    rw [lastState_take steps hk _ d.2 (shocksOf d.2) (fun j => by simp [shocksOf])]
    congr 1
    funext j
    exact (simulate_take steps (k + 1) _ d.2 j).symm
  have hsel : Measurable (fun d : Fin steps.length → ℝ × (Fin n → ℝ) => fun j => d (prefixPos steps (k + 1) j)) := measurable_pi_iff.mpr (fun j => measurable_pi_apply _)
  have hm1 : Measurable (fun d : (Fin n → ℝ) × (Fin steps.length → ℝ × (Fin n → ℝ)) => (d.1, fun j => d.2 (prefixPos steps (k + 1) j))) := measurable_fst.prodMk (hsel.comp measurable_snd)
  rw [lintegral_congr e, lintegral_prod (fun d : (Fin n → ℝ) × (Fin steps.length → ℝ × (Fin n → ℝ)) => G (d.1, fun j => d.2 (prefixPos steps (k + 1) j))) (hGm.comp hm1).aemeasurable]
  refine lintegral_congr (fun z => ?_)
  have hmap : (stdDraws steps.length n).map (fun d j => d (prefixPos steps (k + 1) j)) = stdDraws (steps.take (k + 1)).length n := map_pi_select _ (prefixPos_injective steps (k + 1))
  rw [← hmap, lintegral_map (f := fun d => F (simulate (steps.take (k + 1)) (m + Uᵀ *ᵥ z) d) (lastState (steps.take (k + 1)) (m + Uᵀ *ᵥ z) d)) (hGm.comp (measurable_const.prodMk measurable_id)) hsel]

end Skill
