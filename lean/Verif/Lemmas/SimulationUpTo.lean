import Verif.Spec.SimulationInputs
import Verif.Props.SimulateDataset
/- Simulations with the same inputs up to some period. -/
namespace Skill
open Matrix Spec

/-- The next value of a factor depends only on the values of the factors. -/
theorem nextValue_factors {fs : List String} {x x' v : String → ℝ} {f : String} (hf : f ∈ fs) {fn : TransFn} (hu : TransFn.Usable fs v fn) (h : ∀ g ∈ fs, x g = x' g) :
    nextValue fs x v f fn = nextValue fs x' v f fn := by
  have hp : Dict.getItem [(f, (paramNamesOf fs fn).map v)] f = .ok ((paramNamesOf fs fn).map v) := by simp [Dict.getItem, Dict.get?]
  have e1 := nextFactor_eq x v hf hp hu
  have e2 := nextFactor_eq x' v hf hp hu
  rw [List.map_congr_left h] at e1
  exact Except.ok.inj (e1.symm.trans e2)

theorem policyEffect_upTo {policies policies' : List Policy} {draw draw' : Nat → ℝ} {T : Nat} (h : policiesUpTo T policies draw = policiesUpTo T policies' draw') {t : Nat} (ht : t ≤ T) (f : String) :
    policyEffect policies draw t f = policyEffect policies' draw' t f := by
  have key : ∀ (ps : List Policy) (d : Nat → ℝ), policyEffect ps d t f =
      (((policiesUpTo T ps d).filter (fun p => decide (p.1.period = t ∧ p.1.factor = f))).map (fun p => p.1.effectSize + p.1.standardDeviation * p.2)).sum := by
    intro ps d
    unfold policyEffect policiesUpTo
    rw [List.filter_map, List.map_map, List.filter_filter]
    congr 1
    have : ps.zipIdx.filter (fun p => decide (p.1.period = t ∧ p.1.factor = f)) =
        ps.zipIdx.filter (fun a => ((fun p : Policy × ℝ => decide (p.1.period = t ∧ p.1.factor = f)) ∘ fun p : Policy × ℕ => (p.1, d p.2)) a && decide (a.1.period ≤ T)) := by
      refine List.filter_congr (fun a _ => ?_)
      simp only [Function.comp_apply]
      by_cases h1 : a.1.period = t ∧ a.1.factor = f
      · rw [decide_eq_true h1, decide_eq_true (by rw [h1.1]; exact ht)]; rfl
      · rw [decide_eq_false h1]; rfl
    rw [this]
    rfl
  rw [key, key, h]

section
variable {custom : String → CustomFn} {m : ModelDict ℝ} {val val' : Loc → ℝ} {cov cov' : Covariates} {policies policies' : List Policy} {draws draws' : DatasetDraws} {i i' T : Nat}

theorem anchorScale_upTo (h : ∀ l, ParamUpTo T l → val l = val' l) {t : Nat} (ht : t ≤ T) (f : String) : anchorScale m val t f = anchorScale m val' t f := by
  unfold anchorScale
  cases outcome m f with
  | none => rfl
  | some o => exact h _ ⟨ht, by rintro (h | h) <;> cases h⟩

theorem anchorConstant_upTo (h : ∀ l, ParamUpTo T l → val l = val' l) {t : Nat} (ht : t ≤ T) (f : String) : anchorConstant m val t f = anchorConstant m val' t f := by
  unfold anchorConstant
  cases outcome m f with
  | none => rfl
  | some o =>
    dsimp only
    split_ifs
    · rfl
    · exact h _ ⟨ht, by rintro (h | h) <;> cases h⟩

theorem factorNext_upTo (hn : (latents m).Nodup) (h : SameInputsUpTo m T val cov policies draws i val' cov' policies' draws' i') {t : Nat} (ht : t < T)
    (hu : ∀ fs ∈ m.factors, TransFn.Usable (allFactors m) (fun name => val ⟨.transition, t, fs.1, name⟩) (transFnOf (custom fs.1) fs.2.transition)) {s s' : String → ℝ}
    (hs : ∀ f ∈ latents m, s f = s' f) {f : String} (hf : f ∈ latents m) : factorNext custom m val cov t s f = factorNext custom m val' cov' t s' f := by
  unfold factorNext
  rw [anchorScale_upTo h.params (show t + 1 ≤ T from ht), anchorConstant_upTo h.params (show t + 1 ≤ T from ht)]
  congr 2
  have hv : (fun name => val ⟨.transition, t, f, name⟩) = fun name => val' ⟨.transition, t, f, name⟩ := funext (fun name => h.params _ ⟨le_of_lt ht, fun _ => ht⟩)
  obtain ⟨⟨f0, spec⟩, hmem, rfl⟩ := List.mem_map.mp hf
  have htr : transitionOf custom m f0 = transFnOf (custom f0) spec.transition := by
    unfold transitionOf
    rw [lookup_of_mem hn hmem]
    rfl
  rw [← hv, htr]
  refine nextValue_factors (List.mem_append_left _ hf) (hu _ hmem) (fun g hg => ?_)
  split_ifs with hgl
  · unfold anchoredValue
    rw [anchorScale_upTo h.params (le_of_lt ht), anchorConstant_upTo h.params (le_of_lt ht), hs g hgl]
  · rcases List.mem_append.mp hg with hg | hg
    · exact absurd hg hgl
    · exact h.factors t ht g hg

theorem statesWith_upTo (hn : (latents m).Nodup) (h : SameInputsUpTo m T val cov policies draws i val' cov' policies' draws' i')
    (hu : ∀ t, IsPeriod m (t + 1) → ∀ fs ∈ m.factors, TransFn.Usable (allFactors m) (fun name => val ⟨.transition, t, fs.1, name⟩) (transFnOf (custom fs.1) fs.2.transition))
    {start start' : String → ℝ} {shock shock' : Nat → String → ℝ} {pol pol' : Nat → ℝ} (h1 : ∀ f ∈ latents m, start f = start' f)
    (h2 : ∀ t < T, IsPeriod m (t + 1) → ∀ f ∈ latents m, shock t f = shock' t f) (h3 : ∀ t ≤ T, ∀ f, policyEffect policies pol t f = policyEffect policies' pol' t f) {t : Nat} (hp : IsPeriod m t) (ht : t ≤ T)
    {f : String} (hf : f ∈ latents m) : statesWith custom m val cov policies start shock pol t f = statesWith custom m val' cov' policies' start' shock' pol' t f := by
  have he : ∀ t ≤ T, ∀ f, effectWith m policies pol t f = effectWith m policies' pol' t f := by
    intro t ht f
    unfold effectWith
    rw [h3 t ht]
  induction t generalizing f with
  | zero => simp only [statesWith, h1 f hf, he 0 ht]
  | succ t ih =>
    have ht' : IsPeriod m t := by
      obtain ⟨N, hN, hlt⟩ := hp
      exact ⟨N, hN, by omega⟩
    simp only [statesWith, he (t + 1) ht, h2 t (by omega) hp f hf]
    rw [factorNext_upTo hn h (by omega) (hu t hp) (fun g hg => ih ht' (by omega) hg) hf]

theorem measurementWith_upTo (h : SameInputsUpTo m T val cov policies draws i val' cov' policies' draws' i') {states states' : Nat → String → ℝ} {t : Nat} (ht : t ≤ T) (hs : ∀ f ∈ latents m, states t f = states' t f)
    (error : ℝ) (v : String) : measurementWith m val cov states error t v = measurementWith m val' cov' states' error t v := by
  have hl : ∀ c, c ≠ Cat.transition → c ≠ Cat.shockSds → ∀ a b, val ⟨c, t, a, b⟩ = val' ⟨c, t, a, b⟩ := fun c h1 h2 a b => h.params _ ⟨ht, by rintro (h | h) <;> contradiction⟩
  unfold measurementWith
  congr 2
  · congr 1
    refine List.map_congr_left (fun c hc => ?_)
    rw [hl .controls (by decide) (by decide), h.controls t ht c hc]
  · congr 1
    refine List.map_congr_left (fun f hf => ?_)
    rw [hl .loadings (by decide) (by decide), hs f hf]

end

/-! ### the random parts -/

/-- Measurement errors by name. -/
noncomputable def errorOf (root : NormalRoot) {n nC : ℕ} (R : List (UpdateParams n nC)) (z : Nat → ℝ) (v : String) : ℝ :=
  if h : (R.map (fun r => r.var)).idxOf v < R.length then (root R.length (diagonal (fun k => (R.get k).sd ^ 2)) *ᵥ (fun j => z j.val)) ⟨_, h⟩ else 0

/-- Shocks, and the deviations of the start values from their mean, by name. -/
noncomputable def shockOf (root : NormalRoot) (m : ModelDict ℝ) (S : Matrix (Fin (nLat m)) (Fin (nLat m)) ℝ) (z : Nat → ℝ) (f : String) : ℝ :=
  if h : (latents m).idxOf f < nLat m then (root (nLat m) S *ᵥ (fun j => z j.val)) ⟨_, h⟩ else 0

section
variable (root : NormalRoot) (m : ModelDict ℝ) {nObs nT nPol : ℕ} (fixed : ScanFixed nObs nT (nLat m) (nObsd m) (nCon m) (Dict (List ℝ))) (rows : List (UpdateParams (nLat m) (nCon m))) (U : Matrix (Fin (nLat m)) (Fin (nLat m)) ℝ)
  (z : Draw → ℝ)

theorem wError_eq {t : ℕ} (ht : t < nT + 2) (v : String) :
    wError m (blockMul (simRoot root fixed rows nPol U) (fun a => z (simDraw a))) t v = errorOf root (rowsOf rows t) (fun j => z (.error t j)) v := by
  unfold wError errorOf
  rw [dif_pos ht]
  rfl

theorem wShock_eq {t : ℕ} (ht : t < nT + 1) (f : String) :
    wShock m (blockMul (simRoot root fixed rows nPol U) (fun a => z (simDraw a))) t f = shockOf root m (diagonal (fun f => fixed.shockSds (jaxIndex nT t) f ^ 2)) (fun j => z (.shock t j)) f := by
  unfold wShock shockOf
  rw [dif_pos ht]
  rfl

theorem wStart_eq (f : String) : wStart m (blockMul (simRoot root fixed rows nPol U) (fun a => z (simDraw a))) f = shockOf root m (Uᵀ * U) (fun j => z (.start j)) f := rfl

theorem wPolicy_eq {k : ℕ} (hk : k < nPol) : wPolicy m (blockMul (simRoot root fixed rows nPol U) (fun a => z (simDraw a))) k = z (.policy k) := by
  unfold wPolicy
  rw [dif_pos hk]
  show ((1 : Matrix (Fin nPol) (Fin nPol) ℝ) *ᵥ fun j : Fin nPol => z (.policy j)) ⟨k, hk⟩ = _
  rw [one_mulVec]

end

end Skill
