import Verif.Lemmas.PipelineLaw2
/-
The data of an individual in the model of the user and in the state space model of the likelihood function.
-/
namespace Skill
open Matrix MeasureTheory ProbabilityTheory Spec

/-- The inputs of the likelihood function for one individual. -/
noncomputable def covFixed (custom : String → CustomFn) (m : ModelDict ℝ) (pm : Processed ℝ) (val : Loc → ℝ) (nT : ℕ) (cov : Covariates) :
    ScanFixed 1 nT (nLat m) (nObsd m) (nCon m) (Dict (List ℝ)) :=
  labelFixed custom m pm val 1 nT (fun t _ j => cov.control t (conName m j)) (fun t _ j => cov.factor t (obsName m j))

/-- The pattern of missing measurements. -/
def covData (u : List URow) (cov : Covariates) : List (Fin 1 → Option ℝ) := u.map (fun r _ => if cov.isObserved r.period r.var then some 0 else none)

theorem jaxIndex_val {k : ℕ} {t : ℕ} (h : t ≤ k) : (jaxIndex k (t : Int)).val = t := by
  unfold jaxIndex
  simp
  omega

section
variable {m : ModelDict ℝ} {k : ℕ} (hm : LinearModel m k) {pm : Processed ℝ} (hpm : processModel m = .ok pm) (hg : GoodNames m) (custom : String → CustomFn) (val : Loc → ℝ) {nT : ℕ} (cov : Covariates)
include hm hpm hg

theorem unanchored_label {t : ℕ} (ht : t ≤ nT) {x : Fin (nLat m) → ℝ} {s : String → ℝ} (hs : ∀ f : Fin (nLat m), s (latName m f) = x f) (f : Fin (nLat m)) :
    unanchoredTransition (covFixed custom m pm val nT cov) 0 t x f = nextState m val cov t s (latName m f) := by
  classical
  have h1 : (jaxIndex nT (t : Int)).val = t := jaxIndex_val ht
  have h2 : (jaxIndex (nT + 1) (t : Int)).val = t := jaxIndex_val (by omega)
  have h3 : (jaxIndex (nT + 1) ((t : Int) + 1)).val = t + 1 := by
    have := jaxIndex_val (k := nT + 1) (t := t + 1) (by omega)
    rwa [Nat.cast_add, Nat.cast_one] at this
  unfold unanchoredTransition covFixed labelFixed
  simp only [scalingOf_eq, constantOf_eq, h1, h2, h3, allName_castAdd]
  rw [linear_label hm hpm hg custom val t (x := fun g => if g ∈ latents m then anchoredValue m val t g (s g) else cov.factor t g)]
  · unfold nextState nextAnchored
    rfl
  · intro g
    refine Fin.addCases (fun a => ?_) (fun a => ?_) g
    · rw [allName_castAdd, if_pos (latName_mem a), Fin.append_left, hs]
      unfold anchoredValue
      ring
    · rw [allName_natAdd, if_neg (obsName_not_latent hg a), Fin.append_right, (anchor_observed hg hm.anchoring.1 val t a).1, (anchor_observed hg hm.anchoring.1 val t a).2]
      ring

theorem path_label {e : ℕ} {z : Noise → ℝ} {x : Fin (nLat m) → ℝ} (hx : ∀ f : Fin (nLat m), x f = startState m val e z (latName m f)) {w : ℕ → Fin (nLat m) → ℝ}
    (hw : ∀ t ≤ nT, ∀ f : Fin (nLat m), w t f = val ⟨.shockSds, t, latName m f, "-"⟩ * z (.shock t (latName m f))) {t : ℕ} (ht : t ≤ nT + 1) (f : Fin (nLat m)) :
    pathStates (covFixed custom m pm val nT cov) 0 x w t f = latentStates m val cov e z t (latName m f) := by
  induction t generalizing f with
  | zero => exact hx f
  | succ t ih =>
    rw [pathStates, latentStates]
    dsimp only
    rw [unanchored_label hm hpm hg custom val cov (by omega) (fun g => (ih (by omega) g).symm), hw t (by omega)]

end

/-- The start values. -/
theorem start_label (m : ModelDict ℝ) (hg : GoodNames m) (val : Loc → ℝ) {nObs nMix : ℕ} (i : Fin nObs) (e : Fin nMix) (z : Noise → ℝ) (f : Fin (nLat m)) :
    ((labelCarry m val nObs nMix).states i e + ((labelCarry m val nObs nMix).upperChols i e)ᵀ *ᵥ (fun g : Fin (nLat m) => z (.start (latName m g)))) f = startState m val e z (latName m f) := by
  unfold startState
  rw [Pi.add_apply]
  have hidx : (latents m).idxOf (latName m f) = f.val := nodup_get? hg.keys.factors (latName_get f)
  congr 1
  rw [hidx, latents_ofFn, sum_take]
  rw [mulVec, dotProduct]
  have hlen : (List.ofFn (fun f : Fin (nLat m) => latName m f)).length = nLat m := List.length_ofFn
  rw [← Equiv.sum_comp (finCongr hlen)]
  refine Finset.sum_congr rfl (fun a _ => ?_)
  rw [transpose_apply]
  simp only [labelCarry, of_apply]
  have e1 : (List.ofFn (fun f : Fin (nLat m) => latName m f)).get a = latName m (finCongr hlen a) := by
    rw [List.get_eq_getElem, List.getElem_ofFn]
    rfl
  rw [e1]
  by_cases h : a.val ≤ f.val
  · rw [if_pos h, if_pos (show finCongr hlen a ≤ f from h)]
    rfl
  · rw [if_neg h, if_neg (show ¬ finCongr hlen a ≤ f from h), zero_mul]

/-- The random numbers of the state space model by name. -/
def labelIndex (m : ModelDict ℝ) (nT : ℕ) (rows : List (UpdateParams (nLat m) (nCon m))) : (Σ b : Block nT, Fin (blockSize nT rows b)) → Noise
  | ⟨.inl _, f⟩ => .start (latName m (show Fin (nLat m) from f))
  | ⟨.inr (.inl t), f⟩ => .shock t (latName m (show Fin (nLat m) from f))
  | ⟨.inr (.inr t), j⟩ => .error t ((rowsOf rows t).get j).var

theorem labelIndex_injective {m : ModelDict ℝ} (hg : GoodNames m) {nT : ℕ} {rows : List (UpdateParams (nLat m) (nCon m))} (hu : (rows.map (fun r => (r.period, r.var))).Nodup) :
    Function.Injective (labelIndex m nT rows) := by
  rintro ⟨u | t | t, f⟩ ⟨u' | t' | t', f'⟩ h
  · injection h with h1
    cases u; cases u'
    exact congrArg _ (latName_injective hg h1)
  · cases h
  · cases h
  · cases h
  · injection h with h1 h2
    obtain rfl := Fin.ext h1
    exact congrArg _ (latName_injective hg h2)
  · cases h
  · cases h
  · cases h
  · injection h with h1 h2
    obtain rfl := Fin.ext h1
    have hn : ((rowsOf rows t).map (fun r => (r.period, r.var))).Nodup := hu.sublist (List.filter_sublist.map _)
    have hp : ∀ j, ((rowsOf rows t).get j).period = t := by
      intro j
      have := List.get_mem (rowsOf rows t) j
      simp only [rowsOf, List.mem_filter, beq_iff_eq] at this
      exact this.2
    have : f.val = f'.val := by
      refine (List.getElem?_inj (by rw [List.length_map]; exact f.isLt) hn).mp ?_
      rw [List.getElem?_map, List.getElem?_map, List.getElem?_eq_getElem f.isLt, List.getElem?_eq_getElem f'.isLt]
      simp only [Option.map_some, Option.some.injEq, Prod.mk.injEq]
      exact ⟨(hp f).trans (hp f').symm, h2⟩
    exact congrArg _ (Fin.ext this)

/-- The data. -/
theorem data_label {m : ModelDict ℝ} {k : ℕ} (hm : LinearModel m k) {pm : Processed ℝ} (hpm : processModel m = .ok pm) (hg : GoodNames m) (custom : String → CustomFn) (val : Loc → ℝ) {nT : ℕ}
    (cov : Covariates) {K : ℕ} (row : Fin K → UpdateParams (nLat m) (nCon m)) (urow : Fin K → URow) (hmem : ∀ k, urow k ∈ pm.updateInfo) (hrow : ∀ k, row k = labelRow m val (urow k)) (hp : ∀ k, (row k).period < nT + 2)
    (pos : (k : Fin K) → Fin (rowsOf (pm.updateInfo.map (labelRow m val)) (row k).period).length)
    (hpos : ∀ k, (rowsOf (pm.updateInfo.map (labelRow m val)) (row k).period).get (pos k) = row k) (obs : Fin K → Bool) (hobs : ∀ k, obs k = cov.isObserved (urow k).period (urow k).var)
    {nMix : ℕ} (e : Fin nMix) (z : Noise → ℝ) (j : Fin K) :
    labelData (fixed := covFixed custom m pm val nT cov) row hp pos obs 0 ((labelCarry m val 1 nMix).states 0) ((labelCarry m val 1 nMix).upperChols 0)
      (e, fun a => z (labelIndex m nT (pm.updateInfo.map (labelRow m val)) a)) j =
    if cov.isObserved (urow j).period (urow j).var then measurementValue m val cov e z (urow j).period (urow j).var else 0 := by
  classical
  unfold labelData noiseData
  rw [hobs]
  by_cases ho : cov.isObserved (urow j).period (urow j).var = true
  swap
  · rw [if_neg ho, if_neg ho]
  rw [if_pos ho, if_pos ho]
  obtain ⟨_, hup, _, htc, _⟩ := C01_update_info_exact hpm
  have hper : (row j).period = (urow j).period := by rw [hrow]; rfl
  unfold measurementValue
  -- the measurement error
  have herr : ∀ U : Matrix (Fin (nLat m)) (Fin (nLat m)) ℝ, blockMul (diagBlocks (covFixed custom m pm val nT cov) (pm.updateInfo.map (labelRow m val)) U)
      (fun a => z (labelIndex m nT (pm.updateInfo.map (labelRow m val)) a)) ⟨.inr (.inr ⟨(row j).period, hp j⟩), pos j⟩ = val ⟨.measSds, (urow j).period, (urow j).var, "-"⟩ * z (.error (urow j).period (urow j).var) := by
    intro U
    have : blockMul (diagBlocks (covFixed custom m pm val nT cov) (pm.updateInfo.map (labelRow m val)) U)
      (fun a => z (labelIndex m nT (pm.updateInfo.map (labelRow m val)) a)) ⟨.inr (.inr ⟨(row j).period, hp j⟩), pos j⟩ =
        ((rowsOf (pm.updateInfo.map (labelRow m val)) (row j).period).get (pos j)).sd * z (.error (row j).period ((rowsOf (pm.updateInfo.map (labelRow m val)) (row j).period).get (pos j)).var) := mulVec_diagonal _ _ _
    rw [this, hpos, hrow]
    rfl
  -- the states
  have hst : ∀ f : Fin (nLat m), pathStates (covFixed custom m pm val nT cov) 0
      ((labelCarry m val 1 nMix).states 0 e + fun f : Fin (nLat m) => blockMul (diagBlocks (covFixed custom m pm val nT cov) (pm.updateInfo.map (labelRow m val)) ((labelCarry m val 1 nMix).upperChols 0 e))
        (fun a => z (labelIndex m nT (pm.updateInfo.map (labelRow m val)) a)) ⟨.inl (), f⟩)
      (shockNoise (blockMul (diagBlocks (covFixed custom m pm val nT cov) (pm.updateInfo.map (labelRow m val)) ((labelCarry m val 1 nMix).upperChols 0 e))
        (fun a => z (labelIndex m nT (pm.updateInfo.map (labelRow m val)) a)))) (row j).period f = latentStates m val cov e z (urow j).period (latName m f) := by
    intro f
    rw [hper]
    refine path_label hm hpm hg custom val cov (fun f => ?_) (fun t ht f => ?_) (by have := hp j; omega) f
    · exact start_label m hg val 0 e z f
    · unfold shockNoise
      rw [dif_pos (by omega)]
      refine (mulVec_diagonal _ _ _).trans ?_
      unfold covFixed labelFixed
      simp only [jaxIndex_val ht]
      rfl
  rw [herr]
  congr 1
  rw [add_comm]
  congr 1
  · -- controls
    rw [controls_ofFn, List.map_ofFn, List.sum_ofFn, dotProduct]
    refine Finset.sum_congr rfl (fun c _ => ?_)
    rw [hper, mul_comm, hrow]
    unfold covFixed labelFixed labelRow
    simp only [jaxIndex_val (show (urow j).period ≤ nT + 1 by have := hp j; omega)]
    rfl
  · -- factors
    rw [latents_ofFn, List.map_ofFn, List.sum_ofFn, dotProduct]
    refine Finset.sum_congr rfl (fun f _ => ?_)
    rw [hst f, hrow]
    simp only [labelRow, Function.comp]
    have hiff : latName m f ∈ (urow j).trueCols ↔ Measures m (urow j).period (urow j).var (latName m f) ∨ Anchors m (urow j).var (latName m f) := htc _ (hmem j) _
    by_cases hM : latName m f ∈ (urow j).trueCols
    · rw [if_pos hM, if_pos (hiff.mp hM)]
    · rw [if_neg hM, if_neg (fun h => hM (hiff.mpr h)), zero_mul]

end Skill
