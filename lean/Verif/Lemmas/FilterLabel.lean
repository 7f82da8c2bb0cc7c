import Verif.Lemmas.FilterNoise
import Verif.Lemmas.FilterContinuity
import Verif.Props.Pipeline
import Verif.Spec.FilteredStates
import Verif.Spec.Debug
/-
The conditional expectation of the latent factors in the model of the user.
-/
namespace Skill
open Matrix MeasureTheory ProbabilityTheory Spec

theorem integrable_path {nObs n nT nObserved nC : ℕ} {θ : Type} {fixed : ScanFixed nObs nT n nObserved nC θ} (h : AffineTransitions fixed) (i : Fin nObs) {Ω : Type} [MeasurableSpace Ω] {P : Measure Ω} [IsProbabilityMeasure P]
    {x : Ω → Fin n → ℝ} (hx : ∀ f, Integrable (fun ω => x ω f) P) {w : Ω → Nat → Fin n → ℝ} (hw : ∀ t f, Integrable (fun ω => w ω t f) P) (t : Nat) (f : Fin n) :
    Integrable (fun ω => pathStates fixed i (x ω) (w ω) t f) P := by
  induction t generalizing f with
  | zero => exact hx f
  | succ t ih =>
    obtain ⟨A, b, hA⟩ := h (jaxIndex nT t)
    obtain ⟨d, hd⟩ := unanchored_affine i t hA
    simp only [pathStates]
    refine Integrable.add ?_ (hw t f)
    simp only [hd, Pi.add_apply, mulVec, dotProduct]
    refine Integrable.add ?_ (integrable_const _)
    exact integrable_finsetSum _ (fun g _ => (ih g).const_mul _)

theorem integrable_labelStates {nObs nMix n nT nObserved nC : ℕ} {θ : Type} {fixed : ScanFixed nObs nT n nObserved nC θ} (hlin : AffineTransitions fixed) (rows : List (UpdateParams n nC)) (i : Fin nObs)
    (means : Fin nMix → Fin n → ℝ) (U : Fin nMix → Matrix (Fin n) (Fin n) ℝ) (t : ℕ) (f : Fin n) {Ω : Type} [MeasurableSpace Ω] {P : Measure Ω} [IsProbabilityMeasure P] {E : Ω → Fin nMix} (hE : Measurable E)
    {z : Ω → (Σ b : Block nT, Fin (blockSize nT rows b)) → ℝ} (hz : ∀ a, Integrable (fun ω => z ω a) P) : Integrable (fun ω => labelStates fixed rows i means U t (E ω, z ω) f) P := by
  have hb : ∀ e a, Integrable (fun ω => blockMul (diagBlocks fixed rows (U e)) (z ω) a) P := by
    intro e a
    unfold blockMul
    simp only [mulVec, dotProduct]
    exact integrable_finsetSum _ (fun j _ => (hz _).const_mul _)
  have h1 : ∀ e, Integrable (fun ω => labelStates fixed rows i means U t (e, z ω) f) P := by
    intro e
    unfold labelStates
    refine integrable_path hlin i (fun f => ?_) (fun t f => ?_) t f
    · exact Integrable.add (integrable_const (means e f)) (hb e _)
    · unfold shockNoise
      split_ifs
      · exact hb e _
      · exact integrable_const _
  have h2 : (fun ω => labelStates fixed rows i means U t (E ω, z ω) f) = fun ω => ∑ e, (E ⁻¹' {e}).indicator (fun ω => labelStates fixed rows i means U t (e, z ω) f) ω := by
    funext ω
    rw [Finset.sum_eq_single (E ω)]
    · rw [Set.indicator_of_mem (by simp)]
    · intro e _ he
      rw [Set.indicator_of_notMem (fun h => he h.symm)]
    · simp
  rw [h2]
  exact integrable_finsetSum _ (fun e _ => (h1 e).indicator (hE (measurableSet_singleton e)))

section
variable (custom : String → CustomFn) (m : ModelDict ℝ) (pm : Processed ℝ) (val : Loc → ℝ) (nT : ℕ) (cov : Covariates)

/-- Position of one of the first steps in the table of updates. -/
def takePos (k : ℕ) (j : Fin ((covSteps custom m pm val nT cov).take k).length) : Fin (pm.updateInfo.map (fun r => (r.period, r.var))).length :=
  ⟨j.val, by
    have h1 : j.val < (covSteps custom m pm val nT cov).length := (prefixPos _ _ j).isLt
    rw [covSteps_length] at h1
    simpa using h1⟩

/-- Weight and density of a mixture element. -/
noncomputable def covWeight (k : ℕ) (y : Fin (pm.updateInfo.map (fun r => (r.period, r.var))).length → ℝ) (e : Fin pm.dimensions.nMixtures) : ℝ :=
  val ⟨.mixtureWeights, 0, Spec.mixtureName e, "-"⟩ * kalmanDensity ((covSteps custom m pm val nT cov).take k) ((labelCarry m val 1 pm.dimensions.nMixtures).states 0 e)
    (((labelCarry m val 1 pm.dimensions.nMixtures).upperChols 0 e)ᵀ * (labelCarry m val 1 pm.dimensions.nMixtures).upperChols 0 e) (fun j => y (takePos custom m pm val nT cov k j))

/-- The expectation of the states at an update, given the data up to this update. -/
noncomputable def covMean (k : ℕ) (y : Fin (pm.updateInfo.map (fun r => (r.period, r.var))).length → ℝ) (f : Fin (nLat m)) : ℝ :=
  (∑ e, covWeight custom m pm val nT cov k y e * filterMean ((covSteps custom m pm val nT cov).take k) ((labelCarry m val 1 pm.dimensions.nMixtures).states 0 e)
    (((labelCarry m val 1 pm.dimensions.nMixtures).upperChols 0 e)ᵀ * (labelCarry m val 1 pm.dimensions.nMixtures).upperChols 0 e) (fun j => y (takePos custom m pm val nT cov k j)) f) /
  ∑ e, covWeight custom m pm val nT cov k y e

end

/-- The states. -/
theorem states_label {m : ModelDict ℝ} {k : ℕ} (hm : LinearModel m k) {pm : Processed ℝ} (hpm : processModel m = .ok pm) (hg : GoodNames m) (custom : String → CustomFn) (val : Loc → ℝ) {nT : ℕ} (cov : Covariates) {nMix : ℕ}
    (e : Fin nMix) (z : Noise → ℝ) {t : ℕ} (ht : t ≤ nT + 1) (f : Fin (nLat m)) :
    labelStates (covFixed custom m pm val nT cov) (pm.updateInfo.map (labelRow m val)) 0 ((labelCarry m val 1 nMix).states 0) ((labelCarry m val 1 nMix).upperChols 0) t
      (e, fun a => z (labelIndex m nT (pm.updateInfo.map (labelRow m val)) a)) f = latentStates m val cov e z t (latName m f) := by
  refine path_label hm hpm hg custom val cov (fun f => ?_) (fun t ht f => ?_) ht f
  · exact start_label m hg val 0 e z f
  · unfold shockNoise
    rw [dif_pos (by omega)]
    refine (mulVec_diagonal _ _ _).trans ?_
    unfold covFixed labelFixed
    simp only [jaxIndex_val ht]
    rfl

/-- The weighted average of the means of the mixture elements, given the data up to an update. -/
noncomputable def weightsMean (custom : String → CustomFn) (m : ModelDict ℝ) (pm : Processed ℝ) (val : Loc → ℝ) (nT : ℕ) (cov : Covariates) (w : Fin pm.dimensions.nMixtures → ℝ) (k : ℕ)
    (y : Fin (pm.updateInfo.map (fun r => (r.period, r.var))).length → ℝ) (f : Fin (nLat m)) : ℝ :=
  (∑ e, w e * kalmanDensity ((covSteps custom m pm val nT cov).take k) ((labelCarry m val 1 pm.dimensions.nMixtures).states 0 e)
      (((labelCarry m val 1 pm.dimensions.nMixtures).upperChols 0 e)ᵀ * (labelCarry m val 1 pm.dimensions.nMixtures).upperChols 0 e) (fun j => y (takePos custom m pm val nT cov k j)) *
    filterMean ((covSteps custom m pm val nT cov).take k) ((labelCarry m val 1 pm.dimensions.nMixtures).states 0 e)
      (((labelCarry m val 1 pm.dimensions.nMixtures).upperChols 0 e)ᵀ * (labelCarry m val 1 pm.dimensions.nMixtures).upperChols 0 e) (fun j => y (takePos custom m pm val nT cov k j)) f) /
  ∑ e, w e * kalmanDensity ((covSteps custom m pm val nT cov).take k) ((labelCarry m val 1 pm.dimensions.nMixtures).states 0 e)
      (((labelCarry m val 1 pm.dimensions.nMixtures).upperChols 0 e)ᵀ * (labelCarry m val 1 pm.dimensions.nMixtures).upperChols 0 e) (fun j => y (takePos custom m pm val nT cov k j))

section
variable {m : ModelDict ℝ} {k : ℕ} (hm : LinearModel m k) (hg : GoodNames m) {val : Loc → ℝ} (hv : ProperValues m k val) {pm : Processed ℝ} (hpm : processModel m = .ok pm) {nT : ℕ} (hT : pm.dimensions.nPeriods = nT + 2)
  (custom : String → CustomFn) (cov : Covariates)
include hm hg hv hpm

/-- The conditional expectation of the latent factors of a period, given the observed data, if nothing is observed after some update of this period. The mixture elements may have other probabilities than in the parameters. -/
theorem weights_condExp (hT : pm.dimensions.nPeriods = nT + 2) {t j : ℕ} (hj : ∃ r, pm.updateInfo[j]? = some r ∧ r.period = t)
    (hlater : ∀ a r, pm.updateInfo[a]? = some r → j < a → cov.isObserved r.period r.var = false) {Ω : Type} [MeasurableSpace Ω] {P : Measure Ω} [IsProbabilityMeasure P] {E : Ω → Fin pm.dimensions.nMixtures} {Z : Noise → Ω → ℝ}
    {val' : Loc → ℝ} (hZ : RandomNoise P val' E Z) (hw0 : ∀ e : Fin pm.dimensions.nMixtures, 0 ≤ val' ⟨.mixtureWeights, 0, Spec.mixtureName e, "-"⟩)
    (hw1 : ∃ e : Fin pm.dimensions.nMixtures, 0 < val' ⟨.mixtureWeights, 0, Spec.mixtureName e, "-"⟩) (f : Fin (nLat m)) :
    Integrable (fun ω => latentStates m val cov (E ω) (fun a => Z a ω) t (latName m f)) P ∧
    Measurable (fun ω => observedData (pm.updateInfo.map (fun r => (r.period, r.var))) cov (measurementValue m val cov (E ω) (fun a => Z a ω))) ∧
    P[fun ω => latentStates m val cov (E ω) (fun a => Z a ω) t (latName m f) |
      MeasurableSpace.comap (fun ω => observedData (pm.updateInfo.map (fun r => (r.period, r.var))) cov (measurementValue m val cov (E ω) (fun a => Z a ω))) inferInstance] =ᵐ[P]
    fun ω => weightsMean custom m pm val nT cov (fun e => val' ⟨.mixtureWeights, 0, Spec.mixtureName e, "-"⟩) (j + 1)
      (observedData (pm.updateInfo.map (fun r => (r.period, r.var))) cov (measurementValue m val cov (E ω) (fun a => Z a ω))) f := by
  have hlin : AffineTransitions (covFixed custom m pm val nT cov) := affine_label hm hpm hg custom val 1 nT _ _
  have hrows := goodRows_label hm hpm hT val
  have hK := covSteps_length custom m pm val nT cov
  set steps := covSteps custom m pm val nT cov with hsteps
  set updates := pm.updateInfo.map (fun r => (r.period, r.var)) with hup
  -- the rows of the steps
  let urow : Fin steps.length → URow := fun j => pm.updateInfo[j.val]'(by omega)
  have hu : ∀ j, pm.updateInfo[j.val]? = some (urow j) := fun j => List.getElem?_eq_getElem (by omega)
  let row : Fin steps.length → UpdateParams (nLat m) (nCon m) := fun j => labelRow m val (urow j)
  have hrow : ∀ j, (pm.updateInfo.map (labelRow m val))[j.val]? = some (row j) := fun j => by rw [List.getElem?_map, hu]; rfl
  have hp : ∀ j, (row j).period < nT + 2 := fun j => by have := hrows.range _ (List.mem_of_getElem? (hrow j)); omega
  have hpos : ∀ j, ∃ a, (rowsOf (pm.updateInfo.map (labelRow m val)) (row j).period).get a = row j := by
    intro j
    exact List.mem_iff_get.mp (List.mem_filter.mpr ⟨List.mem_of_getElem? (hrow j), by simp⟩)
  choose pos hpos using hpos
  have hget : ∀ (a : ℕ) (ha : a < updates.length), updates.get ⟨a, ha⟩ = ((urow ⟨a, by rw [hK]; simpa [hup] using ha⟩).period, (urow ⟨a, by rw [hK]; simpa [hup] using ha⟩).var) := by
    intro a ha
    rw [List.get_eq_getElem]
    exact List.getElem_map _
  let obs : Fin steps.length → Bool := fun j => cov.isObserved (urow j).period (urow j).var
  have hobs : ∀ j, ∃ y, (covData pm.updateInfo cov)[j.val]? = some y ∧ obs j = (y 0).isSome := by
    intro j
    refine ⟨_, by rw [covData, List.getElem?_map, hu]; rfl, ?_⟩
    show cov.isObserved (urow j).period (urow j).var = (if cov.isObserved (urow j).period (urow j).var = true then some (0 : ℝ) else none).isSome
    cases cov.isObserved (urow j).period (urow j).var <;> rfl
  have hjl : j < steps.length := by
    obtain ⟨r, hr, _⟩ := hj
    rw [hK]
    exact (List.getElem?_eq_some_iff.mp hr).1
  have hjt : (urow ⟨j, hjl⟩).period = t := by
    obtain ⟨r, hr, ht⟩ := hj
    rw [← ht, Option.some.inj ((hu ⟨j, hjl⟩).symm.trans hr)]
  obtain ⟨V, hV⟩ := noise_law_joint hlin hrows (data := covData pm.updateInfo cov) (by simp [covData]) 0 ((labelCarry m val 1 pm.dimensions.nMixtures).states 0) ((labelCarry m val 1 pm.dimensions.nMixtures).upperChols 0)
    hsteps row hrow hp pos hpos obs hobs (covSteps_sd hv hpm custom cov) hZ.measurable_element hZ.measurable hZ.normal hZ.independent hZ.element_independent
    (w := fun e => val' ⟨.mixtureWeights, 0, Spec.mixtureName e, "-"⟩) hZ.element_weights (labelIndex_injective hg hrows.unique) ⟨j, hjl⟩
  -- the states
  have hz : ∀ a, Integrable (Z a) P := fun a => by
    have hi : Integrable (fun x : ℝ => x) (P.map (Z a)) := by rw [hZ.normal]; exact (memLp_id_gaussianReal 1).integrable le_rfl
    exact hi.comp_measurable (hZ.measurable a)
  set idx := labelIndex m nT (pm.updateInfo.map (labelRow m val)) with hidx
  set means := (labelCarry m val 1 pm.dimensions.nMixtures).states 0 with hmeans
  set U := (labelCarry m val 1 pm.dimensions.nMixtures).upperChols 0 with hU
  have htT : t ≤ nT + 1 := by have : (urow ⟨j, hjl⟩).period < nT + 2 := hp ⟨j, hjl⟩; omega
  have hX : ∀ ω, latentStates m val cov (E ω) (fun a => Z a ω) t (latName m f) =
      labelStates (covFixed custom m pm val nT cov) (pm.updateInfo.map (labelRow m val)) 0 means U t (E ω, fun a => Z (idx a) ω) f := fun ω => (states_label hm hpm hg custom val cov (E ω) (fun a => Z a ω) htT f).symm
  have hzm : Measurable (fun ω => (E ω, fun a => Z (idx a) ω)) := hZ.measurable_element.prodMk (measurable_pi_iff.mpr (fun a => hZ.measurable _))
  have hXm : Measurable (fun ω => latentStates m val cov (E ω) (fun a => Z a ω) t (latName m f)) := by
    simp only [hX]
    exact (measurable_pi_apply f).comp ((measurable_labelStates hlin _ 0 means U t).comp hzm)
  have hXi : Integrable (fun ω => latentStates m val cov (E ω) (fun a => Z a ω) t (latName m f)) P := by
    simp only [hX]
    exact integrable_labelStates hlin _ 0 means U t f hZ.measurable_element (fun a => hz _)
  -- the data
  let D : Ω → Fin (steps.take (j + 1)).length → ℝ := fun ω a =>
    labelData (fixed := covFixed custom m pm val nT cov) row hp pos obs 0 means U (E ω, fun a => Z (idx a) ω) (prefixPos steps (j + 1) a)
  have hDm : Measurable D := measurable_pi_iff.mpr (fun a => (measurable_pi_apply _).comp ((measurable_labelData hlin row hp pos obs 0 means U).comp hzm))
  have hDv : ∀ ω a, D ω a = if cov.isObserved (urow (prefixPos steps (j + 1) a)).period (urow (prefixPos steps (j + 1) a)).var then
      measurementValue m val cov (E ω) (fun a => Z a ω) (urow (prefixPos steps (j + 1) a)).period (urow (prefixPos steps (j + 1) a)).var else 0 := by
    intro ω a
    exact data_label hm hpm hg custom val cov row urow (fun j => List.mem_of_getElem? (hu j)) (fun _ => rfl) hp pos hpos obs (fun _ => rfl) (E ω) (fun j => Z j ω) (prefixPos steps (j + 1) a)
  set D' : Ω → Fin updates.length → ℝ := fun ω => observedData updates cov (measurementValue m val cov (E ω) (fun a => Z a ω)) with hD'
  have hDD : ∀ ω a, D ω a = D' ω (takePos custom m pm val nT cov (j + 1) a) := by
    intro ω a
    have h2 : updates.get (takePos custom m pm val nT cov (j + 1) a) = ((urow (prefixPos steps (j + 1) a)).period, (urow (prefixPos steps (j + 1) a)).var) := hget a.val _
    rw [hDv, hD']
    dsimp only
    rw [observedData, h2]
  have hD'D : ∀ ω a, D' ω a = if h : a.val ≤ j then D ω ⟨a.val, by have := a.isLt; rw [List.length_take, hK]; simp [hup] at this; omega⟩ else 0 := by
    intro ω a
    split_ifs with h
    · rw [hDD]
      rfl
    · rw [hD']
      dsimp only
      have h1 := hlater a.val _ (hu ⟨a.val, by have := a.isLt; rw [hK]; simpa [hup] using this⟩) (by omega)
      rw [observedData, show updates.get a = _ from hget a.val a.isLt]
      dsimp only
      rw [h1]
      rfl
  have hD'm : Measurable D' := by
    refine measurable_pi_iff.mpr (fun a => ?_)
    simp only [hD'D]
    split_ifs with h
    · exact (measurable_pi_apply (⟨a.val, _⟩ : Fin (steps.take (j + 1)).length)).comp (f := D) hDm
    · exact measurable_const
  have hcomap : MeasurableSpace.comap D' inferInstance = MeasurableSpace.comap D inferInstance := by
    apply le_antisymm
    · rw [← measurable_iff_comap_le]
      refine @measurable_pi_iff _ _ _ (MeasurableSpace.comap D inferInstance) _ _ |>.mpr (fun a => ?_)
      simp only [hD'D]
      split_ifs with h
      · exact (measurable_pi_apply (⟨a.val, _⟩ : Fin (steps.take (j + 1)).length)).comp (f := D) (comap_measurable D)
      · exact measurable_const
    · rw [← measurable_iff_comap_le]
      refine @measurable_pi_iff _ _ _ (MeasurableSpace.comap D' inferInstance) _ _ |>.mpr (fun a => ?_)
      simp only [hDD]
      exact (measurable_pi_apply (takePos custom m pm val nT cov (j + 1) a)).comp (f := D') (comap_measurable D')
  refine ⟨hXi, hD'm, ?_⟩
  rw [hcomap]
  have hsum : ∀ y : Fin (steps.take (j + 1)).length → ℝ, 0 < ∑ e : Fin pm.dimensions.nMixtures, val' ⟨.mixtureWeights, 0, Spec.mixtureName e, "-"⟩ * kalmanDensity (steps.take (j + 1)) (means e) ((U e)ᵀ * U e) y := by
    intro y
    have hkd : ∀ e, 0 < kalmanDensity (steps.take (j + 1)) (means e) ((U e)ᵀ * U e) y :=
      fun e => kalmanDensity_pos (fun s hs => covSteps_sd hv hpm custom cov s (List.mem_of_mem_take hs)) _ (posSemidef_conjTranspose_mul_self _) _
    obtain ⟨e, he⟩ := hw1
    exact Finset.sum_pos' (fun e _ => mul_nonneg (hw0 e) (hkd e).le) ⟨e, Finset.mem_univ _, mul_pos he (hkd e)⟩
  have haff : ∀ s ∈ steps.take (j + 1), s.Affine := fun s hs => covSteps_affine hm hg hpm custom cov s (List.mem_of_mem_take hs)
  have hcond := condExp_mixture (P := P) (ι := Fin pm.dimensions.nMixtures) (D := D) hDm hXm hXi (w := fun e => val' ⟨.mixtureWeights, 0, Spec.mixtureName e, "-"⟩) hw0
    (base := baseMeasure (steps.take (j + 1))) (dens := fun e y => kalmanDensity (steps.take (j + 1)) (means e) ((U e)ᵀ * U e) y)
    (fun e => ((continuous_kalmanDensity haff _).comp (continuous_const.prodMk continuous_id)).measurable)
    (fun e y => (kalmanDensity_pos (fun s hs => covSteps_sd hv hpm custom cov s (List.mem_of_mem_take hs)) _ (posSemidef_conjTranspose_mul_self _) _).le) hsum
    (mean := fun e y => filterMean (steps.take (j + 1)) (means e) ((U e)ᵀ * U e) y f)
    (fun e => ((continuous_apply f).comp ((continuous_filterMean haff _).comp (continuous_const.prodMk continuous_id))).measurable) (L := fun e => (V e)ᵀ f) (by
      intro F hF
      have := hV (fun p => F (p.1, p.2 f)) (hF.comp (measurable_fst.prodMk ((measurable_pi_apply f).comp measurable_snd)))
      simp only [hX]
      have hper : (row ⟨j, hjl⟩).period = t := hjt
      rw [hper] at this
      exact this)
  refine hcond.trans (Filter.Eventually.of_forall (fun ω => ?_))
  have hDe : D ω = fun a => D' ω (takePos custom m pm val nT cov (j + 1) a) := funext (hDD ω)
  show (∑ e, val' _ * kalmanDensity (steps.take (j + 1)) (means e) ((U e)ᵀ * U e) (D ω) * filterMean (steps.take (j + 1)) (means e) ((U e)ᵀ * U e) (D ω) f) / _ = weightsMean custom m pm val nT cov _ (j + 1) (D' ω) f
  rw [hDe]
  rfl

end

section
variable {m : ModelDict ℝ} {k : ℕ} (hm : LinearModel m k) (hg : GoodNames m) {val : Loc → ℝ} (hv : ProperValues m k val) {pm : Processed ℝ} (hpm : processModel m = .ok pm) {nT : ℕ} (hT : pm.dimensions.nPeriods = nT + 2)
  (custom : String → CustomFn) (cov : Covariates)
include hm hg hv hpm

theorem covWeight_pos (j : ℕ) (y) (e : Fin pm.dimensions.nMixtures) : 0 < covWeight custom m pm val nT cov j y e := by
  have hk : pm.dimensions.nMixtures = k := ((hasNMixtures_of_ok hpm k).mp hm.mixture).symm
  refine mul_pos (hv.positive e (by have := e.isLt; omega)) (kalmanDensity_pos (fun s hs => covSteps_sd hv hpm custom cov s (List.mem_of_mem_take hs)) _ (posSemidef_conjTranspose_mul_self _) _)

theorem nonempty_mixtures : Nonempty (Fin pm.dimensions.nMixtures) := by
  have hk : pm.dimensions.nMixtures = k := ((hasNMixtures_of_ok hpm k).mp hm.mixture).symm
  by_contra hn
  rw [not_nonempty_iff] at hn
  subst hk
  have := hv.sum
  rw [Finset.univ_eq_empty, Finset.sum_empty] at this
  exact zero_ne_one this

theorem covWeight_sum_pos (j : ℕ) (y) : 0 < ∑ e, covWeight custom m pm val nT cov j y e := by
  have := nonempty_mixtures hm hg hv hpm
  exact Finset.sum_pos (fun e _ => covWeight_pos hm hg hv hpm custom cov j y e) Finset.univ_nonempty

theorem continuous_covWeight (j : ℕ) (e : Fin pm.dimensions.nMixtures) : Continuous (fun y => covWeight custom m pm val nT cov j y e) := by
  refine continuous_const.mul ?_
  exact (continuous_kalmanDensity (fun s hs => covSteps_affine hm hg hpm custom cov s (List.mem_of_mem_take hs)) _).comp
    (continuous_const.prodMk (continuous_pi (fun a => continuous_apply (takePos custom m pm val nT cov j a))))

theorem continuous_covMean (j : ℕ) : Continuous (covMean custom m pm val nT cov j) := by
  refine continuous_pi (fun f => ?_)
  unfold covMean
  refine Continuous.div ?_ ?_ (fun y => (covWeight_sum_pos hm hg hv hpm custom cov j y).ne')
  · refine continuous_finsetSum _ (fun e _ => (continuous_covWeight hm hg hv hpm custom cov j e).mul ?_)
    exact (continuous_apply f).comp ((continuous_filterMean (fun s hs => covSteps_affine hm hg hpm custom cov s (List.mem_of_mem_take hs)) _).comp
      (continuous_const.prodMk (continuous_pi (fun a => continuous_apply (takePos custom m pm val nT cov j a)))))
  · exact continuous_finsetSum _ (fun e _ => continuous_covWeight hm hg hv hpm custom cov j e)

/-- The conditional expectation of the latent factors of a period, given the observed data, if nothing is observed after some update of this period. -/
theorem label_condExp (hT : pm.dimensions.nPeriods = nT + 2) {t j : ℕ} (hj : ∃ r, pm.updateInfo[j]? = some r ∧ r.period = t)
    (hlater : ∀ a r, pm.updateInfo[a]? = some r → j < a → cov.isObserved r.period r.var = false) {Ω : Type} [MeasurableSpace Ω] {P : Measure Ω} [IsProbabilityMeasure P] {E : Ω → Fin k} {Z : Noise → Ω → ℝ}
    (hZ : RandomNoise P val E Z) (f : Fin (nLat m)) :
    Integrable (fun ω => latentStates m val cov (E ω) (fun a => Z a ω) t (latName m f)) P ∧
    Measurable (fun ω => observedData (pm.updateInfo.map (fun r => (r.period, r.var))) cov (measurementValue m val cov (E ω) (fun a => Z a ω))) ∧
    P[fun ω => latentStates m val cov (E ω) (fun a => Z a ω) t (latName m f) |
      MeasurableSpace.comap (fun ω => observedData (pm.updateInfo.map (fun r => (r.period, r.var))) cov (measurementValue m val cov (E ω) (fun a => Z a ω))) inferInstance] =ᵐ[P]
    fun ω => covMean custom m pm val nT cov (j + 1) (observedData (pm.updateInfo.map (fun r => (r.period, r.var))) cov (measurementValue m val cov (E ω) (fun a => Z a ω))) f := by
  have hk : pm.dimensions.nMixtures = k := ((hasNMixtures_of_ok hpm k).mp hm.mixture).symm
  subst hk
  exact weights_condExp hm hg hv hpm custom cov hT hj hlater hZ (fun e => (hv.positive e e.isLt).le) ⟨(nonempty_mixtures hm hg hv hpm).some, hv.positive _ (Fin.isLt _)⟩ f

end

end Skill
