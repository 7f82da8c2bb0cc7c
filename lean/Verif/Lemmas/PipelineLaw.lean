import Verif.Lemmas.Pipeline
import Verif.Props.SimulationLaw
import Verif.Props.TransitionFunctions
/-
The statistical model of the user (Spec/LabelModel.lean) and the one that belongs to the arrays of the likelihood function.
-/
namespace Skill
open Matrix MeasureTheory ProbabilityTheory Spec

/-! ### densities -/

section
variable {n : ℕ}

/-- Steps that have the same density. -/
def SameStep (s s' : Step n) : Prop := s.observed = s'.observed ∧ s.transition = s'.transition ∧ (s.observed = true → s.h = s'.h ∧ s.c = s'.c ∧ s.sd = s'.sd)

theorem kalmanDensity_congr {steps steps' : List (Step n)} (h : List.Forall₂ SameStep steps steps') (m : Fin n → ℝ) (P : Matrix (Fin n) (Fin n) ℝ) {y : Fin steps.length → ℝ} {y' : Fin steps'.length → ℝ}
    (hy : ∀ (k : ℕ) (h : k < steps.length) (h' : k < steps'.length), y ⟨k, h⟩ = y' ⟨k, h'⟩) : kalmanDensity steps m P y = kalmanDensity steps' m P y' := by
  induction h generalizing m P with
  | nil => rfl
  | @cons s s' ss ss' hs hss ih =>
    obtain ⟨h1, h2, h3⟩ := hs
    have hy0 : y (0 : Fin (ss.length + 1)) = y' (0 : Fin (ss'.length + 1)) := hy 0 (Nat.succ_pos _) (Nat.succ_pos _)
    have hys : ∀ (k : ℕ) (h : k < ss.length) (h' : k < ss'.length), (fun k : Fin ss.length => y k.succ) ⟨k, h⟩ = (fun k : Fin ss'.length => y' k.succ) ⟨k, h'⟩ :=
      fun k h h' => hy (k + 1) (Nat.succ_lt_succ h) (Nat.succ_lt_succ h')
    rw [kalmanDensity, kalmanDensity]
    have hm : ∀ a, stepMean s a = stepMean s' a := fun a => by unfold stepMean; rw [h2]
    have hc : ∀ a, stepCov s a = stepCov s' a := fun a => by unfold stepCov; rw [h2]
    rw [hm, hc, ih _ _ (y' := fun k : Fin ss'.length => y' k.succ) hys, ← h1, hy0]
    cases ho : s.observed with
    | false => rfl
    | true =>
      obtain ⟨e1, e2, e3⟩ := h3 ho
      simp only [if_true, e1, e2, e3]

end

/-- Measures on spaces of functions on `Fin a` and `Fin b` with a = b. -/
theorem transport_density {a b : ℕ} (h : a = b) {Ω : Type} [MeasurableSpace Ω] {P : Measure Ω} {X : Ω → Fin b → ℝ} {μ : Fin b → Measure ℝ} {d : (Fin a → ℝ) → ENNReal}
    (hd : P.map (fun ω (k : Fin a) => X ω (Fin.cast h k)) = (Measure.pi (fun k : Fin a => μ (Fin.cast h k))).withDensity d) :
    P.map X = (Measure.pi μ).withDensity (fun y => d (fun k => y (Fin.cast h k))) := by
  subst h
  exact hd

/-! ### the law of the data -/

section
variable {nObs nMix n nT nObserved nC : ℕ} {θ : Type}

/-- The data as a function of the mixture element and the standard normal draws. -/
noncomputable def labelData {fixed : ScanFixed nObs nT n nObserved nC θ} {rows : List (UpdateParams n nC)} {K : ℕ} (row : Fin K → UpdateParams n nC) (hp : ∀ k, (row k).period < nT + 2)
    (pos : (k : Fin K) → Fin (rowsOf rows (row k).period).length) (obs : Fin K → Bool) (i : Fin nObs) (means : Fin nMix → Fin n → ℝ) (upperChols : Fin nMix → Matrix (Fin n) (Fin n) ℝ)
    (x : Fin nMix × ((Σ b : Block nT, Fin (blockSize nT rows b)) → ℝ)) : Fin K → ℝ :=
  noiseData row hp pos obs fixed i (means x.1) (blockMul (diagBlocks fixed rows (upperChols x.1)) x.2)

/-- The law of the state space model when the draws come from a family of independent standard normal numbers. -/
theorem noise_law {fixed : ScanFixed nObs nT n nObserved nC θ} (hlin : AffineTransitions fixed) {rows : List (UpdateParams n nC)} (hrows : GoodRows nT rows) {data : List (Fin nObs → Option ℝ)}
    (hd : data.length = rows.length) (i : Fin nObs) (means : Fin nMix → Fin n → ℝ) (U : Fin nMix → Matrix (Fin n) (Fin n) ℝ) {steps : List (Step n)} (hsteps : steps = (loopArgs (nT + 1) rows data).map (stepOf fixed i))
    (row : Fin steps.length → UpdateParams n nC) (hrow : ∀ k, rows[k.val]? = some (row k)) (hp : ∀ k, (row k).period < nT + 2)
    (pos : (k : Fin steps.length) → Fin (rowsOf rows (row k).period).length) (hpos : ∀ k, (rowsOf rows (row k).period).get (pos k) = row k)
    (obs : Fin steps.length → Bool) (hobs : ∀ k, ∃ y, data[k.val]? = some y ∧ obs k = (y i).isSome)
    {Ω : Type} [MeasurableSpace Ω] {P : Measure Ω} [IsProbabilityMeasure P] {J : Type} {E : Ω → Fin nMix} {Z : J → Ω → ℝ} (hE : Measurable E) (hZ : ∀ j, Measurable (Z j)) (hZn : ∀ j, P.map (Z j) = gaussianReal 0 1)
    (hZi : iIndepFun Z P) (hEZ : IndepFun E (fun ω j => Z j ω) P) {w : Fin nMix → ℝ} (hw : ∀ e, P (E ⁻¹' {e}) = ENNReal.ofReal (w e))
    {index : (Σ b : Block nT, Fin (blockSize nT rows b)) → J} (hindex : Function.Injective index) :
    P.map (fun ω => labelData (fixed := fixed) row hp pos obs i means U (E ω, fun a => Z (index a) ω)) = ∑ e, ENNReal.ofReal (w e) • dataLaw (means e) (U e) steps := by
  have hn : ∀ e, Measurable (noiseData row hp pos obs fixed i (means e)) := fun e => measurable_noiseData row hp pos obs hlin i _
  have hΦ : Measurable (labelData (fixed := fixed) row hp pos obs i means U) := by
    refine measurable_from_prod_countable_right (fun e => ?_)
    exact (hn e).comp (measurable_blockMul (diagBlocks fixed rows (U e)))
  have hz : Measurable (fun ω (a : Σ b : Block nT, Fin (blockSize nT rows b)) => Z (index a) ω) := measurable_pi_iff.mpr (fun a => hZ _)
  have hjoint : P.map (fun ω => (E ω, fun a : (Σ b : Block nT, Fin (blockSize nT rows b)) => Z (index a) ω)) = (P.map E).prod (stdNormal (Σ b : Block nT, Fin (blockSize nT rows b))) := by
    have hind : IndepFun E (fun ω (a : Σ b : Block nT, Fin (blockSize nT rows b)) => Z (index a) ω) P :=
      hEZ.comp (φ := id) (ψ := fun (z : J → ℝ) a => z (index a)) measurable_id (measurable_pi_iff.mpr (fun a => measurable_pi_apply _))
    rw [(indepFun_iff_map_prod_eq_prod_map_map hE.aemeasurable hz.aemeasurable).mp hind]
    congr 1
    exact map_select hZ hZn hZi hindex
  have hcomp : P.map (fun ω => labelData (fixed := fixed) row hp pos obs i means U (E ω, fun a => Z (index a) ω)) =
      ((P.map E).prod (stdNormal (Σ b : Block nT, Fin (blockSize nT rows b)))).map (labelData (fixed := fixed) row hp pos obs i means U) := by
    rw [← hjoint, Measure.map_map hΦ (hE.prodMk hz)]
    rfl
  rw [hcomp]
  refine Measure.ext_of_lintegral _ (fun F hF => ?_)
  have : IsProbabilityMeasure (P.map E) := Measure.isProbabilityMeasure_map hE.aemeasurable
  rw [lintegral_map hF hΦ, lintegral_prod _ (show Measurable (fun a => F (labelData (fixed := fixed) row hp pos obs i means U a)) from hF.comp hΦ).aemeasurable, lintegral_fintype, lintegral_finsetSum_measure]
  refine Finset.sum_congr rfl (fun e _ => ?_)
  rw [lintegral_smul_measure, smul_eq_mul, mul_comm, Measure.map_apply hE (measurableSet_singleton e), hw]
  congr 1
  rw [dataLaw_noise hlin hrows hd i _ _ hsteps row hrow hp pos hpos obs hobs,
    lintegral_map hF (hn e), lintegral_map (show Measurable (fun a => F (noiseData row hp pos obs fixed i (means e) a)) from hF.comp (hn e)) (measurable_blockMul _)]
  rfl

end

/-! ### lists of names -/

theorem latents_ofFn (m : ModelDict ℝ) : latents m = List.ofFn (fun f : Fin (nLat m) => latName m f) := by
  refine List.ext_getElem (by simp [latents]) (fun k k1 k2 => ?_)
  have hk : k < nLat m := by simpa [latents] using k1
  rw [List.getElem_ofFn]
  exact Option.some.inj ((List.getElem?_eq_getElem _).symm.trans (latName_get ⟨k, hk⟩))

theorem allFactors_ofFn (m : ModelDict ℝ) : allFactors m = List.ofFn (fun f : Fin (nLat m + nObsd m) => allName m f) := by
  refine List.ext_getElem (by simp [allFactors]) (fun k k1 k2 => ?_)
  have hk : k < nLat m + nObsd m := by simpa [allFactors] using k1
  rw [List.getElem_ofFn]
  exact Option.some.inj ((List.getElem?_eq_getElem _).symm.trans (allName_get ⟨k, hk⟩))

theorem controls_ofFn (m : ModelDict ℝ) : "constant" :: m.controls.getD [] = List.ofFn (fun f : Fin (nCon m) => conName m f) := by
  refine List.ext_getElem (by simp) (fun k k1 k2 => ?_)
  have hk : k < nCon m := by simpa using k1
  rw [List.getElem_ofFn]
  exact Option.some.inj ((List.getElem?_eq_getElem _).symm.trans (conName_get ⟨k, hk⟩))

theorem latName_injective {m : ModelDict ℝ} (hg : GoodNames m) {f g : Fin (nLat m)} (h : latName m f = latName m g) : f = g := by
  have h1 := latName_get f
  rw [h, ← latName_get g] at h1
  exact Fin.ext ((List.getElem?_inj (by simp) hg.keys.factors).mp h1)

theorem allName_castAdd (m : ModelDict ℝ) (f : Fin (nLat m)) : allName m (Fin.castAdd (nObsd m) f) = latName m f := by
  have h1 := allName_get (Fin.castAdd (nObsd m) f)
  rw [allFactors, List.getElem?_append_left (by simp), Fin.val_castAdd, latName_get] at h1
  exact (Option.some.inj h1).symm

/-- Names of observed factors by position. -/
abbrev obsName (m : ModelDict ℝ) (j : ℕ) : String := (m.observedFactors.getD []).getD j ""

theorem obsName_get {m : ModelDict ℝ} (j : Fin (nObsd m)) : (m.observedFactors.getD [])[j.val]? = some (obsName m j) := by
  rw [obsName, List.getD_eq_getElem?_getD, List.getElem?_eq_getElem (by simp), Option.getD_some]

theorem allName_natAdd (m : ModelDict ℝ) (f : Fin (nObsd m)) : allName m (Fin.natAdd (nLat m) f) = obsName m f := by
  have h1 := allName_get (Fin.natAdd (nLat m) f)
  rw [allFactors, List.getElem?_append_right (by simp), Fin.val_natAdd, List.length_map, Nat.add_sub_cancel_left, obsName_get] at h1
  exact (Option.some.inj h1).symm

theorem latName_mem {m : ModelDict ℝ} (f : Fin (nLat m)) : latName m f ∈ latents m := List.mem_of_getElem? (latName_get f)

theorem obsName_not_latent {m : ModelDict ℝ} (hg : GoodNames m) (f : Fin (nObsd m)) : obsName m f ∉ latents m := by
  intro h
  exact List.disjoint_of_nodup_append hg.distinct h (List.mem_of_getElem? (obsName_get f))

/-- A sum over the names up to a given one. -/
theorem sum_take {β : Type} (l : List β) (g : β → ℝ) (k : ℕ) : ((l.take (k + 1)).map g).sum = ∑ a : Fin l.length, if a.val ≤ k then g (l.get a) else 0 := by
  induction l generalizing k with
  | nil => simp
  | cons x l ih =>
    rw [List.take_succ_cons, List.map_cons, List.sum_cons]
    show _ = ∑ a : Fin (l.length + 1), if a.val ≤ k then g ((x :: l).get a) else 0
    rw [Fin.sum_univ_succ]
    congr 1
    cases k with
    | zero => simp
    | succ k =>
      rw [ih]
      refine Finset.sum_congr rfl (fun a _ => ?_)
      simp

end Skill
