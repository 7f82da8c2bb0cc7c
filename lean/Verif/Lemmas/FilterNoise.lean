import Verif.Lemmas.PipelineLaw
import Verif.Lemmas.CondExp
/-
The joint law of the data up to an update and the state at that update, when the draws come from a family of independent standard normal numbers.
-/
namespace Skill
open Matrix MeasureTheory ProbabilityTheory Spec
variable {nObs nMix n nT nObserved nC : ℕ} {θ : Type}

/-- The states of period t as a function of the mixture element and the standard normal draws. -/
noncomputable def labelStates (fixed : ScanFixed nObs nT n nObserved nC θ) (rows : List (UpdateParams n nC)) (i : Fin nObs) (means : Fin nMix → Fin n → ℝ) (upperChols : Fin nMix → Matrix (Fin n) (Fin n) ℝ)
    (t : ℕ) (x : Fin nMix × ((Σ b : Block nT, Fin (blockSize nT rows b)) → ℝ)) : Fin n → ℝ :=
  pathStates fixed i (means x.1 + fun f : Fin n => blockMul (diagBlocks fixed rows (upperChols x.1)) x.2 ⟨.inl (), f⟩) (shockNoise (blockMul (diagBlocks fixed rows (upperChols x.1)) x.2)) t

theorem measurable_labelStates {fixed : ScanFixed nObs nT n nObserved nC θ} (hlin : AffineTransitions fixed) (rows : List (UpdateParams n nC)) (i : Fin nObs) (means : Fin nMix → Fin n → ℝ)
    (upperChols : Fin nMix → Matrix (Fin n) (Fin n) ℝ) (t : ℕ) : Measurable (labelStates fixed rows i means upperChols t) := by
  refine measurable_from_prod_countable_right (fun e => ?_)
  have hb := measurable_blockMul (diagBlocks fixed rows (upperChols e))
  have hx : Measurable (fun z => means e + fun f : Fin n => blockMul (diagBlocks fixed rows (upperChols e)) z ⟨.inl (), f⟩) :=
    Measurable.const_add (measurable_pi_iff.mpr (fun f : Fin n => (measurable_pi_apply (⟨.inl (), f⟩ : Σ b : Block nT, Fin (blockSize nT rows b))).comp hb)) _
  refine measurable_path hlin i hx (w := fun z => shockNoise (blockMul (diagBlocks fixed rows (upperChols e)) z)) (fun t => ?_) t
  rw [measurable_pi_iff]
  intro f
  unfold shockNoise
  split_ifs with ht
  · exact (measurable_pi_apply (⟨.inr (.inl ⟨t, ht⟩), f⟩ : Σ b : Block nT, Fin (blockSize nT rows b))).comp hb
  · exact measurable_const

theorem measurable_labelData {fixed : ScanFixed nObs nT n nObserved nC θ} (hlin : AffineTransitions fixed) {rows : List (UpdateParams n nC)} {K : ℕ} (row : Fin K → UpdateParams n nC) (hp : ∀ k, (row k).period < nT + 2)
    (pos : (k : Fin K) → Fin (rowsOf rows (row k).period).length) (obs : Fin K → Bool) (i : Fin nObs) (means : Fin nMix → Fin n → ℝ) (upperChols : Fin nMix → Matrix (Fin n) (Fin n) ℝ) :
    Measurable (labelData (fixed := fixed) row hp pos obs i means upperChols) := by
  have hn : ∀ e, Measurable (noiseData row hp pos obs fixed i (means e)) := fun e => measurable_noiseData row hp pos obs hlin i _
  refine measurable_from_prod_countable_right (fun e => ?_)
  exact (hn e).comp (measurable_blockMul (diagBlocks fixed rows (upperChols e)))

theorem noise_law_joint {fixed : ScanFixed nObs nT n nObserved nC θ} (hlin : AffineTransitions fixed) {rows : List (UpdateParams n nC)} (hrows : GoodRows nT rows) {data : List (Fin nObs → Option ℝ)}
    (hd : data.length = rows.length) (i : Fin nObs) (means : Fin nMix → Fin n → ℝ) (U : Fin nMix → Matrix (Fin n) (Fin n) ℝ) {steps : List (Step n)} (hsteps : steps = (loopArgs (nT + 1) rows data).map (stepOf fixed i))
    (row : Fin steps.length → UpdateParams n nC) (hrow : ∀ k, rows[k.val]? = some (row k)) (hp : ∀ k, (row k).period < nT + 2)
    (pos : (k : Fin steps.length) → Fin (rowsOf rows (row k).period).length) (hpos : ∀ k, (rowsOf rows (row k).period).get (pos k) = row k)
    (obs : Fin steps.length → Bool) (hobs : ∀ k, ∃ y, data[k.val]? = some y ∧ obs k = (y i).isSome) (hsd : ∀ s ∈ steps, s.sd ≠ 0)
    {Ω : Type} [MeasurableSpace Ω] {P : Measure Ω} [IsProbabilityMeasure P] {J : Type} {E : Ω → Fin nMix} {Z : J → Ω → ℝ} (hE : Measurable E) (hZ : ∀ j, Measurable (Z j)) (hZn : ∀ j, P.map (Z j) = gaussianReal 0 1)
    (hZi : iIndepFun Z P) (hEZ : IndepFun E (fun ω j => Z j ω) P) {w : Fin nMix → ℝ} (hw : ∀ e, P (E ⁻¹' {e}) = ENNReal.ofReal (w e))
    {index : (Σ b : Block nT, Fin (blockSize nT rows b)) → J} (hindex : Function.Injective index) (k : Fin steps.length) :
    ∃ V : Fin nMix → Matrix (Fin n) (Fin n) ℝ, ∀ F : (Fin (steps.take (k + 1)).length → ℝ) × (Fin n → ℝ) → ENNReal, Measurable F →
      ∫⁻ ω, F (fun j => labelData (fixed := fixed) row hp pos obs i means U (E ω, fun a => Z (index a) ω) (prefixPos steps (k + 1) j),
          labelStates fixed rows i means U (row k).period (E ω, fun a => Z (index a) ω)) ∂P =
        ∑ e, ENNReal.ofReal (w e) * ∫⁻ y, ENNReal.ofReal (kalmanDensity (steps.take (k + 1)) (means e) ((U e)ᵀ * U e) y) *
          ∫⁻ z, F (y, filterMean (steps.take (k + 1)) (means e) ((U e)ᵀ * U e) y + (V e)ᵀ *ᵥ z) ∂stdNormal (Fin n) ∂baseMeasure (steps.take (k + 1)) := by
  have haff : ∀ s ∈ steps, s.Affine := by
    intro s hs
    rw [hsteps] at hs
    obtain ⟨a, _, rfl⟩ := List.mem_map.mp hs
    exact stepOf_affine hlin i a
  obtain ⟨g, hg, hpath⟩ := noise_selection (fixed := fixed) hrows hd i hsteps row hrow hp pos hpos obs hobs
  have hfil := fun e => lintegral_filter (steps := steps.take (k + 1)) (fun s h => haff s (List.mem_of_mem_take h)) (fun s h => hsd s (List.mem_of_mem_take h)) (U e)
  choose V hV using hfil
  refine ⟨V, fun F hF => ?_⟩
  -- the law of the draws
  have hz : Measurable (fun ω (a : Σ b : Block nT, Fin (blockSize nT rows b)) => Z (index a) ω) := measurable_pi_iff.mpr (fun a => hZ _)
  have hjoint : P.map (fun ω => (E ω, fun a : (Σ b : Block nT, Fin (blockSize nT rows b)) => Z (index a) ω)) = (P.map E).prod (stdNormal (Σ b : Block nT, Fin (blockSize nT rows b))) := by
    have hind : IndepFun E (fun ω (a : Σ b : Block nT, Fin (blockSize nT rows b)) => Z (index a) ω) P :=
      hEZ.comp (φ := id) (ψ := fun (z : J → ℝ) a => z (index a)) measurable_id (measurable_pi_iff.mpr (fun a => measurable_pi_apply _))
    rw [(indepFun_iff_map_prod_eq_prod_map_map hE.aemeasurable hz.aemeasurable).mp hind]
    congr 1
    exact map_select hZ hZn hZi hindex
  set G : Fin nMix × ((Σ b : Block nT, Fin (blockSize nT rows b)) → ℝ) → ENNReal := fun x =>
    F (fun j => labelData (fixed := fixed) row hp pos obs i means U x (prefixPos steps (k + 1) j), labelStates fixed rows i means U (row k).period x) with hGdef
  have hG : Measurable G := by
    refine hF.comp (Measurable.prodMk ?_ (measurable_labelStates hlin rows i means U _))
    exact measurable_pi_iff.mpr (fun j => (measurable_pi_apply _).comp (measurable_labelData hlin row hp pos obs i means U))
  have h1 : ∫⁻ ω, G (E ω, fun a => Z (index a) ω) ∂P = ∫⁻ x, G x ∂(P.map E).prod (stdNormal (Σ b : Block nT, Fin (blockSize nT rows b))) := by
    rw [← hjoint, lintegral_map hG (hE.prodMk hz)]
  have : IsProbabilityMeasure (P.map E) := Measure.isProbabilityMeasure_map hE.aemeasurable
  refine h1.trans ?_
  rw [lintegral_prod _ hG.aemeasurable, lintegral_fintype]
  refine Finset.sum_congr rfl (fun e _ => ?_)
  rw [mul_comm, Measure.map_apply hE (measurableSet_singleton e), hw]
  congr 1
  have hflat : Measurable (fun d : (Fin n → ℝ) × (Fin steps.length → ℝ × (Fin n → ℝ)) => fun a =>
      (Sum.elim d.1 (Sum.elim (fun k => (d.2 k).1) (fun kf : Fin steps.length × Fin n => (d.2 kf.1).2 kf.2)) : Fin n ⊕ Fin steps.length ⊕ Fin steps.length × Fin n → ℝ) (g a)) :=
    measurable_pi_iff.mpr (fun a => (measurable_pi_apply (g a)).comp (measurable_flat _ _))
  rw [← map_draws_select hg, lintegral_map (show Measurable (fun z => G (e, z)) from hG.comp (measurable_const.prodMk measurable_id)) hflat]
  have hFm : Measurable (fun p : (Fin (steps.take (k + 1)).length → ℝ) × (Fin n → ℝ) => F (p.1, p.2)) := hF
  rw [← hV e (means e) (F := fun y x => F (y, x)) hFm, ← lintegral_prefix haff k.isLt (means e) (U e) (F := fun y x => F (y, x)) hFm]
  refine lintegral_congr (fun d => ?_)
  obtain ⟨p1, p2⟩ := hpath (means e) (U e) d _ rfl
  rw [hGdef]
  dsimp only
  rw [p2 k _ (hrow k), p1]
  rfl

end Skill
