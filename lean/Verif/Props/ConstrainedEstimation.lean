import Verif.Props.Admissible
import Verif.Props.Identification

/-! C120 and C119 together: estimation with the constraints and bounds of the model is consistent. -/

namespace Skill
open Matrix MeasureTheory ProbabilityTheory Spec
open scoped Topology

variable {m : ModelDict ℝ} {pm : Processed ℝ}

/-- The constraints and bounds that get_maximization_inputs returns are satisfied by exactly the values that the model allows, whatever the data are. -/
theorem C120_feasible (he : Estimable m) {df : LongData ℝ} {inputs : MaximizationInputs} (hin : getMaximizationInputs m df = .ok inputs) (B : Loc → ℝ) :
    Feasible inputs B = {val | Admissible m val ∧ ∀ l, |val l| ≤ B l} := by
  unfold getMaximizationInputs at hin
  obtain ⟨pm, hpm, hin⟩ := py_bind_ok.mp hin
  obtain ⟨info, _, hin⟩ := py_bind_ok.mp hin
  obtain ⟨data, _, hin⟩ := py_bind_ok.mp hin
  obtain ⟨cs, hcs, hin⟩ := py_bind_ok.mp hin
  obtain rfl := py_pure_ok.mp hin
  obtain ⟨cs', hcs', h⟩ := C120_admissible_iff hpm he
  cases hcs.symm.trans hcs'
  ext val
  simp only [Feasible, Set.mem_setOf_eq, ← h val, and_assoc]

/-- If a factor has the transition function "constant" and the bounds are robust (the default), no values satisfy all constraints and bounds: the standard deviations of shocks of this factor are fixed to zero, but have a positive lower bound. -/
theorem C120_constant_infeasible (he : Estimable m) {df : LongData ℝ} {inputs : MaximizationInputs} (hin : getMaximizationInputs m df = .ok inputs) (B : Loc → ℝ) (hper : IsPeriod m 1) {f : String}
    {spec : FactorSpec ℝ} (hf : (f, spec) ∈ m.factors) (hc : spec.transition = .named "constant") {d : ℝ} (hd : BoundsDistance m d) (hd0 : 0 < d) : Feasible inputs B = ∅ := by
  rw [C120_feasible he hin]
  refine Set.eq_empty_of_forall_notMem (fun val ⟨h, _⟩ => ?_)
  have h1 := h.fixes _ _ (.shock (t := 0) hf (by rw [hc]; rfl) hper)
  have h2 := h.shockSds d 0 f hd hper ⟨spec, hf⟩
  linarith

theorem admissible_closed : IsClosed {val : Loc → ℝ | Admissible m val} := by
  have e : {val : Loc → ℝ | Admissible m val} = {val | ∀ l x, ShouldFix m l x → val l = x} ∩
      {val | ∀ k, HasNMixtures m k → (∀ e < k, 0 ≤ val ⟨.mixtureWeights, 0, "mixture_" ++ toString e, "-"⟩) ∧ ∑ e ∈ Finset.range k, val ⟨.mixtureWeights, 0, "mixture_" ++ toString e, "-"⟩ = 1} ∩
      {val | ∀ p q s, StageOf m p s → StageOf m q s → ∀ f spec name, (f, spec) ∈ m.factors → HasTransitionParam (allFactors m) spec.transition name → val ⟨.transition, p, f, name⟩ = val ⟨.transition, q, f, name⟩} ∩
      {val | ∀ p q s, StageOf m p s → StageOf m q s → ∀ f, IsLatent m f → val ⟨.shockSds, p, f, "-"⟩ = val ⟨.shockSds, q, f, "-"⟩} ∩
      {val | ∀ k f, HasNMixtures m k → (m.factors.map Prod.fst).head? = some f → ∀ e e', e ≤ e' → e' < k →
        val ⟨.initialStates, 0, "mixture_" ++ toString e, f⟩ ≤ val ⟨.initialStates, 0, "mixture_" ++ toString e', f⟩} ∩
      {val | ∀ t f spec, IsPeriod m (t + 1) → (f, spec) ∈ m.factors → spec.transition = .named "log_ces" →
        (∀ g ∈ allFactors m, 0 ≤ val ⟨.transition, t, f, g⟩) ∧ ((allFactors m).map (fun g => val ⟨.transition, t, f, g⟩)).sum = 1} ∩
      {val | ∀ d t v, BoundsDistance m d → IsUpdate m t v → d ≤ val ⟨.measSds, t, v, "-"⟩} ∩
      {val | ∀ d t f, BoundsDistance m d → IsPeriod m (t + 1) → IsLatent m f → d ≤ val ⟨.shockSds, t, f, "-"⟩} ∩
      {val | ∀ d k e f, BoundsDistance m d → HasNMixtures m k → e < k → IsLatent m f → d ≤ val ⟨.initialCholcovs, 0, "mixture_" ++ toString e, f ++ "-" ++ f⟩} := by
    ext val
    constructor
    · intro h
      exact ⟨⟨⟨⟨⟨⟨⟨⟨h.fixes, h.weights⟩, h.stages⟩, h.stageShocks⟩, h.order⟩, h.shares⟩, h.measSds⟩, h.shockSds⟩, h.diagonal⟩
    · rintro ⟨⟨⟨⟨⟨⟨⟨⟨h1, h2⟩, h3⟩, h4⟩, h5⟩, h6⟩, h7⟩, h8⟩, h9⟩
      exact ⟨h1, h2, h3, h4, h5, h6, h7, h8, h9⟩
  rw [e]
  have hsum : ∀ (l : List String) (g : String → Loc), Continuous (fun val : Loc → ℝ => (l.map (fun x => val (g x))).sum) := by
    intro l g
    induction l with
    | nil => exact continuous_const
    | cons a l ih =>
      simp only [List.map_cons, List.sum_cons]
      exact (continuous_apply _).add ih
  refine ((((((((?_ : IsClosed _).inter ?_).inter ?_).inter ?_).inter ?_).inter ?_).inter ?_).inter ?_).inter ?_
  · simp only [Set.setOf_forall]
    exact isClosed_iInter fun l => isClosed_iInter fun x => isClosed_iInter fun _ => isClosed_eq (continuous_apply l) continuous_const
  · simp only [Set.setOf_forall, Set.setOf_and]
    exact isClosed_iInter fun k => isClosed_iInter fun _ => (isClosed_iInter fun e => isClosed_iInter fun _ => isClosed_le continuous_const (continuous_apply _)).inter
      (isClosed_eq (continuous_finset_sum _ fun e _ => continuous_apply _) continuous_const)
  · simp only [Set.setOf_forall]
    exact isClosed_iInter fun _ => isClosed_iInter fun _ => isClosed_iInter fun _ => isClosed_iInter fun _ => isClosed_iInter fun _ => isClosed_iInter fun _ => isClosed_iInter fun _ => isClosed_iInter fun _ =>
      isClosed_iInter fun _ => isClosed_iInter fun _ => isClosed_eq (continuous_apply _) (continuous_apply _)
  · simp only [Set.setOf_forall]
    exact isClosed_iInter fun _ => isClosed_iInter fun _ => isClosed_iInter fun _ => isClosed_iInter fun _ => isClosed_iInter fun _ => isClosed_iInter fun _ => isClosed_iInter fun _ =>
      isClosed_eq (continuous_apply _) (continuous_apply _)
  · simp only [Set.setOf_forall]
    exact isClosed_iInter fun _ => isClosed_iInter fun _ => isClosed_iInter fun _ => isClosed_iInter fun _ => isClosed_iInter fun _ => isClosed_iInter fun _ => isClosed_iInter fun _ => isClosed_iInter fun _ =>
      isClosed_le (continuous_apply _) (continuous_apply _)
  · simp only [Set.setOf_forall, Set.setOf_and]
    exact isClosed_iInter fun _ => isClosed_iInter fun _ => isClosed_iInter fun _ => isClosed_iInter fun _ => isClosed_iInter fun _ => isClosed_iInter fun _ =>
      (isClosed_iInter fun e => isClosed_iInter fun _ => isClosed_le continuous_const (continuous_apply _)).inter (isClosed_eq (hsum _ _) continuous_const)
  · simp only [Set.setOf_forall]
    exact isClosed_iInter fun _ => isClosed_iInter fun _ => isClosed_iInter fun _ => isClosed_iInter fun _ => isClosed_iInter fun _ => isClosed_le continuous_const (continuous_apply _)
  · simp only [Set.setOf_forall]
    exact isClosed_iInter fun _ => isClosed_iInter fun _ => isClosed_iInter fun _ => isClosed_iInter fun _ => isClosed_iInter fun _ => isClosed_iInter fun _ => isClosed_le continuous_const (continuous_apply _)
  · simp only [Set.setOf_forall]
    exact isClosed_iInter fun _ => isClosed_iInter fun _ => isClosed_iInter fun _ => isClosed_iInter fun _ => isClosed_iInter fun _ => isClosed_iInter fun _ => isClosed_iInter fun _ => isClosed_iInter fun _ =>
      isClosed_le continuous_const (continuous_apply _)

theorem admissible_compact (B : Loc → ℝ) : IsCompact {val : Loc → ℝ | Admissible m val ∧ ∀ l, |val l| ≤ B l} := by
  have e : {val : Loc → ℝ | Admissible m val ∧ ∀ l, |val l| ≤ B l} = {val | Admissible m val} ∩ Set.univ.pi (fun l => Set.Icc (-B l) (B l)) := by
    ext val
    simp only [Set.mem_setOf_eq, Set.mem_inter_iff, Set.mem_univ_pi, Set.mem_Icc, abs_le]
  rw [e]
  exact (isCompact_univ_pi fun _ => isCompact_Icc).inter_left admissible_closed

theorem admissible_proper (hm : LinearModel m 1) (hna : m.anchoring = none) {d : ℝ} (hd : BoundsDistance m d) (hd0 : 0 < d) {val : Loc → ℝ} (h : Admissible m val) : ProperValues m 1 val := by
  have hw := h.fixes _ _ (.weight hm.mixture)
  refine ⟨fun e he => ?_, ?_, fun t v hu => (lt_of_lt_of_le hd0 (h.measSds d t v hd hu)).ne', fun t f _ => by simp [anchorScale, outcome, hna]⟩
  · obtain rfl : e = 0 := by omega
    exact lt_of_lt_of_eq one_pos hw.symm
  · rw [Fin.sum_univ_one]
    exact hw

theorem admissible_normalized (hm : LinearModel m 1) {d : ℝ} (hd : BoundsDistance m d) (hd0 : 0 < d) {val : Loc → ℝ} (h : Admissible m val) : Normalized m val where
  loadings t v f x := fun ⟨_, hmem, hn⟩ => h.fixes _ _ (.loading hmem hn)
  intercepts t v f x := fun ⟨_, hmem, hn⟩ => h.fixes _ _ (.intercept hmem hn)
  measSds t v hu := hd0.le.trans (h.measSds d t v hd hu)
  shockSds t f ht hf := hd0.le.trans (h.shockSds d t f hd ht hf)
  diagonal f hf := hd0.le.trans (h.diagonal d 1 0 f hd hm.mixture one_pos hf)

theorem admissible_notCollinear (hm : LinearModel m 1) {d : ℝ} (hd : BoundsDistance m d) (hd0 : 0 < d) {val : Loc → ℝ} (h : Admissible m val) : NotCollinear m val where
  start f hf := (lt_of_lt_of_le hd0 (h.diagonal d 1 0 f hd hm.mixture one_pos hf)).ne'
  shocks t f ht hf := Or.inr (lt_of_lt_of_le hd0 (h.shockSds d t f hd ht hf)).ne'

/-- Estimation with the constraints and bounds that get_maximization_inputs returns is consistent: simulate data of growing size with feasible values `val0` of the parameters. Almost surely the likelihood functions of the measurements have maxima among the
feasible values, and the maximum likelihood estimates of all parameters converge to the true values. -/
theorem C120_consistent {qr : QR} (hqr : ValidQR qr) {root : NormalRoot} (hroot : ValidRoot root) (hpm : processModel m = .ok pm) (he : Estimable m) (hm : LinearModel m 1)
    (hsm : SimulationModel m 1) (hna : m.anchoring = none) (hcon : m.controls.getD [] = []) (hobs : m.observedFactors.getD [] = []) (hno : ∀ t v, IsUpdate m t v → v ≠ "constant")
    (hkappa : ∀ o x, m.estimationOptions = some o → o.sigmaPointsScale = some x → 0 ≤ x) (hclip : NoClipping m) (custom : String → CustomFn) (nan : ℝ) {d : ℝ} (hd : BoundsDistance m d) (hd0 : 0 < d)
    (B : Loc → ℝ) {val0 : Loc → ℝ} (h0 : Admissible m val0) (hB : ∀ l, |val0 l| ≤ B l) (hown : HasOwnMeasurements m val0) (params0 : List (Loc × ℝ)) (hparams0 : ParamsWith m params0 val0)
    {Ω : Type} [MeasurableSpace Ω] (P : Measure Ω) [IsProbabilityMeasure P] (E : Nat → Nat → Ω → Fin 1) (Z : Nat → Nat → Draw → Ω → ℝ) (hZ : ∀ n, RandomDatasetDraws P val0 (E n) (Z n)) :
    ∀ᵐ ω ∂P, ∃ (data : ℕ → SimulatedDataset) (inputs : ℕ → MaximizationInputs),
      (∀ n ≥ 2, simulateDataset root custom nan m params0 (some n) none [] (drawsWith (fun i => E n i ω) (fun i j => Z n i j ω)) = .ok (data n) ∧ getMaximizationInputs m (asDataset (data n).measurements) = .ok (inputs n) ∧
        ∃ val, Maximizes (loglikeValue qr custom nan m (asDataset (data n).measurements)) m (Feasible (inputs n) B) val) ∧
      ∀ est : ℕ → Loc → ℝ, (∀ n ≥ 2, Maximizes (loglikeValue qr custom nan m (asDataset (data n).measurements)) m (Feasible (inputs n) B) (est n)) → ∀ l, IsParam m l → Filter.Tendsto (fun n => est n l) Filter.atTop (𝓝 (val0 l)) := by
  have := C119_consistent hqr hroot hpm hm hsm hna hcon hobs hno hkappa hclip custom nan (admissible_compact B) (fun val h => admissible_proper hm hna hd hd0 h.1) (fun val h => admissible_normalized hm hd hd0 h.1) (val0 := val0) ⟨h0, hB⟩
    hown (admissible_notCollinear hm hd hd0 h0) params0 hparams0 P E Z hZ
  filter_upwards [this] with ω hω
  obtain ⟨data, h1, h2, h3⟩ := hω
  have hok : ∀ n ≥ 2, ∃ inputs, getMaximizationInputs m (asDataset (data n).measurements) = .ok inputs := by
    intro n hn
    obtain ⟨val, hval⟩ := h2 n hn
    obtain ⟨x, hx⟩ := hval.evaluates val0 ⟨h0, hB⟩ params0 hparams0
    unfold loglikeValue at hx
    obtain ⟨inputs, hin, _⟩ := py_bind_ok.mp hx
    exact ⟨inputs, hin⟩
  obtain ⟨inputs2, _⟩ := hok 2 le_rfl
  have hinputs : ∀ n, ∃ inputs, n ≥ 2 → getMaximizationInputs m (asDataset (data n).measurements) = .ok inputs := by
    intro n
    by_cases hn : n ≥ 2
    · obtain ⟨inputs, hin⟩ := hok n hn
      exact ⟨inputs, fun _ => hin⟩
    · exact ⟨inputs2, fun h => absurd h hn⟩
  choose inputs hinputs using hinputs
  refine ⟨data, inputs, fun n hn => ⟨h1 n hn, hinputs n hn, ?_⟩, fun est hest => h3 est (fun n hn => ?_)⟩
  · rw [C120_feasible he (hinputs n hn)]
    exact h2 n hn
  · have := hest n hn
    rwa [C120_feasible he (hinputs n hn)] at this

end Skill
