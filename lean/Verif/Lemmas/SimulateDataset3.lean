import Verif.Lemmas.SimulateDataset2
/-
simulate_dataset in terms of labels: the cells of the simulated dataset as functions of a noise vector.
-/
namespace Skill
open Matrix MeasureTheory ProbabilityTheory Spec

section
variable {m : ModelDict ℝ} {pm : Processed ℝ} (hpm : processModel m = .ok pm) (hg : GoodNames m)
include hpm

theorem rows_nodup (val : Loc → ℝ) : ((pm.updateInfo.map (labelRow m val)).map (fun r => (r.period, r.var))).Nodup := by
  have := (C01_update_info_exact hpm).1
  rw [List.map_map]
  exact this

theorem rowsOf_nodup (val : Loc → ℝ) (t : ℕ) : ((rowsOf (pm.updateInfo.map (labelRow m val)) t).map (fun r => r.var)).Nodup := by
  have hn : ((rowsOf (pm.updateInfo.map (labelRow m val)) t).map (fun r => (r.period, r.var))).Nodup := (rows_nodup hpm val).sublist (List.filter_sublist.map _)
  refine List.Nodup.of_map (fun v => (t, v)) ?_
  rw [List.map_map]
  refine (List.map_congr_left (fun r hr => ?_)).symm ▸ hn
  have := (List.mem_filter.mp hr).2
  simp only [beq_iff_eq] at this
  simp only [Function.comp, this]

/-- The position of an update among the updates of its period. -/
theorem update_position (val : Loc → ℝ) {t : ℕ} {v : String} (h : IsUpdate m t v) :
    ∃ (u : URow) (j : Fin (rowsOf (pm.updateInfo.map (labelRow m val)) t).length), u ∈ pm.updateInfo ∧ u.period = t ∧ u.var = v ∧ (rowsOf (pm.updateInfo.map (labelRow m val)) t).get j = labelRow m val u := by
  obtain ⟨u, hu, h1, h2⟩ := ((C01_update_info_exact hpm).2.1 t v).mpr h
  have hmem : labelRow m val u ∈ rowsOf (pm.updateInfo.map (labelRow m val)) t := List.mem_filter.mpr ⟨List.mem_map.mpr ⟨u, hu, rfl⟩, by simp [labelRow, h1]⟩
  obtain ⟨j, hj⟩ := List.get_of_mem hmem
  exact ⟨u, j, hu, h1, h2, hj⟩

/-- A measurement by name. -/
theorem measurement_name (custom : String → CustomFn) (val : Loc → ℝ) {n nT : ℕ} (cov : Nat → Covariates) (i : Fin n) {u : URow} (hu : u ∈ pm.updateInfo) (ht : u.period < nT + 2) {x : Fin (nLat m) → ℝ}
    {states : Nat → String → ℝ} (hs : ∀ f : Fin (nLat m), states u.period (latName m f) = x f) (err : ℝ) :
    (labelRow m val u).loadings ⬝ᵥ x + (simFixed custom m pm val n nT cov).controls (jaxIndex (nT + 1) u.period) i ⬝ᵥ (labelRow m val u).controlParams + err =
      measurementWith m val (cov i) states err u.period u.var := by
  classical
  obtain ⟨_, _, _, htc, _⟩ := C01_update_info_exact hpm
  unfold measurementWith
  congr 1
  rw [add_comm]
  congr 1
  · rw [controls_ofFn, List.map_ofFn, List.sum_ofFn, dotProduct]
    refine Finset.sum_congr rfl (fun c _ => ?_)
    rw [mul_comm]
    unfold simFixed labelFixed labelRow
    simp only [jaxIndex_val (show u.period ≤ nT + 1 by omega)]
    rfl
  · rw [latents_ofFn, List.map_ofFn, List.sum_ofFn, dotProduct]
    refine Finset.sum_congr rfl (fun f _ => ?_)
    simp only [labelRow, Function.comp]
    have hiff : latName m f ∈ u.trueCols ↔ Measures m u.period u.var (latName m f) ∨ Anchors m u.var (latName m f) := htc _ hu _
    rw [hs f]
    by_cases hM : latName m f ∈ u.trueCols
    · rw [if_pos hM, if_pos (hiff.mp hM)]
    · rw [if_neg hM, if_neg (fun h => hM (hiff.mpr h)), zero_mul]

include hg

/-- The cells of the output of the simulation of an individual. -/
theorem simulated_cells (hc : CleanAnchoring m) (custom : String → CustomFn) (val : Loc → ℝ) {n nT k : ℕ} (cov : Nat → Covariates) {root : NormalRoot} {policies : List Policy} {i : Fin n} {draws : DatasetDraws} {e : Fin k}
    (hT : pm.dimensions.nPeriods = nT + 2)
    (hu : ∀ t, IsPeriod m (t + 1) → ∀ fs ∈ m.factors, TransFn.Usable (allFactors m) (fun name => val ⟨.transition, t, fs.1, name⟩) (transFnOf (custom fs.1) fs.2.transition)) {s : Simulated (nLat m)}
    (h : simulateIndividual root (simFixed custom m pm val n nT cov) (pm.updateInfo.map (labelRow m val)) (fun f => latName m f) policies ((labelCarry m val n k).states i) ((labelCarry m val n k).upperChols i) i
      (labelDraws draws i e) = .ok s)
    {w : SimIndex nT (pm.updateInfo.map (labelRow m val)) policies.length → ℝ}
    (hw : w = blockMul (simRoot root (simFixed custom m pm val n nT cov) (pm.updateInfo.map (labelRow m val)) policies.length ((labelCarry m val n k).upperChols i e)) (fun a => draws.normal i (simDraw a))) :
    (∀ c : {p : Nat × String // IsPeriod m p.1 ∧ p.2 ∈ latents m}, ∃ x, s.states[c.1.1]? = some x ∧ ∀ f : Fin (nLat m), latName m f = c.1.2 → x f = noiseCells custom m val (cov i) policies e w (.inl c)) ∧
    ∀ c : {p : Nat × String // IsUpdate m p.1 p.2}, ∃ ys, s.measurements[c.1.1]? = some ys ∧ (ys.find? (fun y => y.1 == c.1.2)).map (fun y => y.2) = some (noiseCells custom m val (cov i) policies e w (.inr c)) := by
  obtain ⟨h1, h2, h3⟩ := C56_simulation root (fun f g hfg => latName_injective hg hfg) h
  have hstates : ∀ t < nT + 2, ∃ x, s.states[t]? = some x ∧ ∀ f : Fin (nLat m),
      statesWith custom m val (cov i) policies (fun f => val ⟨.initialStates, 0, mixtureName e, f⟩ + wStart m w f) (wShock m w) (wPolicy m w) t (latName m f) = x f := by
    intro t ht
    refine h1.names hpm hg hc custom val cov hT hu (fun f => ?_) (fun t ht f => ?_) (fun k hk => ?_) ht
    · rw [wStart_latName m w hg, hw]
      rfl
    · rw [wShock_latName m w hg (by omega), hw]
      rfl
    · unfold wPolicy
      rw [dif_pos hk, hw]
      exact congrFun (one_mulVec _) _
  constructor
  · rintro ⟨⟨t, v⟩, ht, hv⟩
    obtain ⟨x, hx1, hx2⟩ := hstates t (by have := (isPeriod_iff hpm t).mp ht; omega)
    refine ⟨x, hx1, ?_⟩
    rintro f rfl
    exact (hx2 f).symm
  · rintro ⟨⟨t, v⟩, hup⟩
    have hlt : t < nT + 2 := by have := (isPeriod_iff hpm t).mp (isUpdate_period hup); omega
    obtain ⟨x, hx1, hx2⟩ := hstates t hlt
    obtain ⟨ys, hys, hl, hv⟩ := h3 t x hx1
    refine ⟨ys, hys, ?_⟩
    obtain ⟨u, j, hmem, rfl, rfl, hj⟩ := update_position hpm val hup
    have hn := rowsOf_nodup hpm val u.period
    have hnames : ys.map Prod.fst = (rowsOf (pm.updateInfo.map (labelRow m val)) u.period).map (fun r => r.var) := by
      apply List.ext_getElem?
      intro k
      by_cases hk : k < (rowsOf (pm.updateInfo.map (labelRow m val)) u.period).length
      · rw [List.getElem?_map, List.getElem?_map, hv ⟨k, hk⟩, List.getElem?_eq_getElem hk]
        rfl
      · rw [List.getElem?_eq_none (by rw [List.length_map, hl]; exact Nat.le_of_not_lt hk), List.getElem?_eq_none (by simpa using hk)]
    have hvj := hv j
    have hvar : ((rowsOf (pm.updateInfo.map (labelRow m val)) u.period).get j).var = u.var := by rw [hj]; rfl
    have hfind := find_of_unique hvj (hnames ▸ hn)
    have hvar' : ((pm.updateInfo.map (labelRow m val)).filter (fun r => r.period == u.period)).get j = labelRow m val u := hj
    rw [hvar'] at hfind
    have hf2 : ys.find? (fun y => y.1 == u.var) = _ := hfind
    dsimp only
    rw [hf2, Option.map_some]
    congr 1
    dsimp only
    refine (measurement_name hpm custom val cov i hmem hlt hx2 _).trans ?_
    unfold noiseCells cellsWith
    dsimp only
    congr 1
    rw [← hvar, wError_var m w hlt hn j, hw]
    rfl

/-- The cells of the statistical model. -/
theorem model_cells (custom : String → CustomFn) (val : Loc → ℝ) {n nT k : ℕ} (cov : Nat → Covariates) (policies : List Policy) (i : Fin n) (e : Fin k) (hT : pm.dimensions.nPeriods = nT + 2) (z : SimulationNoise → ℝ) :
    modelCells custom m val (cov i) policies e z = noiseCells custom m val (cov i) policies e
      (blockMul (simDiag (simFixed custom m pm val n nT cov) (pm.updateInfo.map (labelRow m val)) policies.length ((labelCarry m val n k).upperChols i e)) (fun a => z (simLabel m a))) := by
  rw [modelCells_with]
  unfold noiseCells
  refine cellsWith_congr custom val (cov i) (fun t v h => isUpdate_period h) (fun f hf => ?_) (fun t ht f hf => ?_) (fun t v h => ?_) (fun k hk => ?_)
  · rw [latents_ofFn, List.mem_ofFn] at hf
    obtain ⟨f, rfl⟩ := hf
    rw [wStart_latName m _ hg, ← start_label m hg val i e]
    rfl
  · rw [latents_ofFn, List.mem_ofFn] at hf
    obtain ⟨f, rfl⟩ := hf
    have htl : t < nT + 1 := by have := (isPeriod_iff hpm _).mp ht; omega
    rw [wShock_latName m _ hg htl]
    refine Eq.trans ?_ (mulVec_diagonal _ _ _).symm
    unfold simFixed labelFixed
    simp only [jaxIndex_val (show t ≤ nT by omega)]
    rfl
  · have hlt : t < nT + 2 := by have := (isPeriod_iff hpm t).mp (isUpdate_period h); omega
    obtain ⟨u, j, hmem, rfl, rfl, hj⟩ := update_position hpm val h
    have hvar : ((rowsOf (pm.updateInfo.map (labelRow m val)) u.period).get j).var = u.var := by rw [hj]; rfl
    have := wError_var m (blockMul (simDiag (simFixed custom m pm val n nT cov) (pm.updateInfo.map (labelRow m val)) policies.length ((labelCarry m val n k).upperChols i e)) (fun a => z (simLabel m a))) hlt
      (rowsOf_nodup hpm val u.period) j
    rw [hvar] at this
    rw [this]
    refine Eq.trans ?_ (mulVec_diagonal _ _ _).symm
    rw [hj]
    unfold simLabel labelIndex
    dsimp only
    rw [hvar]
    rfl
  · unfold wPolicy
    rw [dif_pos hk]
    exact (congrFun (one_mulVec (fun j : Fin policies.length => z (.policy j))) ⟨k, hk⟩).symm

end

/-! ### laws -/

/-- The law of a function of a mixture element and of standard normal numbers. -/
theorem mixture_law {Ω ι J β : Type} [MeasurableSpace Ω] [MeasurableSpace β] [Fintype ι] {P : Measure Ω} [IsProbabilityMeasure P] {k : ℕ} {E : Ω → Fin k} {Z : J → Ω → ℝ} (hE : Measurable E)
    (hZ : ∀ j, Measurable (Z j)) (hZn : ∀ j, P.map (Z j) = gaussianReal 0 1) (hZi : iIndepFun Z P) (hEZ : IndepFun E (fun ω j => Z j ω) P) {w : Fin k → ℝ} (hw : ∀ e, P (E ⁻¹' {e}) = ENNReal.ofReal (w e))
    {index : ι → J} (hindex : Function.Injective index) {Φ : Fin k → (ι → ℝ) → β} (hΦe : ∀ e, Measurable (Φ e)) :
    P.map (fun ω => Φ (E ω) (fun a => Z (index a) ω)) = ∑ e, ENNReal.ofReal (w e) • (stdNormal ι).map (Φ e) := by
  have hΦ : Measurable (fun x : Fin k × (ι → ℝ) => Φ x.1 x.2) := measurable_from_prod_countable_right hΦe
  have hz : Measurable (fun ω a => Z (index a) ω) := measurable_pi_iff.mpr (fun a => hZ _)
  have hjoint : P.map (fun ω => (E ω, fun a => Z (index a) ω)) = (P.map E).prod (stdNormal ι) := by
    have hind : IndepFun E (fun ω a => Z (index a) ω) P :=
      hEZ.comp (φ := id) (ψ := fun (z : J → ℝ) a => z (index a)) measurable_id (measurable_pi_iff.mpr (fun a => measurable_pi_apply _))
    rw [(indepFun_iff_map_prod_eq_prod_map_map hE.aemeasurable hz.aemeasurable).mp hind]
    congr 1
    exact map_select hZ hZn hZi hindex
  have hcomp : P.map (fun ω => Φ (E ω) (fun a => Z (index a) ω)) = ((P.map E).prod (stdNormal ι)).map (fun x : Fin k × (ι → ℝ) => Φ x.1 x.2) := by
    rw [← hjoint, Measure.map_map hΦ (hE.prodMk hz)]
    rfl
  rw [hcomp]
  refine Measure.ext_of_lintegral _ (fun F hF => ?_)
  have : IsProbabilityMeasure (P.map E) := Measure.isProbabilityMeasure_map hE.aemeasurable
  rw [lintegral_map hF hΦ, lintegral_prod _ (show Measurable (fun a : Fin k × (ι → ℝ) => F (Φ a.1 a.2)) from hF.comp hΦ).aemeasurable, lintegral_fintype, lintegral_finsetSum_measure]
  refine Finset.sum_congr rfl (fun e _ => ?_)
  rw [lintegral_smul_measure, smul_eq_mul, mul_comm, Measure.map_apply hE (measurableSet_singleton e), hw, lintegral_map hF (hΦe e)]

/-! ### measurability -/

theorem measurable_listSum {α β : Type} [MeasurableSpace α] (l : List β) {g : β → α → ℝ} (h : ∀ b ∈ l, Measurable (g b)) : Measurable (fun a => (l.map (fun b => g b a)).sum) := by
  induction l with
  | nil => simp
  | cons b l ih =>
    simp only [List.map_cons, List.sum_cons]
    exact (h b (by simp)).add (ih (fun b hb => h b (by simp [hb])))

theorem measurable_translog (factors : List String) (v : String → ℝ) : Measurable (fun x : String → ℝ => translogValue factors x v) := by
  unfold translogValue linearTerms squareTerms interactionTerms
  refine ((Measurable.add ?_ ?_).add ?_).add_const _
  · exact measurable_listSum _ (fun f _ => (measurable_pi_apply f).const_mul _)
  · exact measurable_listSum _ (fun f _ => ((measurable_pi_apply f).pow_const _).const_mul _)
  · refine Finset.measurable_fun_sum _ (fun i _ => Finset.measurable_fun_sum _ (fun j _ => ?_))
    split_ifs
    · exact ((measurable_pi_apply _).const_mul _).mul (measurable_pi_apply _)
    · exact measurable_const

theorem measurable_builtin (factors : List String) (v : String → ℝ) (factor name : String) : Measurable (fun x : String → ℝ => nextValue factors x v factor (.builtin name)) := by
  unfold nextValue
  dsimp only
  split_ifs
  · unfold linearValue linearTerms
    exact (measurable_listSum _ (fun f _ => (measurable_pi_apply f).const_mul _)).add_const _
  · exact measurable_translog _ _
  · unfold logCesValue
    exact (Real.measurable_log.comp (measurable_listSum _ (fun f _ => (Real.measurable_exp.comp ((measurable_pi_apply f).const_mul _)).const_mul _))).div_const _
  · exact measurable_pi_apply _
  · exact (measurable_translog factors v).comp (measurable_pi_iff.mpr (fun f => ((measurable_pi_apply f).max measurable_const).min measurable_const))
  · unfold linearAndSquaresValue linearTerms squareTerms
    refine (Measurable.add ?_ ?_).add_const _
    · exact measurable_listSum _ (fun f _ => (measurable_pi_apply f).const_mul _)
    · exact measurable_listSum _ (fun f _ => ((measurable_pi_apply f).pow_const _).const_mul _)
  · unfold logCesGeneralValue
    exact (Real.measurable_log.comp (measurable_listSum _ (fun f _ => (Real.measurable_exp.comp ((measurable_pi_apply f).const_mul _)).const_mul _))).const_mul _
  · exact measurable_const

theorem measurable_nextValue {custom : String → CustomFn} {m : ModelDict ℝ} (hcus : MeasurableCustom custom m) (v : String → ℝ) (f : String) :
    Measurable (fun x : String → ℝ => nextValue (allFactors m) x v f (transitionOf custom m f)) := by
  cases hl : m.factors.lookup f with
  | none =>
    have : transitionOf custom m f = .builtin "constant" := by simp [transitionOf, hl]
    rw [this]
    exact measurable_builtin _ _ _ _
  | some spec =>
    have h1 : transitionOf custom m f = transFnOf (custom f) spec.transition := by simp [transitionOf, hl]
    rw [h1]
    cases h : transFnOf (custom f) spec.transition with
    | builtin name => exact measurable_builtin _ _ _ _
    | custom args names body => exact hcus (f, spec) (lookup_mem hl) args names body h v

theorem measurable_factorNext {custom : String → CustomFn} {m : ModelDict ℝ} (hcus : MeasurableCustom custom m) (val : Loc → ℝ) (cov : Covariates) (t : Nat) (f : String) :
    Measurable (fun s : String → ℝ => factorNext custom m val cov t s f) := by
  unfold factorNext
  refine (((measurable_nextValue hcus _ f).comp (measurable_pi_iff.mpr (fun g => ?_))).sub_const _).div_const _
  split_ifs
  · unfold anchoredValue
    first | exact ((measurable_pi_apply g).const_mul _).add_const _ | exact ((measurable_pi_apply g).const_mul _).const_add _ | exact ((measurable_pi_apply g).mul_const _).add_const _ | exact ((measurable_pi_apply g).mul_const _).const_add _
  · exact measurable_const

theorem measurable_noiseCells {custom : String → CustomFn} {m : ModelDict ℝ} (hcus : MeasurableCustom custom m) (val : Loc → ℝ) (cov : Covariates) (policies : List Policy) {nT : ℕ}
    {rows : List (UpdateParams (nLat m) (nCon m))} (e : Nat) : Measurable (fun w : SimIndex nT rows policies.length → ℝ => noiseCells custom m val cov policies e w) := by
  have m1 : ∀ f, Measurable (fun w : SimIndex nT rows policies.length → ℝ => wStart m w f) := by
    intro f
    unfold wStart
    split_ifs
    · exact measurable_pi_apply _
    · exact measurable_const
  have m2 : ∀ t f, Measurable (fun w : SimIndex nT rows policies.length → ℝ => wShock m w t f) := by
    intro t f
    unfold wShock
    split_ifs
    · exact measurable_pi_apply _
    · exact measurable_const
    · exact measurable_const
  have m3 : ∀ t f, Measurable (fun w : SimIndex nT rows policies.length → ℝ => wError m w t f) := by
    intro t f
    unfold wError
    split_ifs
    · exact measurable_pi_apply _
    · exact measurable_const
    · exact measurable_const
  have m4 : ∀ k, Measurable (fun w : SimIndex nT rows policies.length → ℝ => wPolicy m w k) := by
    intro k
    unfold wPolicy
    split_ifs
    · exact measurable_pi_apply _
    · exact measurable_const
  have m5 : ∀ t f, Measurable (fun w : SimIndex nT rows policies.length → ℝ => effectWith m policies (wPolicy m w) t f) := by
    intro t f
    unfold effectWith policyEffect
    split_ifs
    · exact measurable_listSum _ (fun p _ => ((m4 _).const_mul _).const_add _)
    · exact measurable_const
  have m6 : ∀ t f, Measurable (fun w : SimIndex nT rows policies.length → ℝ =>
      statesWith custom m val cov policies (fun f => val ⟨.initialStates, 0, mixtureName e, f⟩ + wStart m w f) (wShock m w) (wPolicy m w) t f) := by
    intro t
    induction t with
    | zero =>
      intro f
      exact ((m1 f).const_add _).add (m5 0 f)
    | succ t ih =>
      intro f
      exact (((measurable_factorNext hcus val cov t f).comp (measurable_pi_iff.mpr ih)).add (m2 t f)).add (m5 (t + 1) f)
  refine measurable_pi_iff.mpr ?_
  rintro (⟨⟨t, f⟩, h⟩ | ⟨⟨t, v⟩, h⟩)
  · exact m6 t f
  · unfold noiseCells cellsWith measurementWith
    dsimp only
    refine ((Measurable.const_add ?_ _).add (m3 t v))
    refine measurable_listSum _ (fun f _ => ?_)
    split_ifs
    · exact (m6 t f).const_mul _
    · exact measurable_const

end Skill
