import Verif.Props.MaximumExists
import Verif.Props.MixtureElementsExamples
import Verif.Props.FilterExamples

/-! Examples for C137 and C138. -/

namespace Skill
open Spec
namespace Ex

/-- Three periods, a translog and a linear function and a control. -/
noncomputable def nestModel : ModelDict ℝ := switchTransition "constant" "linear" editModel

/-- Values of the parameters. -/
noncomputable def nestValues (l : Loc) : ℝ := if l.cat = .mixtureWeights then 1 else 1 / 2

/-- The models of the examples. -/
structure NestEdit (m : ModelDict ℝ) : Prop where
  edit : EditOf editModel m
  normalizations : ∀ f spec, (f, spec) ∈ m.factors → spec.normalizations = none
  transition : ∀ f spec, (f, spec) ∈ m.factors → spec.transition = .named "translog" ∨ spec.transition = .named "linear"
  periods : ∀ t, IsPeriod m t ↔ IsPeriod editModel t
  accepted : Accepted m

theorem NestEdit.noAnchors {m : ModelDict ℝ} (h : NestEdit m) {v f : String} : ¬Anchors m v f := by
  rw [h.edit.anchors]
  rintro ⟨o, ⟨a, ⟨⟩, _⟩, _⟩

theorem NestEdit.mixtures {m : ModelDict ℝ} (h : NestEdit m) : HasNMixtures m 1 := ⟨_, h.edit.options, Or.inr ⟨rfl, rfl⟩⟩

theorem NestEdit.one {m : ModelDict ℝ} (h : NestEdit m) {k : ℕ} (hk : HasNMixtures m k) : k = 1 := by
  obtain ⟨o, ho, h1 | ⟨_, rfl⟩⟩ := hk
  · rw [h.edit.options] at ho
    obtain rfl := Option.some.inj ho
    cases h1
  · rfl

theorem NestEdit.distance {m : ModelDict ℝ} (h : NestEdit m) {d : ℝ} : BoundsDistance m d ↔ d = 1 / 1000 := by
  constructor
  · rintro ⟨o, ho, ⟨h1, _⟩ | ⟨_, rfl⟩⟩
    · rw [h.edit.options] at ho
      obtain rfl := Option.some.inj ho
      cases h1
    · rw [h.edit.options] at ho
      obtain rfl := Option.some.inj ho
      rfl
  · rintro rfl
    exact ⟨_, h.edit.options, Or.inr ⟨by simp, rfl⟩⟩

theorem NestEdit.estimable {m : ModelDict ℝ} (h : NestEdit m) : Estimable m where
  names := h.edit.goodNames editModel_names
  anchored v f hv := absurd hv h.noAnchors
  mixtures k hk := (h.one hk).ge
  custom f spec fn ps hmem hs := by rcases h.transition f spec hmem with h1 | h1 <;> rw [h1] at hs <;> cases hs
  transition := by
    obtain ⟨spec, hs⟩ := (h.edit.isLatent "a").mpr ⟨_, List.mem_cons_self⟩
    refine Or.inl ⟨"a", spec, "constant", hs, ?_⟩
    rcases h.transition _ _ hs with h1 | h1 <;> rw [h1]
    · exact Or.inr (Or.inl ⟨Or.inl rfl, Or.inr (Or.inr (Or.inr rfl))⟩)
    · exact Or.inl ⟨rfl, Or.inr rfl⟩

theorem NestEdit.admissible {m : ModelDict ℝ} (h : NestEdit m) : Admissible m nestValues where
  fixes l x hl := by
    cases hl with
    | loading hmem hn =>
      obtain ⟨ns, ls, d, h1, _⟩ := hn
      rw [h.normalizations _ _ hmem] at h1
      cases h1
    | intercept hmem hn =>
      obtain ⟨ns, ls, d, h1, _⟩ := hn
      rw [h.normalizations _ _ hmem] at h1
      cases h1
    | weight => simp [nestValues]
    | shock hmem hn =>
      rcases h.transition _ _ hmem with h1 | h1 <;> rw [h1] at hn
      · exact absurd (show "constant" = "translog" from hn) (by decide)
      · exact absurd (show "constant" = "linear" from hn) (by decide)
    | anchorConstant _ h1 => exact absurd h1 h.noAnchors
    | anchorControl _ h1 => exact absurd h1 h.noAnchors
    | anchorLoading _ h1 => exact absurd h1 h.noAnchors
  weights k hk := by
    obtain rfl := h.one hk
    simp [nestValues]
  stages p q s _ _ f spec name _ _ := by simp [nestValues]
  stageShocks p q s _ _ f _ := by simp [nestValues]
  order k f _ _ e e' _ _ := by simp [nestValues]
  shares t f spec _ hmem hs := by rcases h.transition _ _ hmem with h1 | h1 <;> rw [h1] at hs <;> simp at hs
  measSds d t v hd _ := by
    obtain rfl := h.distance.mp hd
    simp [nestValues]
    norm_num
  shockSds d t f hd _ _ := by
    obtain rfl := h.distance.mp hd
    simp [nestValues]
    norm_num
  diagonal d k e f hd _ _ _ := by
    obtain rfl := h.distance.mp hd
    simp [nestValues]
    norm_num

theorem NestEdit.querySafe {m : ModelDict ℝ} (h : NestEdit m) (f : String) (hf : IsLatent m f) : querySafe f := by
  obtain ⟨spec, hmem⟩ := (h.edit.isLatent f).mp hf
  simp only [editModel, List.mem_cons, Prod.mk.injEq, List.not_mem_nil, or_false] at hmem
  rcases hmem with ⟨rfl, rfl⟩ | ⟨rfl, rfl⟩ <;> decide

theorem NestEdit.hasOnePeriod {m : ModelDict ℝ} (h : NestEdit m) : IsPeriod m 1 := (h.periods 1).mpr ((editModel_period 1).mpr (by norm_num))

theorem NestEdit.usable {m : ModelDict ℝ} (h : NestEdit m) (custom : String → CustomFn) (val : Loc → ℝ) (fs : String × FactorSpec ℝ) (hfs : fs ∈ m.factors) :
    TransFn.Usable (allFactors m) (fun name => val ⟨.transition, 0, fs.1, name⟩) (transFnOf (custom fs.1) fs.2.transition) := by
  rcases h.transition fs.1 fs.2 hfs with h1 | h1 <;> rw [h1] <;> exact ⟨rfl, fun h => by simp at h⟩

theorem NestEdit.evaluates {m : ModelDict ℝ} (h : NestEdit m) : ∃ inputs, getMaximizationInputs m editData = .ok inputs ∧
    ∀ (qr : QR) (custom : String → CustomFn) (nan : ℝ) (val : Loc → ℝ) params, ParamsWith m params val → ∃ x, loglikeValue qr custom nan m editData params = .ok x := by
  obtain ⟨pm, hpm⟩ := h.accepted
  have hc70 := fun qr => C70_likelihood_evaluates qr hpm h.estimable.names (h.edit.cleanAnchoring editModel_clean) (h.edit.sameOrder (by rintro a os ⟨⟩)) (h.edit.noNameClash (noNameClash_of_none rfl)) h.querySafe h.hasOnePeriod
    h.mixtures (Or.inl rfl) editData_index.1 editData_index.2.1 editData_ids.1 editData_ids.2 (h.edit.dataOk (fun t => (h.periods t).mp) editData_ok)
  obtain ⟨qr0, _⟩ := validQR
  obtain ⟨inputs, _, hin, _⟩ := hc70 qr0
  refine ⟨inputs, hin, fun qr custom nan val params hp => ?_⟩
  obtain ⟨inputs', _, hin', _, hout⟩ := hc70 qr
  obtain rfl := Except.ok.inj (hin.symm.trans hin')
  have hix : inputs.index = pm.paramsIndex := by
    obtain ⟨pm1, _, _, _, hp, _, _, _, rfl⟩ := getMaximizationInputs_ok.mp hin
    obtain rfl := Except.ok.inj (hpm.symm.trans hp)
    rfl
  obtain ⟨out, h1, _⟩ := hout custom nan params val hp.nodup (fun l => by rw [hp.labels, hix, mem_paramsIndex_iff hpm]) hp.values (h.usable custom val)
  exact ⟨out.value, (loglikeValue_ok hin).mpr ⟨out, h1, rfl⟩⟩

theorem isPeriod_switch {old new : String} {m : ModelDict ℝ} {t : ℕ} : IsPeriod (switchTransition old new m) t ↔ IsPeriod m t := by
  have hN : ∀ n, IsNPeriods (switchTransition old new m) n ↔ IsNPeriods m n := fun n => isNPeriods_congr (m := m) (m' := switchTransition old new m) (by
    show (m.factors.map _).map _ = _
    rw [List.map_map]
    rfl)
  unfold IsPeriod
  simp only [hN]

theorem nestModel_nest : NestEdit nestModel where
  edit := edit_switch "constant" "linear" editModel
  normalizations f spec hs := by
    obtain ⟨s, hs2, rfl⟩ := mem_switchTransition.mp hs
    simp only [editModel, List.mem_cons, Prod.mk.injEq, List.not_mem_nil, or_false] at hs2
    rcases hs2 with ⟨rfl, rfl⟩ | ⟨rfl, rfl⟩ <;> rfl
  transition f spec hs := by
    obtain ⟨s, hs2, rfl⟩ := mem_switchTransition.mp hs
    simp only [editModel, List.mem_cons, Prod.mk.injEq, List.not_mem_nil, or_false] at hs2
    rcases hs2 with ⟨rfl, rfl⟩ | ⟨rfl, rfl⟩
    · left
      dsimp only
      rw [if_neg (by simp)]
    · right
      dsimp only
      rw [if_pos rfl]
  periods t := isPeriod_switch
  accepted := by
    obtain ⟨pm, hpm, _⟩ := editModel_ok
    exact accepted_switch ⟨pm, hpm⟩ (by simp [ValidTransition])

theorem EditOf.trans {m1 m2 m3 : ModelDict ℝ} (h : EditOf m1 m2) (h' : EditOf m2 m3) : EditOf m1 m3 where
  factors := h'.factors.trans h.factors
  observed := h'.observed.trans h.observed
  anchoring := h'.anchoring.trans h.anchoring
  options := h'.options.trans h.options
  controls := h'.controls.trans h.controls
  measures t v f hv := h.measures t v f (h'.measures t v f hv)
  registered f spec fn ps hs ht := by
    obtain ⟨s, h1, h2⟩ := h'.registered f spec fn ps hs ht
    exact h.registered f s fn ps h1 h2

theorem nestLinear : NestEdit (switchTranslogToLinear nestModel) where
  edit := EditOf.trans nestModel_nest.edit (edit_switch "translog" "linear" nestModel)
  normalizations f spec hs := by
    obtain ⟨s, hs2, rfl⟩ := mem_switchTransition.mp hs
    exact nestModel_nest.normalizations f s hs2
  transition f spec hs := by
    obtain ⟨s, hs2, rfl⟩ := mem_switchTransition.mp hs
    right
    dsimp only
    split
    · rfl
    · exact (nestModel_nest.transition f s hs2).resolve_left (by assumption)
  periods t := isPeriod_switch.trans (nestModel_nest.periods t)
  accepted := accepted_switch nestModel_nest.accepted (by simp [ValidTransition])

theorem nestValues_le (l : Loc) : |nestValues l| ≤ 1 := by
  unfold nestValues
  split <;> norm_num

theorem NestEdit.feasible {m : ModelDict ℝ} (h : NestEdit m) {inputs : MaximizationInputs} (hin : getMaximizationInputs m editData = .ok inputs) : nestValues ∈ Feasible inputs (fun _ => 1) := by
  rw [C120_feasible h.estimable hin]
  exact ⟨h.admissible, nestValues_le⟩

/-- C138 is not vacuous. -/
theorem NestEdit.maximum {m : ModelDict ℝ} (h : NestEdit m) {inputs : MaximizationInputs} (hin : getMaximizationInputs m editData = .ok inputs) {qr : QR} (hqr : ValidQR qr) (custom : String → CustomFn) (nan : ℝ) :
    ∃ val, Maximizes (loglikeValue qr custom nan m editData) m (Feasible inputs (fun _ => 1)) val := by
  refine C138_estimates_exist hqr h.estimable (h.edit.cleanAnchoring editModel_clean) (h.edit.sameOrder (by rintro a os ⟨⟩)) (h.edit.noNameClash (noNameClash_of_none rfl)) h.querySafe h.hasOnePeriod h.mixtures ?_
    (h.distance.mpr rfl) (by norm_num) ?_ ?_ editData_index.1 editData_index.2.1 editData_ids.1 editData_ids.2 hin ⟨nestValues, h.feasible hin⟩ custom nan
  · intro o x ho hx
    rw [h.edit.options] at ho
    obtain rfl := Option.some.inj ho
    cases hx
  · rintro ⟨a, ha, _⟩
    rw [h.edit.anchoring] at ha
    cases ha
  · intro f spec hs
    rcases h.transition f spec hs with h1 | h1
    · exact ⟨"translog", by simp, h1⟩
    · exact ⟨"linear", by simp, h1⟩

/-- C138 is not vacuous: the likelihood of a model with a translog function, a linear function and a control has a maximum. -/
theorem C138_example (custom : String → CustomFn) (nan : ℝ) : ∃ (qr : QR) (inputs : MaximizationInputs) (val : Loc → ℝ), getMaximizationInputs nestModel editData = .ok inputs ∧ nestValues ∈ Feasible inputs (fun _ => 1) ∧
    Maximizes (loglikeValue qr custom nan nestModel editData) nestModel (Feasible inputs (fun _ => 1)) val := by
  obtain ⟨qr, hqr⟩ := validQR
  obtain ⟨inputs, hin, _⟩ := nestModel_nest.evaluates
  obtain ⟨val, h⟩ := nestModel_nest.maximum hin hqr custom nan
  exact ⟨qr, inputs, val, hin, nestModel_nest.feasible hin, h⟩

/-- C137 is not vacuous: the maximum of the likelihood of the translog model is at least the maximum of the likelihood of the linear model, and both exist. -/
theorem C137_example_translog (custom : String → CustomFn) (nan : ℝ) : ∃ (qr : QR) (inputs inputs' : MaximizationInputs) (val val' : Loc → ℝ) (params params' : List (Loc × ℝ)) (x x' : ℝ),
    getMaximizationInputs nestModel editData = .ok inputs ∧ getMaximizationInputs (switchTranslogToLinear nestModel) editData = .ok inputs' ∧
    Maximizes (loglikeValue qr custom nan nestModel editData) nestModel (Feasible inputs (fun _ => 1)) val ∧
    Maximizes (loglikeValue qr custom nan (switchTranslogToLinear nestModel) editData) (switchTranslogToLinear nestModel) (Feasible inputs' (fun _ => 1)) val' ∧
    ParamsWith nestModel params val ∧ ParamsWith (switchTranslogToLinear nestModel) params' val' ∧ loglikeValue qr custom nan nestModel editData params = .ok x ∧
    loglikeValue qr custom nan (switchTranslogToLinear nestModel) editData params' = .ok x' ∧ x' ≤ x := by
  obtain ⟨qr, hqr⟩ := validQR
  obtain ⟨inputs, hin, hev⟩ := nestModel_nest.evaluates
  obtain ⟨inputs', hin', hev'⟩ := nestLinear.evaluates
  obtain ⟨val, hmax⟩ := nestModel_nest.maximum hin hqr custom nan
  obtain ⟨val', hmax'⟩ := nestLinear.maximum hin' hqr custom nan
  obtain ⟨pm, hpm⟩ := nestModel_nest.accepted
  obtain ⟨pm', hpm'⟩ := nestLinear.accepted
  obtain ⟨params, hp⟩ := exists_paramsWith hpm nestModel_nest.estimable.names val
  obtain ⟨params', hp'⟩ := exists_paramsWith hpm' nestLinear.estimable.names val'
  obtain ⟨x, hx⟩ := hev qr custom nan val params hp
  obtain ⟨x', hx'⟩ := hev' qr custom nan val' params' hp'
  have h := nestModel_nest
  exact ⟨qr, inputs, inputs', val, val', params, params', x, x', hin, hin', hmax, hmax', hp, hp', hx, hx', C137_translog_maximum h.estimable (h.edit.cleanAnchoring editModel_clean) (h.edit.sameOrder (by rintro a os ⟨⟩))
    (h.edit.noNameClash (noNameClash_of_none rfl)) h.hasOnePeriod editData_index.1 editData_index.2.1 editData_ids.1 editData_ids.2 hin hin' _ qr custom nan hmax hmax'.admissible hp hp' hx hx'⟩

theorem nestControls {m' : ModelDict ℝ} (hm' : removeControls ["x"] nestModel = .ok m') : NestEdit m' := by
  have hE := EditOf.trans nestModel_nest.edit (edit_removeControls hm')
  have hacc := accepted_removeControls nestModel_nest.accepted hm'
  obtain ⟨c, hc, rfl⟩ := removeControls_ok hm'
  exact ⟨hE, nestModel_nest.normalizations, nestModel_nest.transition, nestModel_nest.periods, hacc⟩

/-- C137 is not vacuous: the maximum of the likelihood of the model with the control is at least the maximum of the likelihood of the model without controls, and both exist. -/
theorem C137_example_controls (custom : String → CustomFn) (nan : ℝ) : ∃ (qr : QR) (m' : ModelDict ℝ) (inputs inputs' : MaximizationInputs) (val val' : Loc → ℝ) (params params' : List (Loc × ℝ)) (x x' : ℝ),
    removeControls ["x"] nestModel = .ok m' ∧ getMaximizationInputs nestModel editData = .ok inputs ∧ getMaximizationInputs m' editData = .ok inputs' ∧
    Maximizes (loglikeValue qr custom nan nestModel editData) nestModel (Feasible inputs (fun _ => 1)) val ∧ Maximizes (loglikeValue qr custom nan m' editData) m' (Feasible inputs' (fun _ => 1)) val' ∧
    ParamsWith nestModel params val ∧ ParamsWith m' params' val' ∧ loglikeValue qr custom nan nestModel editData params = .ok x ∧ loglikeValue qr custom nan m' editData params' = .ok x' ∧ x' ≤ x := by
  obtain ⟨qr, hqr⟩ := validQR
  have h := nestModel_nest
  obtain ⟨m', hm', _⟩ := (C20_edits_keep_models_valid h.accepted).2.2.2.1 ["x"] rfl
  have h' := nestControls hm'
  obtain ⟨inputs, hin, hev⟩ := h.evaluates
  obtain ⟨inputs', hin', hev'⟩ := h'.evaluates
  obtain ⟨val, hmax⟩ := h.maximum hin hqr custom nan
  obtain ⟨val', hmax'⟩ := h'.maximum hin' hqr custom nan
  obtain ⟨pm, hpm⟩ := h.accepted
  obtain ⟨pm', hpm'⟩ := h'.accepted
  obtain ⟨params, hp⟩ := exists_paramsWith hpm h.estimable.names val
  obtain ⟨params', hp'⟩ := exists_paramsWith hpm' h'.estimable.names val'
  obtain ⟨x, hx⟩ := hev qr custom nan val params hp
  obtain ⟨x', hx'⟩ := hev' qr custom nan val' params' hp'
  refine ⟨qr, m', inputs, inputs', val, val', params, params', x, x', hm', hin, hin', hmax, hmax', hp, hp', hx, hx', C137_controls_maximum h.estimable (h.edit.cleanAnchoring editModel_clean) (h.edit.sameOrder (by rintro a os ⟨⟩))
    (h.edit.noNameClash (noNameClash_of_none rfl)) h.hasOnePeriod (by simp) hm' editData_index.1 editData_index.2.1 editData_ids.1 editData_ids.2 (fun i hi t ht c hc _ hv => ?_) hin hin' _ qr custom nan hmax hmax'.admissible hp hp' hx hx'⟩
  rw [List.mem_singleton] at hc
  subst hc
  obtain ⟨_, r, hr, hv⟩ := hv
  obtain rfl := rowOf_unique editData_index.2.2 hr (editData_row (by simpa using hi) ((editModel_period t).mp ((h.periods t).mp ht)))
  rw [valueIs_of_none rfl] at hv
  simp [baseValue, editRow] at hv

theorem nestElements : ∃ inputs, getMaximizationInputs (withMixtures nestModel 2) editData = .ok inputs ∧
    ∀ (qr : QR) (custom : String → CustomFn) (nan : ℝ) (val : Loc → ℝ) params, ParamsWith (withMixtures nestModel 2) params val → ∃ x, loglikeValue qr custom nan (withMixtures nestModel 2) editData params = .ok x := by
  have h := nestModel_nest
  obtain ⟨pm0, hpm0⟩ := h.accepted
  have hpm := processModel_withMixtures hpm0 2
  have hc := h.edit.cleanAnchoring editModel_clean
  have hd := h.edit.dataOk (fun t => (h.periods t).mp) editData_ok
  have hc70 := fun qr => C70_likelihood_evaluates qr hpm (withMixtures_names h.estimable.names 2) ⟨hc.latent, hc.notMeasured, hc.distinct⟩ (by rintro a os ⟨⟩) (noNameClash_of_none rfl) h.querySafe h.hasOnePeriod
    (k := 2) ⟨_, rfl, Or.inl rfl⟩ (Or.inr ⟨by norm_num, rfl⟩) editData_index.1 editData_index.2.1 editData_ids.1 editData_ids.2 ⟨hd.keys, hd.outcomes, hd.controls, hd.measurements, hd.observed⟩
  obtain ⟨qr0, _⟩ := validQR
  obtain ⟨inputs, _, hin, _⟩ := hc70 qr0
  refine ⟨inputs, hin, fun qr custom nan val params hp => ?_⟩
  obtain ⟨inputs', _, hin', _, hout⟩ := hc70 qr
  obtain rfl := Except.ok.inj (hin.symm.trans hin')
  have hix : ∀ l, l ∈ inputs.index ↔ IsParam (withMixtures nestModel 2) l := by
    intro l
    rw [← mem_paramsIndex_iff hpm]
    obtain ⟨pm1, _, _, _, hp, _, _, _, rfl⟩ := getMaximizationInputs_ok.mp hin
    obtain rfl := Except.ok.inj (hpm.symm.trans hp)
    rfl
  obtain ⟨out, h1, _⟩ := hout custom nan params val hp.nodup (fun l => by rw [hp.labels, hix]) hp.values (h.usable custom val)
  exact ⟨out.value, (loglikeValue_ok hin).mpr ⟨out, h1, rfl⟩⟩

/-- C137 is not vacuous: with two mixture elements there are feasible parameters with the same likelihood as those of a model with one element. -/
theorem C137_example_elements (qr : QR) (custom : String → CustomFn) (nan : ℝ) : ∃ (inputs inputs' : MaximizationInputs) (val' : Loc → ℝ) (params params' : List (Loc × ℝ)) (x : ℝ),
    getMaximizationInputs nestModel editData = .ok inputs ∧ getMaximizationInputs (withMixtures nestModel 2) editData = .ok inputs' ∧ nestValues ∈ Feasible inputs (fun _ => 1) ∧ val' ∈ Feasible inputs' (fun _ => 1) ∧
    ParamsWith nestModel params nestValues ∧ ParamsWith (withMixtures nestModel 2) params' val' ∧ loglikeValue qr custom nan nestModel editData params = .ok x ∧
    loglikeValue qr custom nan (withMixtures nestModel 2) editData params' = .ok x := by
  have h := nestModel_nest
  obtain ⟨inputs, hin, hev⟩ := h.evaluates
  obtain ⟨inputs', hin', hev'⟩ := nestElements
  obtain ⟨val', hval', hsame⟩ := C137_elements h.estimable (h.edit.cleanAnchoring editModel_clean) (h.edit.sameOrder (by rintro a os ⟨⟩)) h.mixtures (k' := 2) (by norm_num) hin hin' (B := fun _ => 1) (fun _ _ _ => rfl) (h.feasible hin)
    (fun e _ => by show (0 : ℝ) < 1; norm_num)
  obtain ⟨pm, hpm⟩ := h.accepted
  obtain ⟨params, hp⟩ := exists_paramsWith hpm h.estimable.names nestValues
  obtain ⟨params', hp'⟩ := exists_paramsWith (processModel_withMixtures hpm 2) (withMixtures_names h.estimable.names 2) val'
  obtain ⟨x, hx⟩ := hev qr custom nan nestValues params hp
  obtain ⟨x', hx'⟩ := hev' qr custom nan val' params' hp'
  have := hsame qr custom nan params params' x x' hp hp' hx hx'
  rw [this] at hx'
  exact ⟨inputs, inputs', val', params, params', x, hin, hin', h.feasible hin, hval', hp, hp', hx, hx'⟩

end Ex
end Skill
