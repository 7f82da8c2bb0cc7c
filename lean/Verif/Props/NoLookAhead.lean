import Verif.Lemmas.NoLookAhead
import Verif.Props.OwnStates
import Verif.Props.Contributions
import Verif.Props.Residuals
import Verif.Props.PostUpdateStates
/- C132: results for a period do not depend on the data of later periods. -/
namespace Skill
open Spec

/-- **C132**: two individuals of one dataset or of two datasets have the same data up to period `T`, and possibly different data afterwards. Then their contributions to the likelihood are the same at each update of the
periods up to `T`. -/
theorem C132_contributions {m : ModelDict ℝ} {pm : Processed ℝ} (hpm : processModel m = .ok pm) (hd : DictKeys m) (hclash : NoNameClash m) {df df' : LongData ℝ} (hi : IndexOk df) (hi' : IndexOk df') (hu : NoUnusedPeriods df)
    (hu' : NoUnusedPeriods df') {ids pers ids' pers' : List Int} (hids : IdsOf df ids) (hpers : PeriodsOf df pers) (hids' : IdsOf df' ids') (hpers' : PeriodsOf df' pers') {inputs inputs' : MaximizationInputs}
    (hin : getMaximizationInputs m df = .ok inputs) (hin' : getMaximizationInputs m df' = .ok inputs') {qr : QR} {custom : String → CustomFn} {nan : ℝ} {params : List (Loc × ℝ)} {out out' : LoglikeOutput}
    (h : inputs.loglike qr custom nan m params = .ok out) (h' : inputs'.loglike qr custom nan m params = .ok out') {T i i' : ℕ} (hs : SameHistoryUpTo m T df ids pers i df' ids' pers' i')
    (k : ℕ) (row : URow) (hrow : pm.updateInfo[k]? = some row) (hT : row.period ≤ T) : ∃ x, entry2 out.allContributions k i = some x ∧ entry2 out'.allContributions k i' = some x := by
  obtain ⟨pm', r, r', hpm', _, _, h1, h2, hl, hl', h3, h4, h5⟩ := evaluate_upTo hd hclash hi hi' hu hu' hids hpers hids' hpers' hin hin' h h'
  obtain rfl := Except.ok.inj (hpm.symm.trans hpm')
  obtain rfl := Except.ok.inj h1
  obtain rfl := Except.ok.inj h2
  obtain ⟨hs1, hs2, _⟩ := id hs
  have e2 := h5 T ⟨i, hs1⟩ ⟨i', hs2⟩ hs k row hrow hT
  have hk := (List.getElem?_eq_some_iff.mp hrow).1
  have a := entry2_ofFn (os := r.allContributions) k ⟨i, hs1⟩
  have b := entry2_ofFn (os := r'.allContributions) k ⟨i', hs2⟩
  dsimp only [LoglikeResult.output] at *
  rw [a, b, h3, h4]
  rw [List.getElem?_eq_getElem (by omega), List.getElem?_eq_getElem (by omega)] at e2
  have e3 := congrFun (congrArg StepOut.loglikes (Option.some.inj e2)) 0
  refine ⟨r.outs[k].loglikes ⟨i, hs1⟩, ?_, ?_⟩
  · rw [List.getElem?_map, List.getElem?_eq_getElem (by omega)]
    rfl
  · rw [List.getElem?_map, List.getElem?_eq_getElem (by omega)]
    exact congrArg some e3.symm

/-- The entries of a DataFrame with one row for each update, individual and mixture element: entries of two individuals with the same arrays up to some period. -/
theorem debugBlock_upTo {β : Type} {nObs nObs' nMix : ℕ} {data : List (Fin nObs → Fin nMix → β)} {data' : List (Fin nObs' → Fin nMix → β)} {u : List URow} (hlen : data'.length = u.length) {T : ℕ} {i : Fin nObs} {i' : Fin nObs'}
    (h : ∀ (k : ℕ) (row : URow), u[k]? = some row → row.period ≤ T → (data[k]?).map (fun d => d i) = (data'[k]?).map (fun d => d i')) {d : DebugRow β}
    (hd : d ∈ ((u.zip data).map (fun x => debugBlock x.1 x.2)).flatten) (hT : d.period ≤ T) (hid : d.id = i.val * nMix + d.mixture) :
    { d with id := i'.val * nMix + d.mixture } ∈ ((u.zip data').map (fun x => debugBlock x.1 x.2)).flatten := by
  obtain ⟨block, hb, hmem⟩ := List.mem_flatten.mp hd
  obtain ⟨⟨row, dat⟩, hx, rfl⟩ := List.mem_map.mp hb
  obtain ⟨k, hk⟩ := List.getElem?_of_mem hx
  obtain ⟨hrow, hdat⟩ := List.getElem?_zip_eq_some.mp hk
  unfold debugBlock at hmem
  obtain ⟨⟨⟨v, e⟩, idx⟩, hz, rfl⟩ := List.mem_map.mp hmem
  have hz := List.mem_zipIdx_iff_getElem?.mp hz
  dsimp only at hT hid hz
  subst hid
  have he : e < nMix := by
    have := List.mem_of_getElem? hz
    unfold flattenMixtures at this
    obtain ⟨_, _, this⟩ := List.mem_flatMap.mp this
    obtain ⟨e', _, this⟩ := List.mem_map.mp this
    rw [← (Prod.mk.inj this).2]
    exact e'.isLt
  have hv := flattenMixtures_getElem? dat i ⟨e, he⟩
  dsimp only at hv
  rw [hz] at hv
  have hv := (Prod.mk.inj (Option.some.inj hv)).1
  have hsame := h k row hrow hT
  rw [hdat, Option.map_some] at hsame
  cases hdat' : data'[k]? with
  | none => rw [hdat'] at hsame; cases hsame
  | some dat' =>
    rw [hdat', Option.map_some] at hsame
    refine List.mem_flatten.mpr ⟨_, List.mem_map.mpr ⟨(row, dat'), List.mem_of_getElem? (List.getElem?_zip_eq_some.mpr ⟨hrow, hdat'⟩), rfl⟩, ?_⟩
    unfold debugBlock
    refine List.mem_map.mpr ⟨((v, e), i'.val * nMix + e), List.mem_zipIdx_iff_getElem?.mpr ?_, rfl⟩
    have := flattenMixtures_getElem? dat' i' ⟨e, he⟩
    have hw : dat' i' ⟨e, he⟩ = v := hv.trans (congrFun (Option.some.inj hsame) ⟨e, he⟩) |>.symm
    rw [hw] at this
    exact this

theorem processResiduals_flatten {nObs nMix : ℕ} {res : List (Fin nObs → Fin nMix → Option ℝ)} {u : List URow} {out : List (DebugRow (Option ℝ))} (h : processResiduals res u = .ok out) :
    out = ((u.zip res).map (fun x => debugBlock x.1 x.2)).flatten := by
  unfold processResiduals at h
  dsimp only at h
  split_ifs at h
  exact (Except.ok.inj h).symm

/-- **C132**: the same is true of all DataFrames of debug_loglike that have rows for updates: each row of the individual in a period up to `T` has a counterpart with the same values. The row of mixture element e of the i-th
individual has the id `i * k + e` in residuals, residual_sds and post_update_states, where k is the number of mixture elements. -/
theorem C132_debug {m : ModelDict ℝ} (hd : DictKeys m) (hclash : NoNameClash m) {nM : ℕ} (hmix : HasNMixtures m nM) {df df' : LongData ℝ} (hi : IndexOk df) (hi' : IndexOk df') (hu : NoUnusedPeriods df)
    (hu' : NoUnusedPeriods df') {ids pers ids' pers' : List Int} (hids : IdsOf df ids) (hpers : PeriodsOf df pers) (hids' : IdsOf df' ids') (hpers' : PeriodsOf df' pers') {inputs inputs' : MaximizationInputs}
    (hin : getMaximizationInputs m df = .ok inputs) (hin' : getMaximizationInputs m df' = .ok inputs') {qr : QR} {custom : String → CustomFn} {nan : ℝ} {params : List (Loc × ℝ)} {out out' : DebugData}
    (h : inputs.debugLoglike qr custom nan m params = .ok out) (h' : inputs'.debugLoglike qr custom nan m params = .ok out') {T i i' : ℕ} (hs : SameHistoryUpTo m T df ids pers i df' ids' pers' i') :
    (∀ d ∈ out.allContributions, d.period ≤ T → d.id = i → { d with id := i' } ∈ out'.allContributions) ∧
    (∀ d ∈ out.residuals, d.period ≤ T → d.id = i * nM + d.mixture → { d with id := i' * nM + d.mixture } ∈ out'.residuals) ∧
    (∀ d ∈ out.residualSds, d.period ≤ T → d.id = i * nM + d.mixture → { d with id := i' * nM + d.mixture } ∈ out'.residualSds) ∧
    (∀ d ∈ out.postUpdateStates, d.period ≤ T → d.id = i * nM + d.mixture → { d with id := i' * nM + d.mixture } ∈ out'.postUpdateStates) := by
  unfold MaximizationInputs.debugLoglike at h h'
  obtain ⟨pm, r, r', hpm, hm1, hm2, h1, h2, hl, hl', h3, h4, h5⟩ := evaluate_upTo hd hclash hi hi' hu hu' hids hpers hids' hpers' hin hin' h h'
  rw [hm1] at h1
  rw [hm2] at h2
  obtain rfl := (hasNMixtures_of_ok hpm nM).mp hmix
  obtain ⟨hs1, hs2, _⟩ := id hs
  have hsel := h5 T ⟨i, hs1⟩ ⟨i', hs2⟩ hs
  have hpart : ∀ {β : Type} (f : {nO : ℕ} → StepOut nO pm.dimensions.nMixtures pm.dimensions.nLatentFactors → Fin nO → β)
      (_ : ∀ {nO : ℕ} (o : StepOut nO pm.dimensions.nMixtures pm.dimensions.nLatentFactors) (j : Fin nO), f (o.select (fun _ : Fin 1 => j)) 0 = f o j) (k : ℕ) (row : URow), pm.updateInfo[k]? = some row → row.period ≤ T →
      ((r.outs.map f)[k]?).map (fun d => d ⟨i, hs1⟩) = ((r'.outs.map f)[k]?).map (fun d => d ⟨i', hs2⟩) := by
    intro β f hf k row hrow hT
    have e := congrArg (Option.map (fun o => f o 0)) (hsel k row hrow hT)
    rw [Option.map_map, Option.map_map] at e
    rw [List.getElem?_map, List.getElem?_map, Option.map_map, Option.map_map]
    simpa only [Function.comp_def, hf] using e
  refine ⟨?_, ?_, ?_, ?_⟩
  · have c1 := processDebugData_contributions h1
    have c2 := processDebugData_contributions h2
    rw [h3] at c1
    rw [h4] at c2
    unfold processAllContributions at c1 c2
    dsimp only at c1 c2
    split_ifs at c1 c2
    rw [← Except.ok.inj c1, ← Except.ok.inj c2]
    intro d hd hT hid
    obtain ⟨block, hb, hmem⟩ := List.mem_flatten.mp hd
    obtain ⟨⟨row, con⟩, hx, rfl⟩ := List.mem_map.mp hb
    obtain ⟨j, _, rfl⟩ := List.mem_map.mp hmem
    obtain ⟨k, hk⟩ := List.getElem?_of_mem hx
    obtain ⟨hrow, hcon⟩ := List.getElem?_zip_eq_some.mp hk
    obtain rfl : j = ⟨i, hs1⟩ := Fin.ext hid
    have e := hpart (fun o => o.loglikes) (fun _ _ => rfl) k row hrow hT
    rw [hcon, Option.map_some] at e
    cases hcon' : (r'.outs.map (fun o => o.loglikes))[k]? with
    | none => rw [hcon'] at e; cases e
    | some con' =>
      rw [hcon', Option.map_some] at e
      refine List.mem_flatten.mpr ⟨_, List.mem_map.mpr ⟨(row, con'), List.mem_of_getElem? (List.getElem?_zip_eq_some.mpr ⟨hrow, hcon'⟩), rfl⟩, List.mem_map.mpr ⟨⟨i', hs2⟩, List.mem_finRange _, ?_⟩⟩
      dsimp only
      rw [← Option.some.inj e]
  · rw [processResiduals_flatten (processDebugData_residuals h1).1, processResiduals_flatten (processDebugData_residuals h2).1]
    exact fun d hd hT hid => debugBlock_upTo (by rw [List.length_map, hl']) (hpart (fun o => o.residuals) (fun _ _ => rfl)) hd hT hid
  · rw [processResiduals_flatten (processDebugData_residuals h1).2, processResiduals_flatten (processDebugData_residuals h2).2]
    exact fun d hd hT hid => debugBlock_upTo (by rw [List.length_map, hl']) (hpart (fun o => o.residualSds) (fun _ _ => rfl)) hd hT hid
  · obtain ⟨post, hp, e1⟩ := processDebugData_postUpdate h1
    obtain ⟨post', hp', e2⟩ := processDebugData_postUpdate h2
    rw [e1, e2]
    unfold createPostUpdateStates at hp hp'
    dsimp only at hp hp'
    split_ifs at hp hp'
    obtain rfl := Except.ok.inj hp
    obtain rfl := Except.ok.inj hp'
    intro d hd hT hid
    obtain ⟨d0, hd0, rfl⟩ := List.mem_map.mp hd
    exact List.mem_map.mpr ⟨_, debugBlock_upTo (by rw [List.length_map, hl']) (hpart (fun o => o.states) (fun _ _ => rfl)) hd0 hT hid, rfl⟩

/-- Each row of individual i in the periods up to `T` has a counterpart of individual i' in the other DataFrame: a row of the same period with the same values, except for the id. -/
def SameStatesUpTo (T : ℕ) (df df' : StatesFrame ℝ) (i i' : ℕ) : Prop :=
  ∀ t cells, (t, cells) ∈ df.rows → t ≤ T → cells "id" = i → ∃ cells', (t, cells') ∈ df'.rows ∧ cells' "id" = i' ∧ ∀ c, c ≠ "id" → cells' c = cells c

/-- The row of filtered_states of one individual in one period. -/
theorem filtered_upTo {m : ModelDict ℝ} {pm : Processed ℝ} (hpm : processModel m = .ok pm) (hmeas : ∀ t, IsPeriod m t → ∃ v f, Measures m t v f ∧ ¬ ∃ g, Anchors m v g) {nObs nObs' nMix n : ℕ}
    {outs : List (StepOut nObs nMix n)} {outs' : List (StepOut nObs' nMix n)} (hl : outs.length = pm.updateInfo.length) (hl' : outs'.length = pm.updateInfo.length) {rows rows' : List (FilteredRow n)}
    (h : createFilteredStates outs pm.updateInfo = .ok rows) (h' : createFilteredStates outs' pm.updateInfo = .ok rows') {T : ℕ} {i : Fin nObs} {i' : Fin nObs'}
    (hs : ∀ (k : ℕ) (row : URow), pm.updateInfo[k]? = some row → row.period ≤ T → (outs[k]?).map (StepOut.select (fun _ : Fin 1 => i)) = (outs'[k]?).map (StepOut.select (fun _ : Fin 1 => i'))) (factors : List String) :
    SameStatesUpTo T (filteredFrame factors rows) (filteredFrame factors rows') i i' := by
  obtain ⟨q, hq, hlen, hlast, hrow⟩ := C51_filtered_states_partial hpm hmeas hl
  obtain rfl := Except.ok.inj (h.symm.trans hq)
  obtain ⟨q', hq', _, _, hrow'⟩ := C51_filtered_states_partial hpm hmeas hl'
  obtain rfl := Except.ok.inj (h'.symm.trans hq')
  intro t cells hmem hT hid
  unfold filteredFrame at hmem ⊢
  obtain ⟨row, hr, he⟩ := List.mem_map.mp hmem
  obtain ⟨rfl, rfl⟩ := Prod.mk.inj he
  dsimp only at hid hT
  rw [if_pos rfl] at hid
  have hid : row.id = i.val := by exact_mod_cast hid
  obtain ⟨p, hp⟩ := List.getElem?_of_mem hr
  have hpl := (List.getElem?_eq_some_iff.mp hp).1
  rw [hlen] at hpl
  have hpos : 0 < nObs := Nat.pos_of_ne_zero (by rintro rfl; exact absurd i.isLt (by omega))
  have ht : p / nObs < pm.dimensions.nPeriods := Nat.div_lt_of_lt_mul (by rwa [Nat.mul_comm] at hpl)
  obtain ⟨k, hk⟩ := hlast _ ((isPeriod_iff hpm _).mpr ht)
  obtain ⟨s, hs1, hs2, _, _⟩ := id hk
  have hku := (List.getElem?_eq_some_iff.mp hs1).1
  have e := hrow _ k outs[k] ⟨p % nObs, Nat.mod_lt _ hpos⟩ hk (List.getElem?_eq_getElem (by omega))
  dsimp only at e
  rw [Nat.mul_comm, Nat.div_add_mod, hp] at e
  have e := Option.some.inj e
  have hpi : (⟨p % nObs, Nat.mod_lt _ hpos⟩ : Fin nObs) = i := Fin.ext (by rw [← hid, e])
  rw [hpi] at e
  have hTk : s.period ≤ T := by
    rw [hs2]
    rw [e] at hT
    exact hT
  have hsel := hs k s hs1 hTk
  rw [List.getElem?_eq_getElem (by omega), List.getElem?_eq_getElem (by omega)] at hsel
  have hsel := Option.some.inj hsel
  have e1 : outs[k].states i = outs'[k].states i' := congrFun (congrArg StepOut.states hsel) 0
  have e2 : outs[k].logWeights i = outs'[k].logWeights i' := congrFun (congrArg StepOut.logWeights hsel) 0
  have e' := hrow' _ k outs'[k] i' hk (List.getElem?_eq_getElem (by omega))
  have ev := congrArg FilteredRow.values e
  have ep := congrArg FilteredRow.period e
  dsimp only at ev ep
  rw [e1, e2] at ev
  refine ⟨fun col => if col = "id" then (i'.val : ℝ) else if col = "period" then (row.period : ℝ) else (List.ofFn row.values).getD (factors.idxOf col) 0, List.mem_map.mpr ⟨_, List.mem_of_getElem? e', ?_⟩, ?_, ?_⟩
  · rw [← ev, ← ep]
  · exact if_pos rfl
  · intro c hc
    simp only [if_neg hc]

theorem anchor_upTo {df df' out out' : StatesFrame ℝ} {factors : List String} (hf : "id" ∉ factors) {scaling constants : List (List ℝ)} (h : anchorStates df factors scaling constants = .ok out)
    (h' : anchorStates df' factors scaling constants = .ok out') {T i i' : ℕ} (hs : SameStatesUpTo T df df' i i') : SameStatesUpTo T out out' i i' := by
  unfold anchorStates at h h'
  simp only [py_bind_ok] at h h'
  obtain ⟨sel, hsel, h⟩ := h
  obtain ⟨sel', hsel', h'⟩ := h'
  split at h
  case isFalse => cases h
  split at h'
  case isFalse => cases h'
  simp only [py_bind_ok, py_pure_ok] at h h'
  obtain ⟨rows, hrows, rfl⟩ := h
  obtain ⟨rows', hrows', rfl⟩ := h'
  have hsel := (mapM_ok_iff _ _ _).mp hsel
  have hsel' := (mapM_ok_iff _ _ _).mp hsel'
  have hrows := (mapM_ok_iff _ _ _).mp hrows
  have hrows' := (mapM_ok_iff _ _ _).mp hrows'
  intro t cells hmem hT hid
  obtain ⟨k, hk⟩ := List.getElem?_of_mem hmem
  obtain ⟨⟨r, s, c⟩, hx, hxb⟩ := forall₂_getElem?_right hrows hk
  simp only [py_bind_ok, py_pure_ok, Prod.mk.injEq] at hxb
  obtain ⟨new, hnew, rfl, rfl⟩ := hxb
  obtain ⟨r0, hr0, hr0b⟩ := forall₂_getElem?_right hsel hx
  simp only [py_bind_ok, py_pure_ok, Prod.mk.injEq] at hr0b
  obtain ⟨s0, hs0, c0, hc0, rfl, rfl, rfl⟩ := hr0b
  have hnewf := (mapM_ok_iff _ _ _).mp hnew
  have hfst : new.map Prod.fst = factors := by
    have e : new.map Prod.fst = factors.zipIdx.map Prod.fst := by
      clear hid hmem hk hnew
      generalize factors.zipIdx = zs at hnewf
      induction hnewf with
      | nil => rfl
      | cons hab _ ih =>
        simp only [py_bind_ok, py_pure_ok] at hab
        obtain ⟨_, _, _, _, rfl⟩ := hab
        rw [List.map_cons, List.map_cons, ih]
    rw [e, List.zipIdx_map_fst]
  have hnid : Dict.get? new "id" = none := dict_get?_none (by rw [hfst]; exact hf)
  dsimp only at hid
  rw [hnid, Option.getD_none] at hid
  obtain ⟨cells', hm', hid', hc'⟩ := hs r0.1 r0.2 (List.mem_of_getElem? hr0) hT hid
  obtain ⟨y, hy1, hy2⟩ := forall₂_mem hsel' hm'
  simp only [py_bind_ok, py_pure_ok] at hy2
  obtain ⟨s1, hs1, c1, hc1, rfl⟩ := hy2
  obtain rfl := Except.ok.inj (hs0.symm.trans hs1)
  obtain rfl := Except.ok.inj (hc0.symm.trans hc1)
  obtain ⟨z, hz1, hz2⟩ := forall₂_mem hrows' hy1
  simp only [py_bind_ok, py_pure_ok] at hz2
  obtain ⟨new', hnew', rfl⟩ := hz2
  have : new = new' := by
    refine Except.ok.inj (Eq.trans ?_ hnew')
    have hne : ∀ z ∈ factors.zipIdx, z.1 ≠ "id" := by
      intro z hz e
      have := List.mem_map_of_mem (f := Prod.fst) hz
      rw [List.zipIdx_map_fst, e] at this
      exact hf this
    refine ((mapM_ok_iff _ _ _).mpr (((List.forall₂_and_left _ _).mpr ⟨hne, hnewf⟩).imp (fun z y hzy => ?_))).symm
    rw [← hzy.2]
    simp only [hc' _ hzy.1]
  subst this
  refine ⟨_, hz1, ?_, ?_⟩
  · simp only [hnid, Option.getD_none, hid']
  · intro c hc
    simp only [hc' c hc]

/-- **C132**: the filtered states of the periods up to `T` are the same as well, both anchored and not anchored. As in C51, each period of the model needs a measurement that is not an anchoring outcome. -/
theorem C132_filtered_states {m : ModelDict ℝ} (hd : DictKeys m) (hclash : NoNameClash m) (hid : ¬ IsLatent m "id") (hmeas : ∀ t, IsPeriod m t → ∃ v f, Measures m t v f ∧ ¬ ∃ g, Anchors m v g) {df df' : LongData ℝ} (hi : IndexOk df) (hi' : IndexOk df') (hu : NoUnusedPeriods df) (hu' : NoUnusedPeriods df')
    {ids pers ids' pers' : List Int} (hids : IdsOf df ids) (hpers : PeriodsOf df pers) (hids' : IdsOf df' ids') (hpers' : PeriodsOf df' pers') {qr : QR} {custom : String → CustomFn} {nan : ℝ}
    {params : List (Loc × ℝ)} {out out' : FilteredStates} (h : getFilteredStates qr custom nan m df params = .ok out) (h' : getFilteredStates qr custom nan m df' params = .ok out') {T i i' : ℕ}
    (hs : SameHistoryUpTo m T df ids pers i df' ids' pers' i') : SameStatesUpTo T out.unanchored.states out'.unanchored.states i i' ∧ SameStatesUpTo T out.anchored.states out'.anchored.states i i' := by
  unfold getFilteredStates at h h'
  simp only [py_bind_ok, py_pure_ok] at h h'
  obtain ⟨inputs, hin, par, hpar, d, hdeb, pm, hpm, anc, hanc, rfl⟩ := h
  obtain ⟨inputs', hin', par', hpar', d', hdeb', pm', hpm', anc', hanc', rfl⟩ := h'
  obtain rfl := Except.ok.inj (hpm.symm.trans hpm')
  have hpr : inputs'.template = inputs.template ∧ inputs'.model = inputs.model ∧ inputs.model = pm := by
    unfold getMaximizationInputs at hin hin'
    simp only [py_bind_ok, py_pure_ok] at hin hin'
    obtain ⟨pm1, hpm1, _, _, _, _, _, _, rfl⟩ := hin
    obtain ⟨pm2, hpm2, _, _, _, _, _, _, rfl⟩ := hin'
    obtain rfl := Except.ok.inj (hpm.symm.trans hpm1)
    obtain rfl := Except.ok.inj (hpm.symm.trans hpm2)
    exact ⟨rfl, rfl, rfl⟩
  rw [hpr.1] at hpar'
  obtain rfl := Except.ok.inj (hpar.symm.trans hpar')
  unfold MaximizationInputs.debugLoglike at hdeb hdeb'
  rw [hpr.2.1, hpr.2.2] at hdeb'
  rw [hpr.2.2] at hdeb
  obtain ⟨pm', r, r', hpm2, _, _, h1, h2, hl, hl', _, _, h5⟩ := evaluate_upTo hd hclash hi hi' hu hu' hids hpers hids' hpers' hin hin' hdeb hdeb'
  obtain rfl := Except.ok.inj (hpm.symm.trans hpm2)
  obtain ⟨_, hr1, hf1, _⟩ := processDebugData_ok h1
  obtain ⟨_, hr2, hf2, _⟩ := processDebugData_ok h2
  have key := filtered_upTo hpm hmeas hl hl' hr1 hr2 (h5 T ⟨i, hs.1⟩ ⟨i', hs.2.1⟩ hs) pm.labels.latentFactors
  rw [← hf1, ← hf2] at key
  refine ⟨key, ?_⟩
  unfold anchorStatesDf at hanc hanc'
  simp only [py_bind_ok] at hanc hanc'
  obtain ⟨pm1, q1, vals, q2, parsed, q3, q4⟩ := hanc
  obtain ⟨pm2, q1', vals', q2', parsed', q3', q4'⟩ := hanc'
  obtain rfl := Except.ok.inj (hpm.symm.trans q1)
  obtain rfl := Except.ok.inj (hpm.symm.trans q1')
  obtain rfl := Except.ok.inj (q2.symm.trans q2')
  obtain rfl := Except.ok.inj (q3.symm.trans q3')
  refine anchor_upTo ?_ q4 q4' key
  rw [(labels_of_ok hpm).1]
  intro hmem
  obtain ⟨fs, hfs, e⟩ := List.mem_map.mp hmem
  exact hid ⟨fs.2, by rw [← e]; exact hfs⟩

end Skill
