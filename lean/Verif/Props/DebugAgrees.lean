import Verif.Props.FilteredStates
import Verif.Props.Contributions
/-
C129: debug_loglike and loglike agree.
-/
namespace Skill
open Matrix Spec

/-- A result of the likelihood function belongs to the updates and clipping options of the model. -/
structure ResultFor (pm : Processed ℝ) {nObs nMix n : ℕ} (r : LoglikeResult nObs nMix n) : Prop where
  outs : r.outs.length = pm.updateInfo.length
  all : r.allContributions = r.outs.map (fun o => o.loglikes)
  contributions : ∀ i, r.contributions i = (r.outs.map (fun o => softClipping (o.loglikes i) (clipOptions pm.estimationOptions).lower (clipOptions pm.estimationOptions).upper
    (clipOptions pm.estimationOptions).lowerHardness (clipOptions pm.estimationOptions).upperHardness)).sum
  value : r.value = ∑ i, r.contributions i

/-- What the callers do with the result of the likelihood function does not change the result. -/
theorem evaluate_factor (inputs : MaximizationInputs) (qr : QR) (custom : String → CustomFn) (nan : ℝ) (m : ModelDict ℝ) (params : List (Loc × ℝ)) :
    (∃ e, ∀ {γ : Type} (post : (nObs nMix n : ℕ) → LoglikeResult nObs nMix n → Py γ), inputs.evaluate post qr custom nan m params = .error e) ∨
    ∃ nObs nMix n, ∃ r : LoglikeResult nObs nMix n, ResultFor inputs.model r ∧
      ∀ {γ : Type} (post : (nObs nMix n : ℕ) → LoglikeResult nObs nMix n → Py γ), inputs.evaluate post qr custom nan m params = post nObs nMix n r := by
  unfold MaximizationInputs.evaluate
  rcases hvec : getJnpParamsVec params inputs.index with e | vec
  · exact Or.inl ⟨e, fun post => rfl⟩
  simp only [bind, Except.bind]
  unfold MaximizationInputs.evaluateVec
  simp only [bind, Except.bind]
  set nObs := (inputs.data.controls.headD []).length
  rcases hp : parseParams Real.log vec inputs.info inputs.model.dimensions inputs.model.labels nObs with e | p
  · exact Or.inl ⟨e, fun post => rfl⟩
  simp only
  unfold logLikelihoodJax
  simp only [bind, Except.bind]
  rcases hfixed : scanInputs nObs (inputs.model.dimensions.nPeriods - 2) inputs.model.dimensions.nLatentFactors inputs.model.dimensions.nObservedFactors inputs.model.dimensions.nControls nan inputs.model.labels.allFactors
      (transitionFns custom m) inputs.model.estimationOptions.sigmaPointsScale p inputs.data.controls inputs.data.observedFactors with e | fixed
  · exact Or.inl ⟨e, fun post => rfl⟩
  simp only
  rcases hcarry : initialCarry nObs inputs.model.dimensions.nMixtures inputs.model.dimensions.nLatentFactors p with e | carry
  · exact Or.inl ⟨e, fun post => rfl⟩
  simp only
  rcases hrows : loopParams inputs.model.dimensions.nLatentFactors inputs.model.dimensions.nControls inputs.model.updateInfo p with e | rows
  · exact Or.inl ⟨e, fun post => rfl⟩
  simp only
  rcases hdata : toArray2 inputs.model.updateInfo.length nObs (inputs.data.measurements.getD []) with e | data
  · exact Or.inl ⟨e, fun post => rfl⟩
  simp only
  rcases htrans : transitionFunction inputs.model.labels.allFactors (transitionFns custom m) (fixed.transition 0)
      (List.replicate (inputs.model.dimensions.nLatentFactors + inputs.model.dimensions.nObservedFactors) 0) with e | x
  · exact Or.inl ⟨e, fun post => rfl⟩
  simp only
  rcases hr : logLikelihood qr fixed (clipOptions inputs.model.estimationOptions) carry (loopArgs (inputs.model.dimensions.nPeriods - 2 + 1) rows (List.ofFn data)) with e | r
  · exact Or.inl ⟨e, fun post => rfl⟩
  refine Or.inr ⟨_, _, _, r, ?_, fun post => rfl⟩
  have hrl : rows.length = inputs.model.updateInfo.length := by
    unfold loopParams at hrows
    simp only [py_bind_ok, py_pure_ok] at hrows
    obtain ⟨_, _, _, _, _, _, rfl⟩ := hrows
    rw [List.length_ofFn]
  obtain ⟨h1, h2, h3, h4⟩ := logLikelihood_ok hr
  refine ⟨by rw [h1, outs_length, loopArgs_length _ _ (by rw [List.length_ofFn, hrl]), hrl], h2, h3, ?_⟩
  rw [h4, Finset.sum_congr rfl (fun i _ => h3 i)]
  generalize r.outs = os
  induction os with
  | nil => simp
  | cons o os ih => simp only [List.map_cons, List.sum_cons, ih, Finset.sum_add_distrib]

/-- The rows of one individual in all_contributions. -/
theorem contributions_filter {nObs : ℕ} {cs : List (Fin nObs → ℝ)} {u : List URow} (hlen : cs.length = u.length) {rows : List ContributionRow} (h : processAllContributions cs u = .ok rows) (i : Fin nObs) (g : ℝ → ℝ) :
    (rows.filter (fun r => r.id = i.val)).map (fun r => g r.contribution) = cs.map (fun c => g (c i)) := by
  unfold processAllContributions at h
  dsimp only at h
  split_ifs at h
  obtain rfl := Except.ok.inj h
  clear h
  induction cs generalizing u with
  | nil => simp
  | cons c cs ih =>
    cases u with
    | nil => simp at hlen
    | cons r u =>
      have ih := @ih u (by simpa using hlen)
      have h1 : (List.finRange nObs).filter (fun j => decide (j.val = i.val)) = [i] := by
        have : (fun j : Fin nObs => decide (j.val = i.val)) = fun j => j == i := by
          funext j
          rw [Bool.eq_iff_iff, decide_eq_true_iff, beq_iff_eq, Fin.ext_iff]
        rw [this, List.filter_beq, List.count_eq_one_of_mem (List.nodup_finRange nObs) (List.mem_finRange i)]
        rfl
      rw [List.zip_cons_cons, List.map_cons, List.flatten_cons, List.filter_append, List.map_append, List.filter_map, List.map_map]
      have h2 : ((fun r : ContributionRow => decide (r.id = i.val)) ∘ fun j : Fin nObs => ({ contribution := c j, measurement := r.var, period := r.period, id := j.val } : ContributionRow)) = fun j => decide (j.val = i.val) := rfl
      dsimp only
      rw [h2, h1]
      by_cases hu : u = []
      · subst hu
        have : cs = [] := by simpa using hlen
        subst this
        rfl
      · rw [ih (by
          intro h0
          have := congrArg List.length h0
          simp only [List.length_map, List.length_zip, List.length_nil] at this
          have hl : cs.length = u.length := by simpa using hlen
          rw [hl, Nat.min_self] at this
          exact hu (List.length_eq_zero_iff.mp this))]
        rfl

theorem lastMeasurement_iff {u : List URow} {t : Nat} : (∃ v, lastMeasurement u t = .ok v) ↔ ∃ r ∈ u, r.period = t ∧ r.purpose = .measurement := by
  constructor
  · rintro ⟨v, h⟩
    unfold lastMeasurement at h
    cases hl : (u.filter (fun r => decide (r.purpose = .measurement) && r.period == t)).getLast? with
    | none => rw [hl] at h; cases h
    | some r =>
      have := List.mem_of_getLast? hl
      simp only [List.mem_filter, Bool.and_eq_true, decide_eq_true_eq, beq_iff_eq] at this
      exact ⟨r, this.1, this.2.2, this.2.1⟩
  · intro h
    obtain ⟨r, _, _, _, h⟩ := lastMeasurement_ok h
    exact ⟨_, h⟩

/-- When debug_loglike can make a DataFrame of filtered states. -/
theorem createFilteredStates_ok_iff {nObs nMix n : ℕ} {os : List (StepOut nObs nMix n)} {u : List URow} (hlen : os.length = u.length) :
    (∃ rows, createFilteredStates os u = .ok rows) ↔ u ≠ [] ∧ ∀ r ∈ u, ∃ q ∈ u, q.period = r.period ∧ q.purpose = .measurement := by
  have hmemu : ∀ x ∈ u.zipIdx, x.1 ∈ u := fun x hx => by
    obtain ⟨y, j⟩ := x
    exact List.mem_of_getElem? (List.mem_zipIdx_iff_getElem?.mp hx)
  constructor
  · rintro ⟨rows, h⟩
    unfold createFilteredStates keepUpdates at h
    simp only [py_bind_ok, py_pure_ok] at h
    obtain ⟨keep, ⟨lists, hlists, rfl⟩, blocks, hblocks, hrows⟩ := h
    rw [mapM_ok_iff] at hlists
    constructor
    · rintro rfl
      cases hlists
      rw [mapM_ok_iff] at hblocks
      cases hblocks
      cases hrows
    · intro r hr
      obtain ⟨j, hj⟩ := List.getElem?_of_mem hr
      obtain ⟨y, _, hy⟩ := forall₂_mem hlists (List.mem_zipIdx_iff_getElem?.mpr hj : (r, j) ∈ u.zipIdx)
      simp only [py_bind_ok, py_pure_ok] at hy
      obtain ⟨v, hv, _⟩ := hy
      obtain ⟨q, hq, hqt, hqp⟩ := lastMeasurement_iff.mp ⟨v, hv⟩
      exact ⟨q, hq, hqt, hqp⟩
  · rintro ⟨hne, hall⟩
    obtain ⟨lists, hlists⟩ : ∃ lists, u.zipIdx.mapM (fun x => (do
        let last ← lastMeasurement u x.1.period
        pure (if x.1.var = last then [x.2] else []) : Py (List Nat))) = .ok lists := mapM_exists (fun x hx => by
      obtain ⟨q, hq, hqt, hqp⟩ := hall x.1 (hmemu x hx)
      obtain ⟨v, hv⟩ := lastMeasurement_iff.mpr ⟨q, hq, hqt, hqp⟩
      rw [hv]
      exact ⟨_, rfl⟩)
    have hlists' := (mapM_ok_iff _ _ _).mp hlists
    have hlt : ∀ k ∈ lists.flatten, k < os.length := by
      intro k hk
      obtain ⟨l, hl, hkl⟩ := List.mem_flatten.mp hk
      obtain ⟨x, hx, hxl⟩ := forall₂_mem_right hlists' hl
      simp only [py_bind_ok, py_pure_ok] at hxl
      obtain ⟨v, _, rfl⟩ := hxl
      split_ifs at hkl
      · obtain rfl := List.mem_singleton.mp hkl
        rw [hlen]
        exact (List.getElem?_eq_some_iff.mp (List.mem_zipIdx_iff_getElem?.mp hx)).1
      · cases hkl
    obtain ⟨blocks, hblocks⟩ : ∃ blocks, lists.flatten.zipIdx.mapM (fun x => (do
        let out ← pyIndex os x.1
        pure ((List.finRange nObs).map (fun i => ({ values := aggregate out.states out.logWeights i, period := x.2, id := i.val } : FilteredRow n))) : Py (List (FilteredRow n)))) = .ok blocks := mapM_exists (fun x hx => by
      obtain ⟨y, j⟩ := x
      have := hlt y (List.mem_of_getElem? (List.mem_zipIdx_iff_getElem?.mp hx))
      rw [show pyIndex os y = .ok os[y] from pyIndex_ok.mpr (List.getElem?_eq_getElem this)]
      exact ⟨_, rfl⟩)
    have hblocks' := (mapM_ok_iff _ _ _).mp hblocks
    have hbne : blocks ≠ [] := by
      rintro rfl
      cases hz : lists.flatten.zipIdx with
      | cons a as => rw [hz] at hblocks'; cases hblocks'
      | nil =>
        have hz' : lists.flatten = [] := by
          rw [← List.zipIdx_map_fst 0 lists.flatten, hz]
          rfl
        obtain ⟨r, hr⟩ := List.exists_mem_of_ne_nil _ hne
        obtain ⟨q, hq, hqt, hqp, hv⟩ := lastMeasurement_ok (hall r hr)
        obtain ⟨j, hj⟩ := List.getElem?_of_mem hq
        obtain ⟨l, hl, hql⟩ := forall₂_mem hlists' (List.mem_zipIdx_iff_getElem?.mpr hj : (q, j) ∈ u.zipIdx)
        simp only [py_bind_ok, py_pure_ok, hqt, hv, Except.ok.injEq, exists_eq_left', if_true] at hql
        have : j ∈ lists.flatten := List.mem_flatten.mpr ⟨l, hl, by rw [← hql]; simp⟩
        rw [hz'] at this
        cases this
    unfold createFilteredStates keepUpdates
    refine ⟨blocks.flatten, ?_⟩
    simp only [py_bind_ok, py_pure_ok]
    exact ⟨_, ⟨_, hlists, rfl⟩, _, hblocks, by rw [if_neg hbne]; rfl⟩

/-- **C129**: loglike and debug_loglike agree:

* if loglike raises an error, then debug_loglike raises the same error;
* if loglike succeeds, then debug_loglike succeeds if and only if there is an update and each period with an update has a measurement;
* if both succeed, they have the same value and the same contributions. The value is the sum of the contributions. The contribution of an individual is the sum of its clipped entries in all_contributions. -/
theorem C129_debug_agrees {m : ModelDict ℝ} {df : LongData ℝ} {inputs : MaximizationInputs} (hin : getMaximizationInputs m df = .ok inputs) (hc : CleanAnchoring m) (qr : QR) (custom : String → CustomFn) (nan : ℝ)
    (params : List (Loc × ℝ)) :
    (∀ e, inputs.loglike qr custom nan m params = .error e → inputs.debugLoglike qr custom nan m params = .error e) ∧
    ∀ out, inputs.loglike qr custom nan m params = .ok out →
      ((∃ d, inputs.debugLoglike qr custom nan m params = .ok d) ↔ (∃ t v, IsUpdate m t v) ∧ ∀ t v, IsUpdate m t v → ∃ w, IsMeasurement m t w) ∧
      ∀ d, inputs.debugLoglike qr custom nan m params = .ok d → d.value = out.value ∧ d.contributions = out.contributions ∧ d.value = d.contributions.sum ∧
        ∀ o, m.estimationOptions = some o → ∀ i < d.contributions.length,
          d.contributions[i]? = some (((d.allContributions.filter (fun r => r.id = i)).map (fun r => clippedContribution o r.contribution)).sum) := by
  have hin' := hin
  unfold getMaximizationInputs at hin'
  simp only [py_bind_ok, py_pure_ok] at hin'
  obtain ⟨pm, hpm, _, _, _, _, _, _, hinp⟩ := hin'
  have hmodel : inputs.model = pm := by rw [← hinp]
  obtain ⟨_, hu2, _⟩ := C01_update_info_exact hpm
  unfold MaximizationInputs.loglike MaximizationInputs.debugLoglike
  rcases evaluate_factor inputs qr custom nan m params with ⟨e, he⟩ | ⟨nObs, nMix, n, r, hres, hr⟩
  · refine ⟨fun e' h => ?_, fun out h => ?_⟩
    · rw [he] at h ⊢
      cases h
      rfl
    · rw [he] at h
      cases h
  · refine ⟨fun e h => ?_, fun out h => ?_⟩
    · rw [hr] at h
      cases h
    rw [hr] at h
    simp only [hr]
    obtain rfl := Except.ok.inj h
    rw [hmodel] at hres ⊢
    refine ⟨?_, fun d hd => ?_⟩
    · have hall : r.allContributions.length = pm.updateInfo.length := by rw [hres.all, List.length_map, hres.outs]
      have hiff : (pm.updateInfo ≠ [] ∧ ∀ a ∈ pm.updateInfo, ∃ q ∈ pm.updateInfo, q.period = a.period ∧ q.purpose = .measurement) ↔ (∃ t v, IsUpdate m t v) ∧ ∀ t v, IsUpdate m t v → ∃ w, IsMeasurement m t w := by
        refine and_congr ?_ ?_
        · constructor
          · intro hne
            obtain ⟨a, ha⟩ := List.exists_mem_of_ne_nil _ hne
            exact ⟨_, _, (hu2 a.period a.var).mp ⟨a, ha, rfl, rfl⟩⟩
          · rintro ⟨t, v, h⟩
            obtain ⟨a, ha, _⟩ := (hu2 t v).mpr h
            exact List.ne_nil_of_mem ha
        · constructor
          · intro hall t v h
            obtain ⟨a, ha, rfl, _⟩ := (hu2 t v).mpr h
            obtain ⟨q, hq, hqt, hqp⟩ := hall a ha
            exact ⟨q.var, hqt ▸ (purpose_iff hpm hc hq).mp hqp⟩
          · intro hall a ha
            obtain ⟨w, hw⟩ := hall a.period a.var ((hu2 _ _).mp ⟨a, ha, rfl, rfl⟩)
            obtain ⟨q, hq, hqt, hqv⟩ := (hu2 a.period w).mpr (Or.inl hw)
            exact ⟨q, hq, hqt, (purpose_iff hpm hc hq).mpr (by rw [hqt, hqv]; exact hw)⟩
      rw [← hiff, ← createFilteredStates_ok_iff hres.outs]
      constructor
      · rintro ⟨d, hd⟩
        unfold processDebugData at hd
        simp only [py_bind_ok, py_pure_ok] at hd
        obtain ⟨_, _, rows, hrows, _⟩ := hd
        exact ⟨rows, hrows⟩
      · rintro ⟨rows, hrows⟩
        obtain ⟨d, hd, _⟩ := processDebugData_succeeds ((createFilteredStates_ok_iff hres.outs).mp ⟨rows, hrows⟩).1 pm.labels.latentFactors hres.outs hall hrows
        exact ⟨d, hd⟩
    · have hcontr := processDebugData_contributions hd
      have hfields : d.value = r.value ∧ d.contributions = List.ofFn r.contributions := by
        unfold processDebugData at hd
        simp only [py_bind_ok, py_pure_ok] at hd
        obtain ⟨_, _, _, _, _, _, _, _, c, hc, rfl⟩ := hd
        exact ⟨rfl, rfl⟩
      refine ⟨hfields.1, hfields.2, by rw [hfields.1, hfields.2, List.sum_ofFn, hres.value], fun o ho i hi => ?_⟩
      have hi' : i < nObs := by rw [hfields.2, List.length_ofFn] at hi; exact hi
      have := contributions_filter (by rw [hres.all, List.length_map, hres.outs]) hcontr ⟨i, hi'⟩ (clippedContribution o)
      rw [hfields.2, List.getElem?_ofFn, dif_pos hi', hres.contributions]
      simp only at this
      rw [this, hres.all, List.map_map]
      congr 2
      exact List.map_congr_left (fun o' _ => softClipping_user hpm ho _)

end Skill
