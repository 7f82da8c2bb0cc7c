import Verif.Lemmas.Edits3
/- C115 - C118: the likelihood of models that have been changed with the functions in utilities.py. -/
namespace Skill
open Spec

/-! ### fewer periods -/

theorem edit_reduceNPeriods (m : ModelDict ℝ) (n : ℕ) : EditOf m (reduceNPeriods m n) where
  factors := by
    show (m.factors.map _).map _ = _
    rw [List.map_map]
    rfl
  observed := rfl
  anchoring := rfl
  options := rfl
  controls := List.Sublist.refl _
  measures := (smaller_reduceNPeriods m n).measures
  registered := fun f spec fn ps hs he => by
    obtain ⟨s, hs', rfl⟩ := mem_reduceNPeriods.mp hs
    exact ⟨s, hs', he⟩

/-- A dataset for a model is accepted for the model with fewer periods. -/
theorem C115_data {m : ModelDict ℝ} {n : ℕ} {df : LongData ℝ} {ids pers : List Int} (h : DataOk m df ids pers) : DataOk (reduceNPeriods m n) df ids pers :=
  (edit_reduceNPeriods m n).dataOk (smaller_reduceNPeriods m n).periods h

theorem transitionFns_congr (custom : String → CustomFn) {m m' : ModelDict ℝ} (h : m'.factors.map (fun fs => (fs.1, fs.2.transition)) = m.factors.map (fun fs => (fs.1, fs.2.transition))) : transitionFns custom m' = transitionFns custom m := by
  have := congrArg (List.map (fun x : String × TransSpec => (x.1, transFnOf (custom x.1) x.2))) h
  rwa [List.map_map, List.map_map] at this

/-- Models with the same transition functions. -/
theorem EditOf.sameTransition {m m' : ModelDict ℝ} (he : EditOf m m') (ht : m'.factors.map (fun fs => (fs.1, fs.2.transition)) = m.factors.map (fun fs => (fs.1, fs.2.transition))) {pm pm' : Processed ℝ}
    (hpm : processModel m = .ok pm) (hpm' : processModel m' = .ok pm') (custom : String → CustomFn) (val : Loc → ℝ) (t : ℕ) (s : List ℝ) :
    transitionFunction (allFactors m) (transitionFns custom m) (transParams pm val t) s = transitionFunction (allFactors m') (transitionFns custom m') (transParams pm' val t) s := by
  rw [transitionFns_congr custom ht, he.allFactors_eq]
  unfold transParams
  rw [he.transitionInfo ht hpm hpm']

theorem enumerates_updateInfo {m : ModelDict ℝ} {pm : Processed ℝ} (hpm : processModel m = .ok pm) : Enumerates m (pm.updateInfo.map (fun r => (r.period, r.var))) := by
  obtain ⟨h1, h2, _⟩ := C01_update_info_exact hpm
  exact ⟨h1, fun t v => by rw [← h2]; simp [List.mem_map]⟩

theorem accepted_of_inputs {m : ModelDict ℝ} {df : LongData ℝ} {inputs : MaximizationInputs} (h : getMaximizationInputs m df = .ok inputs) : ∃ pm, processModel m = .ok pm := by
  unfold getMaximizationInputs at h
  simp only [py_bind_ok] at h
  obtain ⟨pm, hpm, _⟩ := h
  exact ⟨pm, hpm⟩

/-- **C115**: the contributions to the likelihood of a model with fewer periods (from reduce_n_periods) are the contributions of these periods to the likelihood of the original model. The parameters that both models have
have the same values. -/
theorem C115_fewer_periods {qr : QR} {m : ModelDict ℝ} (hg : GoodNames m) (hc : CleanAnchoring m) (ho : SameOrder m) (hclash : NoNameClash m) {N n : ℕ} (hN : IsNPeriods m N) (h2 : 2 ≤ n) (hnN : n ≤ N)
    {df : LongData ℝ} (hi : IndexOk df) (hu : NoUnusedPeriods df) {ids pers : List Int} (hids : IdsOf df ids) (hpers : PeriodsOf df pers) {inputs inputs' : MaximizationInputs} (hin : getMaximizationInputs m df = .ok inputs)
    (hin' : getMaximizationInputs (reduceNPeriods m n) df = .ok inputs') {custom : String → CustomFn} {nan : ℝ} {val : Loc → ℝ} {params params' : List (Loc × ℝ)} (hn : (params.map Prod.fst).Nodup)
    (hval : ∀ l x, (l, x) ∈ params → x = val l) (hn' : (params'.map Prod.fst).Nodup) (hval' : ∀ l x, (l, x) ∈ params' → x = val l) {out out' : LoglikeOutput} (hout : inputs.loglike qr custom nan m params = .ok out)
    (hout' : inputs'.loglike qr custom nan (reduceNPeriods m n) params' = .ok out') :
    ∃ updates, Enumerates m updates ∧ updates.Pairwise (fun a b => a.1 ≤ b.1) ∧ out.allContributions.length = updates.length ∧
      out'.allContributions = out.allContributions.take (updates.filter (fun u => decide (u.1 < n))).length ∧
      ∀ o, m.estimationOptions = some o → ∀ i < ids.length, out.contributions.getD i 0 = out'.contributions.getD i 0 +
        ((out.allContributions.drop (updates.filter (fun u => decide (u.1 < n))).length).map (fun row => clippedContribution o (row.getD i 0))).sum := by
  obtain ⟨pm, hpm⟩ := accepted_of_inputs hin
  obtain ⟨pm', hpm'⟩ := accepted_of_inputs hin'
  have he := edit_reduceNPeriods m n
  have hNN := IsNPeriods.unique hN (processModel_nPeriods hpm)
  obtain ⟨hper', hupd⟩ := updateInfo_reduce hpm (hNN ▸ hnN) hpm'
  obtain ⟨nT, hT⟩ : ∃ nT, pm.dimensions.nPeriods = nT + 2 := ⟨pm.dimensions.nPeriods - 2, by omega⟩
  obtain ⟨nT', hT'⟩ : ∃ nT, pm'.dimensions.nPeriods = nT + 2 := ⟨pm'.dimensions.nPeriods - 2, by omega⟩
  obtain ⟨_, _, hsort, _⟩ := C01_update_info_exact hpm
  obtain ⟨rest, hrest⟩ := filter_sorted_prefix hsort n
  rw [← hupd] at hrest
  have hP : IsPeriod m 1 := (isPeriod_iff hpm 1).mpr (by omega)
  have hP' : IsPeriod (reduceNPeriods m n) 1 := (isPeriod_iff hpm' 1).mpr (by omega)
  obtain ⟨l1, l2, l3, l4⟩ := loglike_shape hpm hg hc ho hclash hP hi hu hids hpers hn hval hin hout
  obtain ⟨l1', l2', l3', l4'⟩ := loglike_shape hpm' (he.goodNames hg) (he.cleanAnchoring hc) (he.sameOrder ho) (he.noNameClash hclash) hP' hi hu hids hpers hn' hval' hin' hout'
  have hcount : ((pm.updateInfo.map (fun r => (r.period, r.var))).filter (fun u => decide (u.1 < n))).length = pm'.updateInfo.length := by
    rw [List.filter_map, List.length_map, hupd]
    rfl
  have htake : out'.allContributions = out.allContributions.take pm'.updateInfo.length := by
    refine table_ext l2' (fun row hrow => l2 row (List.mem_of_mem_take hrow)) ?_ (fun i hil => ?_)
    · rw [l1', List.length_take, l1, hrest, List.length_append]
      omega
    · have htr : m.factors.map (fun fs => (fs.1, fs.2.transition)) = (reduceNPeriods m n).factors.map (fun fs => (fs.1, fs.2.transition)) := by
        show _ = (m.factors.map _).map _
        rw [List.map_map]
        rfl
      have hmeas : ∀ t < nT' + 2, ∀ v, IsUpdate (reduceNPeriods m n) t v ↔ IsUpdate m t v := fun t ht v => by
        rw [← (C01_update_info_exact hpm').2.1, ← (C01_update_info_exact hpm).2.1, hupd]
        constructor
        · rintro ⟨r, hr, h3, h4⟩
          exact ⟨r, (List.mem_filter.mp hr).1, h3, h4⟩
        · rintro ⟨r, hr, h3, h4⟩
          exact ⟨r, List.mem_filter.mpr ⟨hr, by simp only [decide_eq_true_eq]; omega⟩, h3, h4⟩
      obtain ⟨K, F, D, _, hr, hr'⟩ := edited_run qr he hpm hpm' hg hc ho hclash hT hT' (by omega) (fun r hr => by rw [hupd] at hr; exact (List.mem_filter.mp hr).1) custom nan hi hu hids hpers hn hval hn' hval' hin hin' hout hout' hil
        (fun t _ s _ => he.sameTransition htr.symm hpm hpm' custom val t s)
        (fun t ht r _ => by
          unfold IncompleteControls
          simp only [he.valueIs, hmeas t ht]
          rfl)
        (fun t v c _ h1 h2 => absurd h1 h2)
      have hhead : ∃ p, (∀ r ∈ pm.updateInfo.head?, r.period ≠ p + 1) ∧ ∀ r ∈ pm'.updateInfo.head?, r.period ≠ p + 1 := by
        cases hl : pm'.updateInfo with
        | nil =>
          cases hl2 : pm.updateInfo with
          | nil => exact ⟨0, by simp, by simp⟩
          | cons a as => exact ⟨a.period, by simp, by simp⟩
        | cons a as =>
          rw [hl, List.cons_append] at hrest
          rw [hrest]
          exact ⟨a.period, by simp, by simp⟩
      obtain ⟨p, hp, hp'⟩ := hhead
      rw [(hr' p hp').1, List.map_take, (hr p hp).1]
      unfold nameRun
      rw [← List.map_take]
      congr 1
      obtain ⟨rest2, hrun⟩ := lazyRun_append (per := URow.period) (pred := namePred qr custom m pm val nT (nLat m) (nObsd m) (nCon m) pm.dimensions.nMixtures K F)
        (upd := nameUpd qr custom m pm val nT (nLat m) (nObsd m) (nCon m) pm.dimensions.nMixtures K F D) p (nameCarry m val pm.dimensions.nMixtures (nLat m)) pm'.updateInfo rest
      conv_rhs => rw [hrest]
      rw [hrun, List.take_left' (lazyRun_length ..)]
  refine ⟨pm.updateInfo.map (fun r => (r.period, r.var)), enumerates_updateInfo hpm, List.pairwise_map.mpr hsort, by rw [l1, List.length_map], by rw [hcount]; exact htake, fun o hopt i hil => ?_⟩
  rw [hcount, l4 o hopt i hil, l4' o hopt i hil, htake, ← List.sum_append, ← List.map_append, List.take_append_drop]

/-! ### fewer measurements -/

theorem edit_removeMeasurements (ms : List String) (m : ModelDict ℝ) : EditOf m (removeMeasurements ms m) where
  factors := by
    show (m.factors.map _).map _ = _
    rw [List.map_map]
    rfl
  observed := rfl
  anchoring := rfl
  options := rfl
  controls := List.Sublist.refl _
  measures := (smaller_removeMeasurements ms m).measures
  registered := fun f spec fn ps hs he => by
    obtain ⟨s, hs', rfl⟩ := mem_removeMeasurements.mp hs
    exact ⟨s, hs', he⟩

/-- A dataset for a model is accepted for the model with fewer measurements. -/
theorem C116_data {m : ModelDict ℝ} {ms : List String} {df : LongData ℝ} {ids pers : List Int} (h : DataOk m df ids pers) : DataOk (removeMeasurements ms m) df ids pers :=
  (edit_removeMeasurements ms m).dataOk (smaller_removeMeasurements ms m).periods h

theorem lazyRun_get {A C O : Type} {per : A → ℕ} {pred : ℕ → C → C} {upd : A → C → C × O} {p : ℕ} {c : C} {as : List A} {k : ℕ} {a : A} {o : O} (ha : as[k]? = some a) (ho : (lazyRun per pred upd p c as)[k]? = some o) :
    ∃ c', o = (upd a c').2 := by
  induction as generalizing p c k with
  | nil => cases ha
  | cons b as ih =>
    rw [lazyRun_cons] at ho
    cases k with
    | zero =>
      cases ha
      cases ho
      exact ⟨_, rfl⟩
    | succ k => exact ih ha ho

theorem sum_keptOuts {A O : Type} {keep : A → Bool} {as : List A} {os : List O} (hl : os.length = as.length) (f : O → ℝ) (z : ℝ) (h : ∀ (k : ℕ) a o, as[k]? = some a → os[k]? = some o → keep a = false → f o = z) :
    (os.map f).sum = ((keptOuts keep as os).map f).sum + ((as.length : ℝ) - (as.filter keep).length) * z := by
  induction as generalizing os with
  | nil =>
    rw [List.length_nil, List.length_eq_zero_iff] at hl
    subst hl
    simp [keptOuts]
  | cons a as ih =>
    cases os with
    | nil => cases hl
    | cons o os =>
      have ih := ih (os := os) (by simpa using hl) (fun k b o' hb ho' hk => h (k + 1) b o' hb ho' hk)
      rw [keptOuts, List.map_cons, List.sum_cons, ih]
      cases ha : keep a with
      | true =>
        rw [if_pos rfl, List.filter_cons_of_pos ha, List.map_cons, List.sum_cons, List.length_cons, List.length_cons]
        push_cast
        ring
      | false =>
        rw [if_neg (by simp), List.filter_cons_of_neg (by rw [ha]; simp), List.length_cons, h 0 a o rfl rfl ha]
        push_cast
        ring

/-- An update with a missing measurement does nothing. -/
theorem nameUpd_none (qr : QR) (custom : String → CustomFn) (m : ModelDict ℝ) (pm : Processed ℝ) (val : Loc → ℝ) (nT n nO nC nMix : ℕ) (K F : ℕ → String → ℝ) {D : URow → Option ℝ} {r : URow} (h : D r = none)
    (c : Carry 1 nMix n) : (nameUpd qr custom m pm val nT n nO nC nMix K F D r c).1 = c ∧ (nameUpd qr custom m pm val nT n nO nC nMix K F D r c).2.loglikes 0 = 0 := by
  unfold nameUpd updOf
  dsimp only
  set a : LoopArgs 1 n nC := argOf (nT + 1) (nameRow m val n nC r) (fun _ => D r) false with ha
  have hm : ∀ i, a.measurements i = none := fun _ => h
  obtain ⟨e1, e2⟩ := scanUpdate_eq qr (nameFixed custom m pm val nT n nO nC K F) c a
  have hall := fun i => C30_missing_changes_nothing (states := c.states) (upperChols := c.upperChols) (loadings := a.loadings) (controlParams := a.controlParams) (measSd := a.measSd) (measurements := a.measurements)
    (controls := (nameFixed custom m pm val nT n nO nC K F).controls (jaxIndex (nT + 1) a.period)) (logWeights := c.logWeights) qr i (hm i)
  rw [← e1] at hall
  have h1 : (scanUpdate qr (nameFixed custom m pm val nT n nO nC K F) c a).2.states = c.states := funext (fun i => (hall i).1)
  have h2 : (scanUpdate qr (nameFixed custom m pm val nT n nO nC K F) c a).2.upperChols = c.upperChols := funext (fun i => (hall i).2.1)
  have h3 : (scanUpdate qr (nameFixed custom m pm val nT n nO nC K F) c a).2.logWeights = c.logWeights := funext (fun i => (hall i).2.2.1)
  refine ⟨?_, (hall 0).2.2.2.1⟩
  rw [e2, h1, h2, h3]
  split <;> rfl

/-- **C116**: removing measurements (with remove_measurements) is the same as declaring them missing: the contributions of an individual for whom the removed measurements are missing anyway stay the same, at each remaining
update. The contribution of the individual to the log likelihood only changes by the clipped value of zero for each removed update (which is zero without clipping). Each period keeps at least one update. -/
theorem C116_fewer_measurements {qr : QR} {m : ModelDict ℝ} (hg : GoodNames m) (hc : CleanAnchoring m) (ho : SameOrder m) (hclash : NoNameClash m) (hper : IsPeriod m 1) {ms : List String}
    (hall : ∀ t, IsPeriod m t → ∃ v, IsUpdate (removeMeasurements ms m) t v)
    {df : LongData ℝ} (hi : IndexOk df) (hu : NoUnusedPeriods df) {ids pers : List Int} (hids : IdsOf df ids) (hpers : PeriodsOf df pers) {inputs inputs' : MaximizationInputs} (hin : getMaximizationInputs m df = .ok inputs)
    (hin' : getMaximizationInputs (removeMeasurements ms m) df = .ok inputs') {custom : String → CustomFn} {nan : ℝ} {val : Loc → ℝ} {params params' : List (Loc × ℝ)} (hn : (params.map Prod.fst).Nodup)
    (hval : ∀ l x, (l, x) ∈ params → x = val l) (hn' : (params'.map Prod.fst).Nodup) (hval' : ∀ l x, (l, x) ∈ params' → x = val l) {out out' : LoglikeOutput} (hout : inputs.loglike qr custom nan m params = .ok out)
    (hout' : inputs'.loglike qr custom nan (removeMeasurements ms m) params' = .ok out') :
    ∃ updates updates', Enumerates m updates ∧ Enumerates (removeMeasurements ms m) updates' ∧ out.allContributions.length = updates.length ∧ out'.allContributions.length = updates'.length ∧
      ∀ i < ids.length, (∀ t v, IsUpdate m t v → ¬IsUpdate (removeMeasurements ms m) t v → HasValue m df ids pers i t v none) →
        (∀ k k' u, updates[k]? = some u → updates'[k']? = some u → ∃ x, entry2 out.allContributions k i = some x ∧ entry2 out'.allContributions k' i = some x) ∧
        ∀ o, m.estimationOptions = some o → out.contributions.getD i 0 = out'.contributions.getD i 0 + ((updates.length : ℝ) - updates'.length) * clippedContribution o 0 := by
  classical
  obtain ⟨pm, hpm⟩ := accepted_of_inputs hin
  obtain ⟨pm', hpm'⟩ := accepted_of_inputs hin'
  have he := edit_removeMeasurements ms m
  obtain ⟨hper', hupd⟩ := updateInfo_removeMeasurements hc hpm hpm'
  have h1 := (isPeriod_iff hpm 1).mp hper
  obtain ⟨nT, hT⟩ : ∃ nT, pm.dimensions.nPeriods = nT + 2 := ⟨pm.dimensions.nPeriods - 2, by omega⟩
  have hT' : pm'.dimensions.nPeriods = nT + 2 := by omega
  have hP' : ∀ t, IsPeriod (removeMeasurements ms m) t ↔ IsPeriod m t := fun t => by rw [isPeriod_iff hpm', isPeriod_iff hpm, hper']
  obtain ⟨l1, l2, l3, l4⟩ := loglike_shape hpm hg hc ho hclash hper hi hu hids hpers hn hval hin hout
  obtain ⟨l1', l2', l3', l4'⟩ := loglike_shape hpm' (he.goodNames hg) (he.cleanAnchoring hc) (he.sameOrder ho) (he.noNameClash hclash) ((hP' 1).mpr hper) hi hu hids hpers hn' hval' hin' hout'
  have hup := (C01_update_info_exact hpm).2.1
  have hup' := (C01_update_info_exact hpm').2.1
  have hsub : ∀ r ∈ pm'.updateInfo, r ∈ pm.updateInfo := fun r hr => by rw [hupd] at hr; exact (List.mem_filter.mp hr).1
  have hmore : ∀ t v, IsUpdate (removeMeasurements ms m) t v → IsUpdate m t v := fun t v h => by
    obtain ⟨r, hr, h3, h4⟩ := (hup' t v).mpr h
    exact (hup t v).mp ⟨r, hsub r hr, h3, h4⟩
  have hgap : Gapless URow.period 0 pm.updateInfo := gapless_updates hpm (fun t ht => by
    obtain ⟨v, hv⟩ := hall t ht
    exact ⟨v, hmore t v hv⟩)
  have hgap' : Gapless URow.period 0 pm'.updateInfo := gapless_updates hpm' (fun t ht => hall t ((hP' t).mp ht))
  refine ⟨pm.updateInfo.map (fun r => (r.period, r.var)), pm'.updateInfo.map (fun r => (r.period, r.var)), enumerates_updateInfo hpm, enumerates_updateInfo hpm', by rw [l1, List.length_map], by rw [l1', List.length_map],
    fun i hil hmiss => ?_⟩
  have hk := (accepted_dataOk hg.keys hclash hi hu hids hpers hin).keys
  have htr : (removeMeasurements ms m).factors.map (fun fs => (fs.1, fs.2.transition)) = m.factors.map (fun fs => (fs.1, fs.2.transition)) := by
    show (m.factors.map _).map _ = _
    rw [List.map_map]
    rfl
  obtain ⟨K, F, D, hD, hr, hr'⟩ := edited_run qr he hpm hpm' hg hc ho hclash hT hT' le_rfl hsub custom nan hi hu hids hpers hn hval hn' hval' hin hin' hout hout' hil
    (fun t _ s _ => he.sameTransition htr hpm hpm' custom val t s)
    (fun t ht r hrow => by
      unfold IncompleteControls
      simp only [he.valueIs]
      refine and_congr_right (fun _ => ⟨?_, ?_⟩)
      · rintro ⟨w, y, h2, h3⟩
        exact ⟨w, y, hmore t w h2, h3⟩
      · rintro ⟨w, y, h2, h3⟩
        refine ⟨w, y, by_contra (fun hno => ?_), h3⟩
        obtain ⟨_, r', hr', hv⟩ := hmiss t w h2 hno
        obtain rfl := rowOf_unique hk hrow hr'
        exact absurd (valueIs_determined hclash h3 hv) (by simp))
    (fun t v c _ h1 h2 => absurd h1 h2)
  have hzero : ∀ {pm : Processed ℝ} {m : ModelDict ℝ}, processModel m = .ok pm → (∀ t, IsPeriod m t → ∃ v, IsUpdate m t v) → ∀ r ∈ pm.updateInfo.head?, r.period ≠ 0 + 1 := by
    intro pm m hpm hall r hr hr1
    obtain ⟨_, hu2, hs, _⟩ := C01_update_info_exact hpm
    have hmem := List.mem_of_mem_head? hr
    have hrp := (isPeriod_iff hpm _).mp (isUpdate_period ((hu2 r.period r.var).mp ⟨r, hmem, rfl, rfl⟩))
    obtain ⟨v, hv⟩ := hall 0 ((isPeriod_iff hpm 0).mpr (by omega))
    obtain ⟨r', hr', h3, _⟩ := (hu2 0 v).mpr hv
    cases hl : pm.updateInfo with
    | nil => rw [hl] at hr'; cases hr'
    | cons a as =>
      rw [hl] at hr hr' hs
      cases hr
      rw [List.pairwise_cons] at hs
      rcases List.mem_cons.mp hr' with rfl | hr'
      · omega
      · have := hs.1 r' hr'
        omega
  have hc1 := (hr 0 (hzero hpm (fun t ht => by obtain ⟨v, hv⟩ := hall t ht; exact ⟨v, hmore t v hv⟩))).1
  have hc2 := (hr' 0 (hzero hpm' (fun t ht => hall t ((hP' t).mp ht)))).1
  have hDnone : ∀ r ∈ pm.updateInfo, decide (r.var ∈ ms → ∃ f, Anchors m r.var f) = false → D r = none := fun r hrm hno => by
    have hnot : ¬IsUpdate (removeMeasurements ms m) r.period r.var := fun h => by
      obtain ⟨r', hr', h3, h4⟩ := (hup' _ _).mpr h
      rw [hupd] at hr'
      have := (List.mem_filter.mp hr').2
      rw [h4, hno] at this
      cases this
    obtain ⟨_, r', hr', hv⟩ := hmiss r.period r.var ((hup _ _).mp ⟨r, hrm, rfl, rfl⟩) hnot
    obtain ⟨r'', v, h3, h4, h5⟩ := hD r hrm
    obtain rfl := rowOf_unique hk hr' h3
    obtain rfl := valueIs_determined hclash hv h4
    rcases h5 with ⟨_, h5⟩ | ⟨_, h5⟩ <;> exact h5
  set pred := namePred qr custom m pm val nT (nLat m) (nObsd m) (nCon m) pm.dimensions.nMixtures K F with hpred
  set upd := nameUpd qr custom m pm val nT (nLat m) (nObsd m) (nCon m) pm.dimensions.nMixtures K F D with hupdd
  set c0 := nameCarry m val pm.dimensions.nMixtures (nLat m) with hc0
  set keep : URow → Bool := fun r => decide (r.var ∈ ms → ∃ f, Anchors m r.var f) with hkeep
  have hfilter : keptOuts keep pm.updateInfo (lazyRun URow.period pred upd 0 c0 pm.updateInfo) = lazyRun URow.period pred upd 0 c0 pm'.updateInfo := by
    rw [hupd]
    rw [hupd] at hgap'
    exact lazyRun_filter (fun r hrm hno c => (nameUpd_none qr custom m pm val nT _ _ _ _ K F (hDnone r hrm hno) c).1) hgap hgap' (.inl ⟨rfl, rfl⟩)
  have hc1' : out.allContributions.map (fun row => row.getD i 0) = (lazyRun URow.period pred upd 0 c0 pm.updateInfo).map (fun o => o.loglikes 0) := hc1
  have hc2' : out'.allContributions.map (fun row => row.getD i 0) = (lazyRun URow.period pred upd 0 c0 pm'.updateInfo).map (fun o => o.loglikes 0) := hc2
  refine ⟨fun k k' u hu1 hu2 => ?_, fun o hopt => ?_⟩
  · rw [List.getElem?_map, Option.map_eq_some_iff] at hu1 hu2
    obtain ⟨r, hrk, hru⟩ := hu1
    obtain ⟨r', hrk', hru'⟩ := hu2
    have hmem' := List.mem_of_getElem? hrk'
    have hnd := (C01_update_info_exact hpm).1
    have hnd' := (C01_update_info_exact hpm').1
    obtain rfl : r = r' := List.inj_on_of_nodup_map hnd (List.mem_of_getElem? hrk) (hsub _ hmem') (hru.trans hru'.symm)
    have hkr : keep r = true := by rw [hupd] at hmem'; exact (List.mem_filter.mp hmem').2
    have hklt : k < (lazyRun URow.period pred upd 0 c0 pm.updateInfo).length := by rw [lazyRun_length]; exact (List.getElem?_eq_some_iff.mp hrk).1
    obtain ⟨g1, g2⟩ := keptOuts_get hrk (List.getElem?_eq_getElem hklt) hkr
    have hkk : k' = ((pm.updateInfo.take k).filter keep).length := by
      rw [← hupd] at g1
      obtain ⟨h3, h4⟩ := List.getElem?_eq_some_iff.mp hrk'
      obtain ⟨h5, h6⟩ := List.getElem?_eq_some_iff.mp g1
      exact (List.Nodup.of_map _ hnd').getElem_inj_iff.mp (h4.trans h6.symm)
    rw [hfilter, ← hkk] at g2
    refine ⟨((lazyRun URow.period pred upd 0 c0 pm.updateInfo)[k]).loglikes 0, ?_, ?_⟩
    · rw [entry2_column l2 hil, hc1', List.getElem?_map, List.getElem?_eq_getElem hklt]
      rfl
    · rw [entry2_column l2' hil, hc2', List.getElem?_map, g2]
      rfl
  · rw [l4 o hopt i hil, l4' o hopt i hil, List.length_map, List.length_map]
    have e1 : out.allContributions.map (fun row => clippedContribution o (row.getD i 0)) = (lazyRun URow.period pred upd 0 c0 pm.updateInfo).map (fun x => clippedContribution o (x.loglikes 0)) := by
      have := congrArg (List.map (clippedContribution o)) hc1'
      rwa [List.map_map, List.map_map] at this
    have e2 : out'.allContributions.map (fun row => clippedContribution o (row.getD i 0)) = (lazyRun URow.period pred upd 0 c0 pm'.updateInfo).map (fun x => clippedContribution o (x.loglikes 0)) := by
      have := congrArg (List.map (clippedContribution o)) hc2'
      rwa [List.map_map, List.map_map] at this
    rw [e1, e2, sum_keptOuts (keep := keep) (as := pm.updateInfo) (lazyRun_length ..) _ (clippedContribution o 0), hfilter]
    · rw [← hupd]
    · intro k r x hrk hx hno
      obtain ⟨c', rfl⟩ := lazyRun_get hrk hx
      rw [(nameUpd_none qr custom m pm val nT _ _ _ _ K F (hDnone r (List.mem_of_getElem? hrk) hno) c').2]

end Skill
