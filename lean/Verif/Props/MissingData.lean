import Verif.Props.Edits
import Verif.Props.OwnData
/- C139: missing measurements contribute nothing to the likelihood, and neither do individuals without measurements. -/
namespace Skill
open Spec

/-- **C139**: if a measurement (or the outcome of an anchoring equation) is missing, then the contribution of the individual at this update is zero; the same is true if a control variable of the individual is missing in the period
of the update. -/
theorem C139_missing_measurement {qr : QR} {m : ModelDict ℝ} (hg : GoodNames m) (hc : CleanAnchoring m) (ho : SameOrder m) (hclash : NoNameClash m) (hper : IsPeriod m 1)
    {df : LongData ℝ} (hi : IndexOk df) (hu : NoUnusedPeriods df) {ids pers : List Int} (hids : IdsOf df ids) (hpers : PeriodsOf df pers) {inputs : MaximizationInputs} (hin : getMaximizationInputs m df = .ok inputs)
    {custom : String → CustomFn} {nan : ℝ} {params : List (Loc × ℝ)} (hn : (params.map Prod.fst).Nodup) {out : LoglikeOutput} (hout : inputs.loglike qr custom nan m params = .ok out) :
    ∃ updates, Enumerates m updates ∧ out.allContributions.length = updates.length ∧
      ∀ k t v, updates[k]? = some (t, v) → ∀ i < ids.length, (HasValue m df ids pers i t v none ∨ ∃ c ∈ m.controls.getD [], HasValue m df ids pers i t c none) → entry2 out.allContributions k i = some 0 := by
  obtain ⟨pm, hpm⟩ := accepted_of_inputs hin
  have h1 := (isPeriod_iff hpm 1).mp hper
  obtain ⟨nT, hT⟩ : ∃ nT, pm.dimensions.nPeriods = nT + 2 := ⟨pm.dimensions.nPeriods - 2, by omega⟩
  have hval : ∀ l x, (l, x) ∈ params → x = (fun l => (params.lookup l).getD 0) l := fun l x h => by
    dsimp only
    rw [lookup_of_mem hn h, Option.getD_some]
  obtain ⟨l1, l2, _, _⟩ := loglike_shape hpm hg hc ho hclash hper hi hu hids hpers hn hval hin hout
  have hk := (accepted_dataOk hg.keys hclash hi hu hids hpers hin).keys
  have hup := (C01_update_info_exact hpm).2.1
  refine ⟨_, enumerates_updateInfo hpm, by rw [l1, List.length_map], fun k t v hkv i hil hmiss => ?_⟩
  obtain ⟨K, F, D, _, _, hD, hrun⟩ := name_run qr hpm hg hc ho hclash hper hT custom nan hi hu hids hpers hn hval hin hout hil
  obtain ⟨p, hp⟩ : ∃ p, ∀ r ∈ pm.updateInfo.head?, r.period ≠ p + 1 := by
    cases pm.updateInfo.head? with
    | none => exact ⟨0, by simp⟩
    | some r => exact ⟨r.period, by rintro _ ⟨⟩; omega⟩
  have hrun := (hrun p hp).1
  rw [List.getElem?_map, Option.map_eq_some_iff] at hkv
  obtain ⟨r, hrk, hr⟩ := hkv
  obtain ⟨rfl, rfl⟩ := Prod.mk.inj hr
  have hmem := List.mem_of_getElem? hrk
  have hnone : D r = none := by
    obtain ⟨row, w, h3, h4, h5⟩ := hD r hmem
    rcases hmiss with ⟨_, row', h6, h7⟩ | ⟨c, hc, _, row', h6, h7⟩
    · obtain rfl := rowOf_unique hk h3 h6
      obtain rfl := valueIs_determined hclash h4 h7
      rcases h5 with ⟨_, h5⟩ | ⟨_, h5⟩ <;> exact h5
    · obtain rfl := rowOf_unique hk h3 h6
      rcases h5 with ⟨_, h5⟩ | ⟨hno, h5⟩
      · exact h5
      · cases w with
        | none => exact h5
        | some y => exact absurd ⟨⟨c, List.mem_cons_of_mem _ hc, h7⟩, r.var, y, (hup _ _).mp ⟨r, hmem, rfl, rfl⟩, h4⟩ hno
  rw [entry2_column l2 hil, hrun]
  unfold nameRun
  rw [List.getElem?_map]
  have hlt : k < (lazyRun URow.period (namePred qr custom m pm (fun l => (params.lookup l).getD 0) nT (nLat m) (nObsd m) (nCon m) pm.dimensions.nMixtures K F)
      (nameUpd qr custom m pm (fun l => (params.lookup l).getD 0) nT (nLat m) (nObsd m) (nCon m) pm.dimensions.nMixtures K F D) p (nameCarry m (fun l => (params.lookup l).getD 0) pm.dimensions.nMixtures (nLat m))
      pm.updateInfo).length := by rw [lazyRun_length]; exact (List.getElem?_eq_some_iff.mp hrk).1
  obtain ⟨c', e⟩ := lazyRun_get hrk (List.getElem?_eq_getElem hlt)
  rw [List.getElem?_eq_getElem hlt, e, Option.map_some, (nameUpd_none qr custom m pm _ nT _ _ _ _ K F hnone c').2]

/-- Without clipping, contributions are not changed. -/
theorem clippedContribution_none {o : EstSpec ℝ} (h : o.clippingLowerBound = some none ∧ (o.clippingUpperBound = none ∨ o.clippingUpperBound = some none)) (x : ℝ) : clippedContribution o x = x := by
  unfold clippedContribution
  rcases h.2 with h2 | h2 <;> rw [h.1, h2] <;> rfl

/-- **C139**: without clipping, the likelihood contribution of an individual without measurements is zero. -/
theorem C139_no_measurements {qr : QR} {m : ModelDict ℝ} (hg : GoodNames m) (hc : CleanAnchoring m) (ho : SameOrder m) (hclash : NoNameClash m) (hper : IsPeriod m 1) (hno : NoClipping m)
    {df : LongData ℝ} (hi : IndexOk df) (hu : NoUnusedPeriods df) {ids pers : List Int} (hids : IdsOf df ids) (hpers : PeriodsOf df pers) {inputs : MaximizationInputs} (hin : getMaximizationInputs m df = .ok inputs)
    {custom : String → CustomFn} {nan : ℝ} {params : List (Loc × ℝ)} (hn : (params.map Prod.fst).Nodup) {out : LoglikeOutput} (hout : inputs.loglike qr custom nan m params = .ok out) {i : ℕ} (hil : i < ids.length)
    (hmiss : ∀ t v, IsUpdate m t v → HasValue m df ids pers i t v none) : out.contributions[i]? = some 0 := by
  obtain ⟨pm, hpm⟩ := accepted_of_inputs hin
  have hval : ∀ l x, (l, x) ∈ params → x = (fun l => (params.lookup l).getD 0) l := fun l x h => by
    dsimp only
    rw [lookup_of_mem hn h, Option.getD_some]
  obtain ⟨l1, l2, l3, l4⟩ := loglike_shape hpm hg hc ho hclash hper hi hu hids hpers hn hval hin hout
  obtain ⟨updates, hen, hlen, hzero⟩ := C139_missing_measurement hg hc ho hclash hper hi hu hids hpers hin hn hout
  obtain ⟨o, hopt, hclip⟩ := hno
  have h := l4 o hopt i hil
  rw [List.sum_eq_zero] at h
  · rw [List.getElem?_eq_getElem (by omega)]
    rw [List.getD_eq_getElem?_getD, List.getElem?_eq_getElem (by omega), Option.getD_some] at h
    rw [h]
  · intro x hx
    obtain ⟨row, hrow, rfl⟩ := List.mem_map.mp hx
    obtain ⟨k, hk⟩ := List.getElem?_of_mem hrow
    have hkl := (List.getElem?_eq_some_iff.mp hk).1
    rw [clippedContribution_none hclip]
    have := hzero k updates[k].1 updates[k].2 (by rw [List.getElem?_eq_getElem (by omega)]) i hil (Or.inl (hmiss _ _ ((hen.2 _ _).mp (List.getElem_mem (by omega)))))
    unfold entry2 at this
    rw [hk, Option.bind_some] at this
    rw [List.getD_eq_getElem?_getD, this, Option.getD_some]

/-- Elements that are zero can be left out of a sum. -/
theorem sum_kept {kept : Int → Prop} [DecidablePred kept] {c : Int → ℝ} (xs : List Int) (h : ∀ x ∈ xs, ¬kept x → c x = 0) : (xs.map c).sum = ((xs.filter (fun x => decide (kept x))).map c).sum := by
  induction xs with
  | nil => rfl
  | cons x xs ih =>
    rw [List.map_cons, List.sum_cons, ih (fun y hy => h y (List.mem_cons_of_mem _ hy))]
    by_cases hx : kept x
    · rw [List.filter_cons_of_pos (by simpa using hx), List.map_cons, List.sum_cons]
    · rw [List.filter_cons_of_neg (by simpa using hx), h x (by simp) hx, zero_add]

/-- **C139**: without clipping, individuals without measurements can be left out: the log likelihood stays the same. `df` has the rows of those individuals of `df'` that satisfy `kept`, and the other individuals of `df'` do not have
any measurements. -/
theorem C139_left_out {qr : QR} {m : ModelDict ℝ} (hg : GoodNames m) (hc : CleanAnchoring m) (ho : SameOrder m) (hclash : NoNameClash m) (hper : IsPeriod m 1) (hno : NoClipping m)
    {df df' : LongData ℝ} (hi : IndexOk df) (hi' : IndexOk df') (hu : NoUnusedPeriods df) (hu' : NoUnusedPeriods df') {ids ids' pers : List Int} (hids : IdsOf df ids) (hpers : PeriodsOf df pers) (hids' : IdsOf df' ids')
    (hpers' : PeriodsOf df' pers) (kept : Int → Prop) (hrows : ∀ r, r ∈ df.rows ↔ r ∈ df'.rows ∧ kept r.id)
    (hmiss : ∀ (i : ℕ) (x : Int), ids'[i]? = some x → ¬kept x → ∀ t v, IsUpdate m t v → HasValue m df' ids' pers i t v none)
    {inputs inputs' : MaximizationInputs} (hin : getMaximizationInputs m df = .ok inputs) (hin' : getMaximizationInputs m df' = .ok inputs')
    {custom : String → CustomFn} {nan : ℝ} {params : List (Loc × ℝ)} (hn : (params.map Prod.fst).Nodup) {out out' : LoglikeOutput} (hout : inputs.loglike qr custom nan m params = .ok out)
    (hout' : inputs'.loglike qr custom nan m params = .ok out') : out'.value = out.value := by
  classical
  obtain ⟨hl, hv⟩ := loglike_sum hg.keys hclash hi hu hids hpers hin hout
  obtain ⟨hl', hv'⟩ := loglike_sum hg.keys hclash hi' hu' hids' hpers' hin' hout'
  have hnd : ids.Nodup := hids.1.imp (fun h => ne_of_lt h)
  have hnd' : ids'.Nodup := hids'.1.imp (fun h => ne_of_lt h)
  have hk' := (accepted_dataOk hg.keys hclash hi' hu' hids' hpers' hin').keys
  set c : Int → ℝ := fun x => out'.contributions.getD (ids'.idxOf x) 0 with hcdef
  have hc' : ∀ i (h : i < ids'.length), out'.contributions[i]? = some (c ids'[i]) := by
    intro i hi
    rw [hcdef]
    dsimp only
    rw [hnd'.idxOf_getElem, List.getD_eq_getElem?_getD, List.getElem?_eq_getElem (by omega), Option.getD_some]
  have hmem : ∀ x, x ∈ ids ↔ x ∈ ids' ∧ kept x := fun x => by
    rw [hids.2, hids'.2]
    constructor
    · rintro ⟨r, hr, rfl⟩
      obtain ⟨h1, h2⟩ := (hrows r).mp hr
      exact ⟨⟨r, h1, rfl⟩, h2⟩
    · rintro ⟨⟨r, hr, rfl⟩, h⟩
      exact ⟨r, (hrows r).mpr ⟨hr, h⟩, rfl⟩
  have hperm : ids.Perm (ids'.filter (fun x => decide (kept x))) :=
    (List.perm_ext_iff_of_nodup hnd (hnd'.filter _)).mpr (fun x => by rw [hmem, List.mem_filter, decide_eq_true_iff])
  have hown : ∀ i (h : i < ids.length), out.contributions[i]? = some (c ids[i]) := by
    intro i hil
    have hx : ids[i] ∈ ids' := ((hmem _).mp (List.getElem_mem hil)).1
    have hkept := ((hmem _).mp (List.getElem_mem hil)).2
    have hj := List.idxOf_lt_length_of_mem hx
    have hget : ids'[ids'.idxOf ids[i]]? = some ids[i] := by rw [List.getElem?_eq_getElem hj, List.getElem_idxOf]
    have hsame : SameHistory m df ids pers i df' ids' pers (ids'.idxOf ids[i]) := by
      refine ⟨hil, hj, fun t _ r r' hr hr' => ?_⟩
      have hr2 : RowOf df' ids' pers (ids'.idxOf ids[i]) t r := by
        cases r with
        | none =>
          refine ⟨hj, fun q hq hqi => ?_⟩
          rw [hget] at hqi
          have e := Option.some.inj hqi.1
          refine hr.2 q ((hrows q).mpr ⟨hq, e ▸ hkept⟩) ⟨?_, hqi.2⟩
          rw [List.getElem?_eq_getElem hil, e]
        | some r =>
          refine ⟨((hrows r).mp hr.1).1, ?_, hr.2.2⟩
          rw [hget, ← hr.2.1, List.getElem?_eq_getElem hil]
      rw [rowOf_unique hk' hr2 hr']
      exact fun _ _ => rfl
    obtain ⟨⟨x, e1, e2⟩, _⟩ := C113_own_data hg.keys hclash hi hi' hu hu' hids hpers hids' hpers' hin hin' hout hout' hsame
    rw [e1, hcdef]
    dsimp only
    rw [List.getD_eq_getElem?_getD, e2, Option.getD_some]
  rw [hv, hv', sum_by_id hnd' _ hl' c hc', sum_by_id hnd _ hl c hown, (hperm.map c).sum_eq]
  have hzero : ∀ x ∈ ids', ¬kept x → c x = 0 := by
    intro x hx hnk
    have hj := List.idxOf_lt_length_of_mem hx
    have hget : ids'[ids'.idxOf x]? = some x := by rw [List.getElem?_eq_getElem hj, List.getElem_idxOf]
    have := C139_no_measurements hg hc ho hclash hper hno hi' hu' hids' hpers' hin' hn hout' hj (hmiss _ x hget hnk)
    rw [hcdef]
    dsimp only
    rw [List.getD_eq_getElem?_getD, this, Option.getD_some]
  exact sum_kept ids' hzero

end Skill
