import Verif.Lemmas.ProcessData
import Verif.Props.ConstraintsExamples
/- C24-C27: process_data.py. -/
namespace Skill
open Spec
variable {V : Type}

/-- C24: preprocessing returns a balanced panel. With `ids` and `pers` the individuals and periods of the data in increasing order, row i * n + t belongs
to individual i and period t, has the values of the row of the data if there is one and is missing otherwise. -/
theorem C24_balanced_panel {df : LongData V} (hi : IndexOk df) (hu : NoUnusedPeriods df) {ids pers : List Int} (hids : IdsOf df ids) (hpers : PeriodsOf df pers) (hk : UniqueKeys df) (n : Nat) :
    ∃ out, preProcessData df (List.range n) = .ok out ∧ out.columns = df.columns ∧ out.rows.length = ids.length * n ∧
      (∀ (i t : Nat) (r : Option (LongRow V)), i < ids.length → t < n → RowOf df ids pers i t r →
        ∃ row, out.rows[i * n + t]? = some row ∧ row.period = t ∧ (∀ c, row.cell c = r.bind (fun x => x.cell c)) ∧
          ((∀ x ∈ df.idLevel, ∃ r ∈ df.rows, r.id = x) → row.id = i)) ∧
      out.rows.Pairwise (fun a b => a.id < b.id ∨ (a.id = b.id ∧ a.period < b.period)) := by
  refine ⟨_, preProcess_eq (List.range n) hi hids hk, rfl, ?_, ?_, ?_⟩
  · simp [List.length_flatMap, List.map_const', Function.comp_def]
  · intro i t r hil ht hr
    have hgrid : ∀ (codes : List Nat) (h : Nat → Nat → DataRow V) (i c : Nat), codes[i]? = some c →
        (codes.flatMap (fun i => (List.range n).map (h i)))[i * n + t]? = some (h c t) := by
      intro codes h
      induction codes with
      | nil => intro i c hc; simp at hc
      | cons a codes ih =>
        intro i c hc
        rw [List.flatMap_cons]
        cases i with
        | zero =>
          simp only [List.getElem?_cons_zero, Option.some.injEq] at hc
          subst hc
          rw [List.getElem?_append_left (by simpa using ht)]
          simp [ht]
        | succ i =>
          simp only [List.getElem?_cons_succ] at hc
          rw [List.getElem?_append_right (by simp; nlinarith)]
          rw [← ih i c hc]
          congr 1
          simp only [List.length_map, List.length_range]
          rw [Nat.succ_mul]; omega
    have hx : ids[i]? = some ids[i] := List.getElem?_eq_getElem hil
    refine ⟨_, hgrid (ids.map (levelCode df.idLevel)) (fun i t => ⟨i, t, gridCell df i t⟩) i (levelCode df.idLevel ids[i]) (by rw [List.getElem?_map, hx]; rfl), rfl,
      fun c => gridCell_eq hi hu hk hids hpers hx hr c, fun hid => ?_⟩
    have hperm : df.idLevel.Perm ids := by
      rw [List.perm_ext_iff_of_nodup hi.idNodup (hids.1.imp (fun h => ne_of_lt h))]
      intro p
      rw [hids.2]
      exact ⟨hid p, fun ⟨q, hq, h⟩ => h ▸ hi.ids q hq⟩
    simp only []
    rw [levelCode_perm hperm, levelCode_sorted hids.1 hx]
  · simp only []
    rw [List.pairwise_flatMap]
    constructor
    · intro i _
      rw [List.pairwise_map]
      exact List.pairwise_lt_range.imp (fun h => Or.inr ⟨rfl, h⟩)
    · rw [List.pairwise_map]
      refine hids.1.imp_of_mem (fun {a b} ha hb hlt => ?_)
      intro x hx y hy
      obtain ⟨t, _, rfl⟩ := List.mem_map.mp hx
      obtain ⟨s, _, rfl⟩ := List.mem_map.mp hy
      obtain ⟨r, hr, rfl⟩ := (hids.2 a).mp ha
      exact Or.inl (levelCode_lt (hi.ids r hr) hlt)

/-- C24: two rows for one individual in one period are rejected. -/
theorem C24_duplicates_rejected {df : LongData V} (hi : IndexOk df) (hk : ¬UniqueKeys df) (n : Nat) : preProcessData df (List.range n) = .error .valueError :=
  preProcess_error _ hi hk

/-- C24: the order of the rows does not matter. -/
theorem C24_row_order {df df' : LongData V} (hrows : df.rows.Perm df'.rows) (hc : df'.columns = df.columns) (hl : df'.idLevel = df.idLevel) (hl' : df'.periodLevel = df.periodLevel) (n : Nat) :
    preProcessData df (List.range n) = preProcessData df' (List.range n) := by
  have hp : (df.rows.map (fun r => (levelCode df.idLevel r.id, levelCode df.periodLevel r.period, r.cell))).Perm
      (df'.rows.map (fun r => (levelCode df'.idLevel r.id, levelCode df'.periodLevel r.period, r.cell))) := by
    rw [hl, hl']; exact hrows.map _
  unfold preProcessData
  simp only [hc]
  generalize df.rows.map (fun r => (levelCode df.idLevel r.id, levelCode df.periodLevel r.period, r.cell)) = a at hp
  generalize df'.rows.map (fun r => (levelCode df'.idLevel r.id, levelCode df'.periodLevel r.period, r.cell)) = b at hp
  rw [hl]
  by_cases hn : (a.map (fun r => (r.1, r.2.1))).Nodup
  · have hn' : (b.map (fun r => (r.1, r.2.1))).Nodup := (hp.map _).nodup_iff.mp hn
    rw [if_pos hn, if_pos hn']
    have h1 : ∀ i, a.any (fun r => r.1 == i) = b.any (fun r => r.1 == i) := fun i => hp.any_eq
    have h2 : ∀ (i t : Nat), a.find? (fun r => r.1 == i && r.2.1 == t) = b.find? (fun r => r.1 == i && r.2.1 == t) := by
      intro i t
      have key : ∀ (c : List (Nat × Nat × (String → Option V))), (c.map (fun r => (r.1, r.2.1))).Nodup → ∀ z, c.find? (fun r => r.1 == i && r.2.1 == t) = some z ↔ z ∈ c ∧ z.1 = i ∧ z.2.1 = t := by
        intro c hc z
        constructor
        · intro h
          have := List.find?_some h
          simp only [Bool.and_eq_true, beq_iff_eq] at this
          exact ⟨List.mem_of_find?_eq_some h, this⟩
        · rintro ⟨hz, h1, h2⟩
          cases hf : c.find? (fun r => r.1 == i && r.2.1 == t) with
          | none =>
            rw [List.find?_eq_none] at hf
            exact absurd (by simp [h1, h2]) (hf z hz)
          | some y =>
            have hy := List.find?_some hf
            simp only [Bool.and_eq_true, beq_iff_eq] at hy
            rw [List.inj_on_of_nodup_map hc (List.mem_of_find?_eq_some hf) hz (by simp [h1, h2, hy])]
      ext z
      rw [key a hn, key b hn', hp.mem_iff]
    simp only [h1, h2]
  · have hn' : ¬(b.map (fun r => (r.1, r.2.1))).Nodup := fun h => hn ((hp.map _).nodup_iff.mpr h)
    rw [if_neg hn, if_neg hn']

section
variable [DecidableEq V] [One V]
variable {α : Type} [OfScientific α] [Neg α] [Zero α] [One α] [OfNat α 2] [DecidableEq α]

theorem outcomes_of_ok {m : ModelDict α} {pm : Processed α} (hpm : processModel m = .ok pm) (f o : String) : (f, o) ∈ pm.anchoring.outcomes ↔ AnchoredIn m f o := by
  have hout : pm.anchoring = processAnchoring m := by
    rw [processModel_ok_iff] at hpm; exact hpm.2.2.2.2.1
  rw [hout, mem_outcomes_iff]

theorem fullCell_iff {m : ModelDict α} {pm : Processed α} (hpm : processModel m = .ok pm) (hclash : NoNameClash m) {df : LongData V} (hi : IndexOk df) (hu : NoUnusedPeriods df)
    (hk : UniqueKeys df) {ids pers : List Int} (hids : IdsOf df ids) (hpers : PeriodsOf df pers) {i t : Nat} {x : Int} (hx : ids[i]? = some x) {r : Option (LongRow V)}
    (hr : RowOf df ids pers i t r) (c : String) (v : Option V) : ValueIs m r c v ↔ v = fullCell df pm.anchoring.outcomes (levelCode df.idLevel x) t c := by
  have hbase : ∀ c, Function.update (gridCell df (levelCode df.idLevel x) t) "constant" (some 1) c = baseValue r c := by
    intro c
    unfold baseValue
    split_ifs with h
    · rw [h, Function.update_self]
    · rw [Function.update_of_ne h, gridCell_eq hi hu hk hids hpers hx hr]
  have hcopy : ∀ f o, AnchoredIn m f o → fullCell df pm.anchoring.outcomes (levelCode df.idLevel x) t (o ++ "_" ++ f) = baseValue r o := by
    intro f o hf
    unfold fullCell
    rw [← hbase]
    refine applyCopies_copy (p := (f, o)) ?_ ?_ ((outcomes_of_ok hpm f o).mpr hf)
    · rintro ⟨f, o⟩ hp ⟨g, p⟩ hq
      exact (hclash f o g p ((outcomes_of_ok hpm _ _).mp hp) ((outcomes_of_ok hpm _ _).mp hq)).1
    · rintro ⟨f, o⟩ hp ⟨g, p⟩ hq
      exact (hclash f o g p ((outcomes_of_ok hpm _ _).mp hp) ((outcomes_of_ok hpm _ _).mp hq)).2
  by_cases hA : ∃ f, Anchors m c f
  · obtain ⟨f, o, hf, rfl⟩ := hA
    constructor
    · rintro (⟨g, p, hg, e, rfl⟩ | ⟨h, _⟩)
      · rw [e, hcopy g p hg]
      · exact absurd ⟨f, o, hf, rfl⟩ h
    · rintro rfl
      exact Or.inl ⟨f, o, hf, rfl, hcopy f o hf⟩
  · have : fullCell df pm.anchoring.outcomes (levelCode df.idLevel x) t c = baseValue r c := by
      unfold fullCell
      rw [applyCopies_other, hbase]
      rintro ⟨f, o⟩ hp e
      exact hA ⟨f, o, (outcomes_of_ok hpm f o).mp hp, e⟩
    rw [this]
    constructor
    · rintro (⟨g, p, hg, e, rfl⟩ | ⟨_, h⟩)
      · exact absurd ⟨g, p, hg, e⟩ hA
      · exact h
    · intro h; exact Or.inr ⟨hA, h⟩

theorem mem_getPeriodMeasurements {m : ModelDict α} {pm : Processed α} (hpm : processModel m = .ok pm) (t : Nat) (w : String) : w ∈ getPeriodMeasurements pm.updateInfo t ↔ IsUpdate m t w := by
  rw [isUpdate_iff hpm]
  unfold getPeriodMeasurements
  simp only [List.mem_map, List.mem_filter, decide_eq_true_eq, and_assoc]

theorem problem_iff {m : ModelDict α} {pm : Processed α} (hpm : processModel m = .ok pm) (hclash : NoNameClash m) {df : LongData V} (hi : IndexOk df) (hu : NoUnusedPeriods df)
    (hk : UniqueKeys df) {ids pers : List Int} (hids : IdsOf df ids) (hpers : PeriodsOf df pers) {i t : Nat} {x : Int} (hx : ids[i]? = some x) {r : Option (LongRow V)}
    (hr : RowOf df ids pers i t r) :
    isProblem pm.labels.controls (getPeriodMeasurements pm.updateInfo t) (⟨levelCode df.idLevel x, t, fullCell df pm.anchoring.outcomes (levelCode df.idLevel x) t⟩ : DataRow V) = true ↔ IncompleteControls m r t := by
  have hf := fullCell_iff hpm hclash hi hu hk hids hpers hx hr
  unfold isProblem IncompleteControls
  rw [Bool.and_eq_true, List.any_eq_true, List.any_eq_true, (labels_of_ok hpm).2.2.1]
  refine and_congr (exists_congr (fun c => and_congr_right (fun _ => ?_))) ?_
  · rw [hf, Option.isNone_iff_eq_none, eq_comm]
  · constructor
    · rintro ⟨w, hw, hs⟩
      obtain ⟨y, hy⟩ := Option.isSome_iff_exists.mp hs
      exact ⟨w, y, (mem_getPeriodMeasurements hpm t w).mp hw, (hf w (some y)).mpr hy.symm⟩
    · rintro ⟨w, y, hw, hy⟩
      exact ⟨w, (mem_getPeriodMeasurements hpm t w).mpr hw, by simp only [← (hf w (some y)).mp hy, Option.isSome_some]⟩

theorem finalCell_kept {m : ModelDict α} {pm : Processed α} (hpm : processModel m = .ok pm) (hclash : NoNameClash m) {df : LongData V} (hi : IndexOk df) (hu : NoUnusedPeriods df)
    (hk : UniqueKeys df) {ids pers : List Int} (hids : IdsOf df ids) (hpers : PeriodsOf df pers) {i t : Nat} {x : Int} (hx : ids[i]? = some x) {r : Option (LongRow V)}
    (hr : RowOf df ids pers i t r) {c : String} {v : Option V} (hv : ValueIs m r c v) :
    Kept m r t v (finalCell df pm.anchoring.outcomes pm.labels.controls pm.updateInfo (levelCode df.idLevel x) t c) := by
  have hp := problem_iff hpm hclash hi hu hk hids hpers hx hr
  unfold finalCell Kept
  by_cases h : IncompleteControls m r t
  · rw [if_pos (hp.mpr h)]; exact Or.inl ⟨h, rfl⟩
  · rw [if_neg (fun h' => h (hp.mp h'))]
    exact Or.inr ⟨h, ((fullCell_iff hpm hclash hi hu hk hids hpers hx hr c v).mp hv).symm⟩

/-- C25: whenever a measurement is used, all control variables of that individual in that period are known. -/
theorem C25_controls_complete {m : ModelDict α} {pm : Processed α} (hpm : processModel m = .ok pm) (hd : DictKeys m) {df : LongData V} {out : ProcessedData V}
    (h : processData df pm.labels pm.updateInfo pm.anchoring .estimation = .ok out) :
    ∃ meas, out.measurements = some meas ∧
      ∀ (k i : Nat) (row : URow) (y : V), pm.updateInfo[k]? = some row → entry2 meas k i = some (some y) →
        ∀ j < (m.controls.getD []).length + 1, ∃ z, entry3 out.controls row.period i j = some (some z) := by
  obtain ⟨n, hn, hm, hc, _, _, _⟩ := processData_ok hpm hd h
  refine ⟨_, hm, ?_⟩
  intro k i row y hk hy j hj
  have hcl := (labels_of_ok hpm).2.2.1
  unfold entry2 at hy
  simp only [List.getElem?_map, hk, Option.map_some, Option.bind_some] at hy
  obtain ⟨c, hcd, hfin⟩ := Option.map_eq_some_iff.mp hy
  have hmem : row.var ∈ getPeriodMeasurements pm.updateInfo row.period := by
    unfold getPeriodMeasurements
    exact List.mem_map.mpr ⟨row, List.mem_filter.mpr ⟨List.mem_of_getElem? hk, by simp⟩, rfl⟩
  have hper : row.period < n := by
    have hp : IsPeriod m row.period := by
      rcases (mem_getPeriodMeasurements hpm _ _).mp hmem with ⟨f, spec, hf, ms, hms, _⟩ | ⟨hp, _⟩
      · exact ⟨n, hn, lt_of_lt_of_le (List.getElem?_eq_some_iff.mp hms).1 (hn.2 f spec hf)⟩
      · exact hp
    obtain ⟨n', hn', hlt⟩ := hp
    rwa [IsNPeriods.unique hn' hn] at hlt
  have hj' : j < pm.labels.controls.length := by rw [hcl]; simpa using hj
  unfold entry3 entry2
  rw [hc]
  simp only [List.getElem?_map, List.getElem?_range hper, Option.map_some, Option.bind_some, hcd, List.getElem?_eq_getElem hj', Option.some.injEq]
  unfold finalCell at hfin ⊢
  split_ifs at hfin ⊢ with hpb
  unfold isProblem at hpb
  rw [Bool.and_eq_true, List.any_eq_true, List.any_eq_true] at hpb
  push Not at hpb
  rw [← Option.isSome_iff_exists]
  by_contra hno
  exact hpb ⟨_, List.getElem_mem hj', by simpa using hno⟩ row.var hmem (by simp only [hfin, Option.isSome_some])

/-- C27: the entries of the data arrays. `r` is the row of the i-th individual in the t-th period of the data. -/
theorem C27_data_arrays {m : ModelDict α} {pm : Processed α} (hpm : processModel m = .ok pm) (hd : DictKeys m) (hclash : NoNameClash m) {df : LongData V} (hi : IndexOk df)
    (hu : NoUnusedPeriods df) {ids pers : List Int} (hids : IdsOf df ids) (hpers : PeriodsOf df pers) {out : ProcessedData V}
    (h : processData df pm.labels pm.updateInfo pm.anchoring .estimation = .ok out) :
    ∃ meas, out.measurements = some meas ∧
      (meas.length = pm.updateInfo.length ∧ ∀ col ∈ meas, col.length = ids.length) ∧
      (IsNPeriods m out.controls.length ∧ ∀ x ∈ out.controls, x.length = ids.length ∧ ∀ y ∈ x, y.length = (m.controls.getD []).length + 1) ∧
      (IsNPeriods m out.observedFactors.length ∧ ∀ x ∈ out.observedFactors, x.length = ids.length ∧ ∀ y ∈ x, y.length = (m.observedFactors.getD []).length) ∧
      ∀ (i t : Nat) (r : Option (LongRow V)), i < ids.length → IsPeriod m t → RowOf df ids pers i t r →
        (∀ (k : Nat) (row : URow) (v : Option V), pm.updateInfo[k]? = some row → row.period = t → ValueIs m r row.var v → ∃ w, entry2 meas k i = some w ∧ Kept m r t v w) ∧
        (∀ (j : Nat) (c : String) (v : Option V), ("constant" :: m.controls.getD [])[j]? = some c → ValueIs m r c v → ∃ w, entry3 out.controls t i j = some w ∧ Kept m r t v w) ∧
        (∀ (j : Nat) (f : String) (v : Option V), (m.observedFactors.getD [])[j]? = some f → ValueIs m r f v → ∃ w, entry3 out.observedFactors t i j = some w ∧ Kept m r t v w) := by
  obtain ⟨n, hn, hm, hc, ho, ⟨pre, hpre⟩, _⟩ := processData_ok hpm hd h
  obtain ⟨_, hobs, hcon, _⟩ := labels_of_ok hpm
  have hk := (preProcess_ok hi hids hpre).1
  have hcodes : idCodes df = ids.map (levelCode df.idLevel) := codes_eq hi hids
  rw [hcodes] at hm hc ho
  refine ⟨_, hm, ⟨by simp, by simp⟩, ⟨by rw [hc]; simpa using hn, by rw [hc, hcon]; simp⟩, ⟨by rw [ho]; simpa using hn, by rw [ho, hobs]; simp⟩, ?_⟩
  intro i t r hil ht hr
  obtain ⟨n', hn', htn⟩ := ht
  rw [IsNPeriods.unique hn' hn] at htn
  have hx : ids[i]? = some ids[i] := List.getElem?_eq_getElem hil
  refine ⟨fun k row v hrow hrt hv => ?_, fun j c v hj hv => ?_, fun j f v hj hv => ?_⟩
  · subst hrt
    exact ⟨_, by simp only [entry2, List.getElem?_map, hrow, hx, Option.map_some, Option.bind_some], finalCell_kept hpm hclash hi hu hk hids hpers hx hr hv⟩
  · rw [← hcon] at hj
    exact ⟨_, by rw [hc]; simp only [entry3, entry2, List.getElem?_map, List.getElem?_range htn, hx, hj, Option.map_some, Option.bind_some], finalCell_kept hpm hclash hi hu hk hids hpers hx hr hv⟩
  · rw [← hobs] at hj
    exact ⟨_, by rw [ho]; simp only [entry3, entry2, List.getElem?_map, List.getElem?_range htn, hx, hj, Option.map_some, Option.bind_some], finalCell_kept hpm hclash hi hu hk hids hpers hx hr hv⟩

/-- The arrays of controls and observed factors, for the estimation or the simulation of a model. -/
theorem covariate_arrays {m : ModelDict α} {pm : Processed α} (hpm : processModel m = .ok pm) (hd : DictKeys m) (hclash : NoNameClash m) {df : LongData V} (hi : IndexOk df)
    (hu : NoUnusedPeriods df) {ids pers : List Int} (hids : IdsOf df ids) (hpers : PeriodsOf df pers) {purpose : DataPurpose} {out : ProcessedData V}
    (h : processData df pm.labels pm.updateInfo pm.anchoring purpose = .ok out) :
      (IsNPeriods m out.controls.length ∧ ∀ x ∈ out.controls, x.length = ids.length ∧ ∀ y ∈ x, y.length = (m.controls.getD []).length + 1) ∧
      (IsNPeriods m out.observedFactors.length ∧ ∀ x ∈ out.observedFactors, x.length = ids.length ∧ ∀ y ∈ x, y.length = (m.observedFactors.getD []).length) ∧
      ∀ (i t : Nat) (r : Option (LongRow V)), i < ids.length → IsPeriod m t → RowOf df ids pers i t r →
        (∀ (j : Nat) (c : String) (v : Option V), ("constant" :: m.controls.getD [])[j]? = some c → ValueIs m r c v → ∃ w, entry3 out.controls t i j = some w ∧ Kept m r t v w) ∧
        (∀ (j : Nat) (f : String) (v : Option V), (m.observedFactors.getD [])[j]? = some f → ValueIs m r f v → ∃ w, entry3 out.observedFactors t i j = some w ∧ Kept m r t v w) := by
  obtain ⟨n, hn, _, hc, ho, ⟨pre, hpre⟩, _⟩ := processData_ok hpm hd h
  obtain ⟨_, hobs, hcon, _⟩ := labels_of_ok hpm
  have hk := (preProcess_ok hi hids hpre).1
  have hcodes : idCodes df = ids.map (levelCode df.idLevel) := codes_eq hi hids
  rw [hcodes] at hc ho
  refine ⟨⟨by rw [hc]; simpa using hn, by rw [hc, hcon]; simp⟩, ⟨by rw [ho]; simpa using hn, by rw [ho, hobs]; simp⟩, ?_⟩
  intro i t r hil ht hr
  obtain ⟨n', hn', htn⟩ := ht
  rw [IsNPeriods.unique hn' hn] at htn
  have hx : ids[i]? = some ids[i] := List.getElem?_eq_getElem hil
  refine ⟨fun j c v hj hv => ?_, fun j f v hj hv => ?_⟩
  · rw [← hcon] at hj
    exact ⟨_, by rw [hc]; simp only [entry3, entry2, List.getElem?_map, List.getElem?_range htn, hx, hj, Option.map_some, Option.bind_some], finalCell_kept hpm hclash hi hu hk hids hpers hx hr hv⟩
  · rw [← hobs] at hj
    exact ⟨_, by rw [ho]; simp only [entry3, entry2, List.getElem?_map, List.getElem?_range htn, hx, hj, Option.map_some, Option.bind_some], finalCell_kept hpm hclash hi hu hk hids hpers hx hr hv⟩

/-- C26: an observed factor passed to the filter is missing exactly if the row was deleted because measurements are observed although a control is missing. What is missing: the
claim says that it is never missing, which is false (`C26_counterexample`). -/
theorem C26_observed_factors_partial {m : ModelDict α} {pm : Processed α} (hpm : processModel m = .ok pm) (hd : DictKeys m) (hclash : NoNameClash m) {df : LongData V} (hi : IndexOk df)
    (hu : NoUnusedPeriods df) {ids pers : List Int} (hids : IdsOf df ids) (hpers : PeriodsOf df pers) {out : ProcessedData V} {purpose : DataPurpose}
    (h : processData df pm.labels pm.updateInfo pm.anchoring purpose = .ok out) :
    ∀ (i t j : Nat) (r : Option (LongRow V)), i < ids.length → IsPeriod m t → RowOf df ids pers i t r → j < (m.observedFactors.getD []).length →
      ∃ w, entry3 out.observedFactors t i j = some w ∧ (w = none ↔ IncompleteControls m r t) := by
  obtain ⟨n, hn, _, _, ho, ⟨pre, hpre⟩, hsome⟩ := processData_ok hpm hd h
  obtain ⟨_, hobs, hcon, _⟩ := labels_of_ok hpm
  have hk := (preProcess_ok hi hids hpre).1
  have hcodes : idCodes df = ids.map (levelCode df.idLevel) := codes_eq hi hids
  rw [hcodes] at ho hsome
  intro i t j r hil ht hr hj
  obtain ⟨n', hn', htn⟩ := ht
  rw [IsNPeriods.unique hn' hn] at htn
  have hx : ids[i]? = some ids[i] := List.getElem?_eq_getElem hil
  rw [← hobs] at hj
  have hjx := List.getElem?_eq_getElem hj
  refine ⟨finalCell df pm.anchoring.outcomes pm.labels.controls pm.updateInfo (levelCode df.idLevel ids[i]) t pm.labels.observedFactors[j],
    by rw [ho]; simp only [entry3, entry2, List.getElem?_map, List.getElem?_range htn, hx, hjx, Option.map_some, Option.bind_some], ?_⟩
  have hs := hsome t htn _ (List.getElem_mem hj) (levelCode df.idLevel ids[i]) (List.mem_map.mpr ⟨_, List.getElem_mem hil, rfl⟩)
  have hkept := finalCell_kept hpm hclash hi hu hk hids hpers hx hr ((fullCell_iff hpm hclash hi hu hk hids hpers hx hr _ _).mpr rfl) (c := pm.labels.observedFactors[j])
  rcases hkept with ⟨h1, h2⟩ | ⟨h1, h2⟩
  · exact ⟨fun _ => h1, fun _ => h2⟩
  · rw [h2]
    refine ⟨fun h0 => ?_, fun h0 => absurd h0 h1⟩
    rw [h0] at hs; cases hs

theorem exists_rowOf (df : LongData V) (ids pers : List Int) {i : Nat} (t : Nat) (hi : i < ids.length) : ∃ r, RowOf df ids pers i t r := by
  by_cases h : ∃ r ∈ df.rows, ids[i]? = some r.id ∧ pers[t]? = some r.period
  · obtain ⟨r, hr⟩ := h
    exact ⟨some r, hr⟩
  · push Not at h
    exact ⟨none, hi, fun r hr h' => h r hr h'.1 h'.2⟩

theorem hasValue_iff {m : ModelDict α} {pm : Processed α} (hpm : processModel m = .ok pm) (hclash : NoNameClash m) {df : LongData V} (hi : IndexOk df) (hu : NoUnusedPeriods df)
    (hk : UniqueKeys df) {ids pers : List Int} (hids : IdsOf df ids) (hpers : PeriodsOf df pers) (i t : Nat) (c : String) (v : Option V) :
    HasValue m df ids pers i t c v ↔ ∃ x, ids[i]? = some x ∧ v = fullCell df pm.anchoring.outcomes (levelCode df.idLevel x) t c := by
  constructor
  · rintro ⟨hil, r, hr, hv⟩
    exact ⟨ids[i], List.getElem?_eq_getElem hil, (fullCell_iff hpm hclash hi hu hk hids hpers (List.getElem?_eq_getElem hil) hr c v).mp hv⟩
  · rintro ⟨x, hx, hv⟩
    have hil := (List.getElem?_eq_some_iff.mp hx).1
    obtain ⟨r, hr⟩ := exists_rowOf df ids pers t hil
    exact ⟨hil, r, hr, (fullCell_iff hpm hclash hi hu hk hids hpers hx hr c v).mpr hv⟩

/-- The datasets that process_data accepts, for the estimation or the simulation of a model. -/
theorem processData_accepts {m : ModelDict α} {pm : Processed α} (hpm : processModel m = .ok pm) (hd : DictKeys m) (hclash : NoNameClash m) {df : LongData V} (hi : IndexOk df)
    (hu : NoUnusedPeriods df) {ids pers : List Int} (hids : IdsOf df ids) (hpers : PeriodsOf df pers) (purpose : DataPurpose) :
    (∃ out, processData df pm.labels pm.updateInfo pm.anchoring purpose = .ok out) ↔ SimulationDataOk m df ids pers ∧
      (purpose = .estimation → ∀ t v, IsUpdate m t v → ¬∃ y, ∀ y', (∃ i, HasValue m df ids pers i t v (some y')) ↔ y' = y) := by
  obtain ⟨hfac, hget⟩ := anchoring_facts hpm hd
  obtain ⟨_, hobs, hcon, hper, _⟩ := labels_of_ok hpm
  have hcodes : idCodes df = ids.map (levelCode df.idLevel) := codes_eq hi hids
  have hcl : ∀ p ∈ pm.anchoring.outcomes, ∀ q ∈ pm.anchoring.outcomes, p.2 ≠ anchoringName q.2 q.1 := by
    rintro ⟨f, o⟩ hp ⟨g, p⟩ hq
    exact (hclash f o g p ((outcomes_of_ok hpm _ _).mp hp) ((outcomes_of_ok hpm _ _).mp hq)).1
  have hvar : ∀ (df2 : DataFrame V), (∀ c, c ∈ df2.columns ↔ c ∈ df.columns ∨ c = "constant" ∨ ∃ p ∈ pm.anchoring.outcomes, c = anchoringName p.2 p.1) → ∀ c, c ∈ df2.columns ↔ HasVariable m df c := by
    intro df2 h c
    rw [h]
    unfold HasVariable
    refine or_congr_right (or_congr_right ?_)
    constructor
    · rintro ⟨⟨f, o⟩, hp, e⟩; exact ⟨f, o, (outcomes_of_ok hpm _ _).mp hp, e⟩
    · rintro ⟨f, o, hp, e⟩; exact ⟨(f, o), (outcomes_of_ok hpm _ _).mpr hp, e⟩
  have hcheck : ∀ (pre df2 : DataFrame V), UniqueKeys df → preProcessData df pm.labels.periods = .ok pre → addCopiesOfAnchoringOutcome (assignColumn pre "constant" (fun _ => some 1)) pm.anchoring = .ok df2 →
      (checkData df2 pm.updateInfo pm.labels purpose = .ok () ↔
        (∀ t, IsPeriod m t → ∀ c ∈ "constant" :: m.controls.getD [], HasVariable m df c ∧ ∃ i y, HasValue m df ids pers i t c (some y)) ∧
        (purpose = .estimation → ∀ t v, IsUpdate m t v → HasVariable m df v ∧ ¬∃ y, ∀ y', (∃ i, HasValue m df ids pers i t v (some y')) ↔ y' = y) ∧
        (∀ t, IsPeriod m t → ∀ f ∈ m.observedFactors.getD [], HasVariable m df f ∧ ∀ i, ¬HasValue m df ids pers i t f none)) := by
    intro pre df2 hk hpre hcopy
    obtain ⟨hcols, hpd⟩ := copies_grid hpm hd hpre hcopy
    have hV := hasValue_iff hpm hclash hi hu hk hids hpers
    have hcell : ∀ t < pm.dimensions.nPeriods, ∀ c v, (∃ r ∈ periodData df2 t, r.cell c = v) ↔ ∃ i, HasValue m df ids pers i t c v := by
      intro t ht c v
      rw [hpd t ht, hcodes]
      simp only [hV, List.mem_map, exists_exists_and_eq_and]
      constructor
      · rintro ⟨x, hx, rfl⟩
        obtain ⟨i, hxi⟩ := List.getElem?_of_mem hx
        exact ⟨i, x, hxi, rfl⟩
      · rintro ⟨i, x, hx, rfl⟩
        exact ⟨x, List.mem_of_getElem? hx, rfl⟩
    have hupd : ∀ t v, IsUpdate m t v → t < pm.dimensions.nPeriods := by
      intro t v h
      obtain ⟨row, hrow, rfl, _⟩ := (isUpdate_iff hpm t v).mp h
      exact update_period_lt hpm row hrow
    rw [checkData_ok_iff, hper, hcon, hobs]
    simp only [List.mem_range, hvar df2 hcols, mem_getPeriodMeasurements hpm, isPeriod_iff hpm]
    constructor
    · intro h
      refine ⟨fun t ht c hc => ⟨((h t ht).1 c hc).1, ?_⟩, fun hpur t v hv => ?_, fun t ht f hf => ⟨((h t ht).2.2 f hf).1, ?_⟩⟩
      · obtain ⟨r, hr, hs⟩ := ((h t ht).1 c hc).2
        obtain ⟨y, hy⟩ := Option.isSome_iff_exists.mp hs
        obtain ⟨i, hiv⟩ := (hcell t ht c (some y)).mp ⟨r, hr, hy⟩
        exact ⟨i, y, hiv⟩
      · have ht := hupd t v hv
        obtain ⟨h1, h2⟩ := (h t ht).2.1 hpur v hv
        refine ⟨h1, ?_⟩
        rw [← Bool.not_eq_true, hasNoVariance_iff] at h2
        simpa only [List.mem_map, hcell t ht] using h2
      · intro i hiv
        obtain ⟨r, hr, e⟩ := (hcell t ht f none).mpr ⟨i, hiv⟩
        have := ((h t ht).2.2 f hf).2 r hr
        rw [e] at this; cases this
    · rintro ⟨h1, h2, h3⟩ t ht
      refine ⟨fun c hc => ⟨(h1 t ht c hc).1, ?_⟩, fun hpur v hv => ⟨(h2 hpur t v hv).1, ?_⟩, fun f hf => ⟨(h3 t ht f hf).1, ?_⟩⟩
      · obtain ⟨i, y, hiv⟩ := (h1 t ht c hc).2
        obtain ⟨r, hr, e⟩ := (hcell t ht c (some y)).mpr ⟨i, hiv⟩
        exact ⟨r, hr, by rw [e]; rfl⟩
      · rw [← Bool.not_eq_true, hasNoVariance_iff]
        simpa only [List.mem_map, hcell t ht] using (h2 hpur t v hv).2
      · intro r hr
        rw [Option.isSome_iff_ne_none]
        intro e
        obtain ⟨i, hiv⟩ := (hcell t ht f none).mp ⟨r, hr, e⟩
        exact (h3 t ht f hf).2 i hiv
  constructor
  · rintro ⟨out, h⟩
    unfold processData at h
    obtain ⟨pre, hpre, h⟩ := py_bind_ok.mp h
    obtain ⟨df2, hcopy, h⟩ := py_bind_ok.mp h
    obtain ⟨_, hck, h⟩ := py_bind_ok.mp h
    obtain ⟨df3, hh, h⟩ := py_bind_ok.mp h
    have hk := (preProcess_ok hi hids hpre).1
    obtain ⟨h1, h2, h3⟩ := (hcheck pre df2 hk hpre hcopy).mp hck
    have hmeas : ∀ t v, IsUpdate m t v → HasVariable m df v := by
      intro t v hv
      unfold handleControlsWithMissings at hh
      split_ifs at hh with hall
      simp only [List.all_eq_true, decide_eq_true_eq, List.mem_append] at hall
      obtain ⟨row, hrow, rfl, rfl⟩ := (isUpdate_iff hpm t v).mp hv
      exact (hvar df2 (copies_grid hpm hd hpre hcopy).1 _).mp (hall row hrow _ (Or.inr ((mem_getPeriodMeasurements hpm _ _).mpr hv)))
    refine ⟨⟨hk, ?_, h1, hmeas, h3⟩, fun hpur t v hv => (h2 hpur t v hv).2⟩
    intro f o ho
    unfold addCopiesOfAnchoringOutcome at hcopy
    rw [hfac] at hcopy
    have := addCopies_columns _ hget hcopy hcl (f, o) ((outcomes_of_ok hpm f o).mpr ho)
    unfold assignColumn at this
    simp only [(preProcess_grid hpre).1] at this
    split_ifs at this
    · exact Or.inl this
    · simpa using this
  · rintro ⟨h, hvariance⟩
    obtain ⟨pre, hpre⟩ : ∃ pre, preProcessData df pm.labels.periods = .ok pre := ⟨_, preProcess_eq pm.labels.periods hi hids h.keys⟩
    obtain ⟨df2, hcopy⟩ := addCopies_exists (outs := pm.anchoring.outcomes) pm.anchoring.outcomes hget (df := assignColumn pre "constant" (fun _ => some 1)) (by
      rintro ⟨f, o⟩ hp
      unfold assignColumn
      simp only [(preProcess_grid hpre).1]
      rcases h.outcomes f o ((outcomes_of_ok hpm f o).mp hp) with h' | rfl
      · split_ifs
        · exact h'
        · exact List.mem_append_left _ h'
      · split_ifs with h''
        · exact h''
        · simp)
    have hcopy : addCopiesOfAnchoringOutcome (assignColumn pre "constant" (fun _ => some 1)) pm.anchoring = .ok df2 := by
      unfold addCopiesOfAnchoringOutcome
      rw [hfac]
      exact hcopy
    refine processData_exists hpm hpre hcopy ((hcheck _ _ h.keys hpre hcopy).mpr ⟨h.controls, fun hpur t v hv => ⟨h.measurements t v hv, hvariance hpur t v hv⟩, h.observed⟩) ?_
    intro row hrow v hv
    exact (hvar df2 (copies_grid hpm hd hpre hcopy).1 _).mpr (h.measurements _ _ ((mem_getPeriodMeasurements hpm _ _).mp hv))

/-- C66: process_data accepts a dataset exactly if it meets the requirements. -/
theorem C66_accepts_iff {m : ModelDict α} {pm : Processed α} (hpm : processModel m = .ok pm) (hd : DictKeys m) (hclash : NoNameClash m) {df : LongData V} (hi : IndexOk df)
    (hu : NoUnusedPeriods df) {ids pers : List Int} (hids : IdsOf df ids) (hpers : PeriodsOf df pers) :
    (∃ out, processData df pm.labels pm.updateInfo pm.anchoring .estimation = .ok out) ↔ DataOk m df ids pers := by
  rw [processData_accepts hpm hd hclash hi hu hids hpers]
  constructor
  · rintro ⟨h, h'⟩
    exact ⟨h.keys, h.outcomes, h.controls, fun t v hv => ⟨h.measurements t v hv, h' rfl t v hv⟩, h.observed⟩
  · intro h
    exact ⟨⟨h.keys, h.outcomes, h.controls, fun t v hv => (h.measurements t v hv).1, h.observed⟩, fun _ t v hv => (h.measurements t v hv).2⟩

theorem dataOk_perm {m : ModelDict α} {df df' : LongData V} (hrows : df.rows.Perm df'.rows) (hc : df'.columns = df.columns) (ids pers : List Int) :
    DataOk m df ids pers ↔ DataOk m df' ids pers := by
  have hrow : RowOf df ids pers = RowOf df' ids pers := by
    funext i t r
    cases r <;> simp only [RowOf, hrows.mem_iff]
  have hval : HasValue m df ids pers = HasValue m df' ids pers := by
    funext i t c v; simp only [HasValue, hrow]
  have hvar : HasVariable m df = HasVariable m df' := by
    funext c; simp only [HasVariable, hc]
  have hk : UniqueKeys df ↔ UniqueKeys df' := (hrows.map _).nodup_iff
  constructor
  · intro h
    exact ⟨hk.mp h.keys, hc ▸ h.outcomes, hval ▸ hvar ▸ h.controls, hval ▸ hvar ▸ h.measurements, hval ▸ hvar ▸ h.observed⟩
  · intro h
    exact ⟨hk.mpr h.keys, hc ▸ h.outcomes, hval ▸ hvar ▸ h.controls, hval ▸ hvar ▸ h.measurements, hval ▸ hvar ▸ h.observed⟩

/-- C67: the arrays depend only on the rows and columns of the data, neither on the order of the rows nor on the stored levels of the index. What is missing: this needs that
the period level has no unused values, otherwise it is false (`C67_counterexample`). -/
theorem C67_only_rows_matter_partial {m : ModelDict α} {pm : Processed α} (hpm : processModel m = .ok pm) (hd : DictKeys m) (hclash : NoNameClash m) {df df' : LongData V}
    (hrows : df.rows.Perm df'.rows) (hc : df'.columns = df.columns) (hi : IndexOk df) (hi' : IndexOk df') (hu : NoUnusedPeriods df) (hu' : NoUnusedPeriods df') {ids pers : List Int}
    (hids : IdsOf df ids) (hpers : PeriodsOf df pers) (out : ProcessedData V) :
    processData df pm.labels pm.updateInfo pm.anchoring .estimation = .ok out ↔ processData df' pm.labels pm.updateInfo pm.anchoring .estimation = .ok out := by
  have main : ∀ {df df' : LongData V}, df.rows.Perm df'.rows → df'.columns = df.columns → IndexOk df → IndexOk df' → NoUnusedPeriods df → NoUnusedPeriods df' →
      IdsOf df ids → PeriodsOf df pers → IdsOf df' ids → PeriodsOf df' pers →
      processData df pm.labels pm.updateInfo pm.anchoring .estimation = .ok out → processData df' pm.labels pm.updateInfo pm.anchoring .estimation = .ok out := by
    intro df df' hrows hc hi hi' hu hu' hids hpers hids' hpers' h
    have hok := (C66_accepts_iff hpm hd hclash hi hu hids hpers).mp ⟨out, h⟩
    have hok' := (dataOk_perm hrows hc ids pers).mp hok
    obtain ⟨out', h'⟩ := (C66_accepts_iff hpm hd hclash hi' hu' hids' hpers').mpr hok'
    have hcell : ∀ (t : Nat), ∀ x ∈ ids, finalCell df pm.anchoring.outcomes pm.labels.controls pm.updateInfo (levelCode df.idLevel x) t
        = finalCell df' pm.anchoring.outcomes pm.labels.controls pm.updateInfo (levelCode df'.idLevel x) t := by
      intro t x hx
      obtain ⟨i, hxi⟩ := List.getElem?_of_mem hx
      obtain ⟨r, hr⟩ := exists_rowOf df ids pers t (List.getElem?_eq_some_iff.mp hxi).1
      have hr' : RowOf df' ids pers i t r := by
        cases r <;> simpa only [RowOf, hrows.mem_iff] using hr
      have : fullCell df pm.anchoring.outcomes (levelCode df.idLevel x) t = fullCell df' pm.anchoring.outcomes (levelCode df'.idLevel x) t := by
        unfold fullCell
        congr 2
        funext c
        rw [gridCell_eq hi hu hok.keys hids hpers hxi hr c, gridCell_eq hi' hu' hok'.keys hids' hpers' hxi hr' c]
      unfold finalCell isProblem
      rw [this]
    obtain ⟨n, hn, h1, h2, h3, _⟩ := processData_ok hpm hd h
    obtain ⟨n', hn', h1', h2', h3', _⟩ := processData_ok hpm hd h'
    rw [IsNPeriods.unique hn' hn] at h2' h3'
    have hcodes : idCodes df = ids.map (levelCode df.idLevel) := codes_eq hi hids
    have hcodes' : idCodes df' = ids.map (levelCode df'.idLevel) := codes_eq hi' hids'
    rw [hcodes] at h1 h2 h3
    rw [hcodes'] at h1' h2' h3'
    have : out' = out := by
      cases out; cases out'
      simp only [] at h1 h2 h3 h1' h2' h3'
      rw [h1, h2, h3, h1', h2', h3']
      congr 1
      · simp only [if_true, List.map_map]
        congr 1
        refine List.map_congr_left (fun row _ => List.map_congr_left (fun x hx => ?_))
        simp only [Function.comp, hcell _ x hx]
      · simp only [List.map_map]
        refine List.map_congr_left (fun t _ => List.map_congr_left (fun x hx => ?_))
        simp only [Function.comp, hcell _ x hx]
      · simp only [List.map_map]
        refine List.map_congr_left (fun t _ => List.map_congr_left (fun x hx => ?_))
        simp only [Function.comp, hcell _ x hx]
    rw [h', this]
  have hids' : IdsOf df' ids := ⟨hids.1, fun x => by rw [hids.2]; simp only [hrows.mem_iff]⟩
  have hpers' : PeriodsOf df' pers := ⟨hpers.1, fun x => by rw [hpers.2]; simp only [hrows.mem_iff]⟩
  exact ⟨main hrows hc hi hi' hu hu' hids hpers hids' hpers', main hrows.symm hc.symm hi' hi hu' hu hids' hpers' hids hpers⟩

end

namespace Ex

/-- Three individuals in four periods in no particular order. The control of individual 5 is missing in period 20, a measurement of individual 9 in period 10. -/
def dataRow (id period : Int) : LongRow Int where
  id := id
  period := period
  cell c := if c = "x1" ∧ id = 5 ∧ period = 20 then none else if c = "y1" ∧ id = 9 ∧ period = 10 then none
    else if c = "Q1" then some (2 * id) else if c = "inc" then some (3 * id + period) else some (id * 100 + period)

def data2 : LongData Int where
  columns := ["y1", "y2", "y4", "y5", "y7", "y8", "x1", "Q1", "inc"]
  idLevel := [2, 5, 9]
  periodLevel := [10, 20, 30, 40]
  rows := [dataRow 9 10, dataRow 2 10, dataRow 5 10, dataRow 2 20, dataRow 5 20, dataRow 9 20, dataRow 2 40, dataRow 5 40, dataRow 9 40, dataRow 2 30, dataRow 5 30, dataRow 9 30]

theorem data2_ok : IndexOk data2 ∧ NoUnusedPeriods data2 ∧ UniqueKeys data2 := by
  refine ⟨⟨by decide, by decide, by decide, by decide⟩, ?_, ?_⟩
  · show ∀ p ∈ data2.periodLevel, ∃ r ∈ data2.rows, r.period = p
    decide
  · show (data2.rows.map (fun r => (r.id, r.period))).Nodup
    decide

theorem data2_ids : IdsOf data2 [2, 5, 9] ∧ PeriodsOf data2 [10, 20, 30, 40] := by
  refine ⟨⟨by decide, fun x => ?_⟩, ⟨by decide, fun x => ?_⟩⟩
  · simp only [data2, dataRow, List.mem_cons, List.not_mem_nil, or_false, exists_eq_or_imp, exists_eq_left]
    constructor <;> intro h <;> omega
  · simp only [data2, dataRow, List.mem_cons, List.not_mem_nil, or_false, exists_eq_or_imp, exists_eq_left]
    constructor <;> intro h <;> omega

theorem model2_names : DictKeys model2 ∧ NoNameClash model2 := by
  refine ⟨⟨by decide, ?_⟩, ?_⟩
  · rintro a os ⟨⟩ ⟨⟩; decide
  · rintro f o g p ⟨a, ⟨⟩, os, ⟨⟩, h⟩ ⟨a', ⟨⟩, os', ⟨⟩, h'⟩
    simp only [List.mem_singleton, Prod.mk.injEq] at h h'
    obtain ⟨rfl, rfl⟩ := h
    obtain ⟨rfl, rfl⟩ := h'
    exact ⟨by decide, fun _ => rfl⟩

/-- The hypotheses of C24-C27 and C66 hold for the example model and dataset. The arrays have the expected entries, e.g. the first individual is 2 although
its rows come later, the row of individual 5 in period 20 was deleted, the anchoring variable has the data of the outcome. -/
example : ((processModel model2) >>= fun pm => (processData data2 pm.labels pm.updateInfo pm.anchoring .estimation).map (fun out =>
      (out.measurements.map (fun x => [entry2 x 0 0, entry2 x 0 2, entry2 x 5 1, entry2 x 6 1, entry2 x 6 0, entry2 x 7 1]), [entry3 out.controls 1 1 0, entry3 out.controls 1 0 1])))
    = .ok (some [some (some 210), some none, some (some 510), some (some 10), some (some 4), some none], [some none, some (some 220)]) := by decide +kernel

end Ex

/-- C26: a dataset that process_data accepts, with a missing observed factor. -/
theorem C26_counterexample : ∃ (m : ModelDict Rat) (pm : Processed Rat) (df : LongData Int) (out : ProcessedData Int), processModel m = .ok pm ∧ DictKeys m ∧ NoNameClash m ∧ IndexOk df ∧
    NoUnusedPeriods df ∧ UniqueKeys df ∧ processData df pm.labels pm.updateInfo pm.anchoring .estimation = .ok out ∧ entry3 out.observedFactors 1 1 0 = some none := by
  have h : ((processModel Ex.model2) >>= fun pm => (processData Ex.data2 pm.labels pm.updateInfo pm.anchoring .estimation) >>= fun out => pure (entry3 out.observedFactors 1 1 0)) = .ok (some none) := by
    decide +kernel
  obtain ⟨pm, hpm, h⟩ := py_bind_ok.mp h
  obtain ⟨out, hout, h⟩ := py_bind_ok.mp h
  obtain ⟨h1, h2, h3⟩ := Ex.data2_ok
  exact ⟨Ex.model2, pm, Ex.data2, out, hpm, Ex.model2_names.1, Ex.model2_names.2, h1, h2, h3, hout, Except.ok.inj h⟩

/-- C67: the same rows, but the index of the second dataset still knows a period whose rows were removed. All values end up one period too late. -/
theorem C67_counterexample : ∃ (df df' : LongData Int) (out out' : DataFrame Int), df.rows = df'.rows ∧ df.columns = df'.columns ∧ df.idLevel = df'.idLevel ∧ IndexOk df ∧ IndexOk df' ∧
    UniqueKeys df ∧ preProcessData df (List.range 4) = .ok out ∧ preProcessData df' (List.range 4) = .ok out' ∧
    out.rows.map (fun r => (r.id, r.period, r.cell "y4")) = [(0, 0, some 210), (0, 1, some 220), (0, 2, some 230), (0, 3, some 240), (1, 0, some 510), (1, 1, some 520), (1, 2, some 530), (1, 3, some 540),
      (2, 0, some 910), (2, 1, some 920), (2, 2, some 930), (2, 3, some 940)] ∧
    out'.rows.map (fun r => (r.id, r.period, r.cell "y4")) = [(0, 0, none), (0, 1, some 210), (0, 2, some 220), (0, 3, some 230), (1, 0, none), (1, 1, some 510), (1, 2, some 520), (1, 3, some 530),
      (2, 0, none), (2, 1, some 910), (2, 2, some 920), (2, 3, some 930)] := by
  have h1 : (preProcessData Ex.data2 (List.range 4)).toBool = true := by decide +kernel
  have h2 : (preProcessData { Ex.data2 with periodLevel := [0, 10, 20, 30, 40] } (List.range 4)).toBool = true := by decide +kernel
  obtain ⟨out, ho⟩ := ok_of_toBool h1
  obtain ⟨out', ho'⟩ := ok_of_toBool h2
  refine ⟨Ex.data2, { Ex.data2 with periodLevel := [0, 10, 20, 30, 40] }, out, out', rfl, rfl, rfl, Ex.data2_ok.1, ⟨by decide, by decide, by decide, by decide⟩, Ex.data2_ok.2.2, ho, ho', ?_, ?_⟩
  · have h : (preProcessData Ex.data2 (List.range 4)).map (fun out => out.rows.map (fun r => (r.id, r.period, r.cell "y4"))) =
        .ok ([(0, 0, some 210), (0, 1, some 220), (0, 2, some 230), (0, 3, some 240), (1, 0, some 510), (1, 1, some 520), (1, 2, some 530), (1, 3, some 540),
      (2, 0, some 910), (2, 1, some 920), (2, 2, some 930), (2, 3, some 940)]) := by decide +kernel
    rw [ho] at h
    exact Except.ok.inj h
  · have h : (preProcessData { Ex.data2 with periodLevel := [0, 10, 20, 30, 40] } (List.range 4)).map (fun out => out.rows.map (fun r => (r.id, r.period, r.cell "y4"))) =
        .ok [(0, 0, none), (0, 1, some 210), (0, 2, some 220), (0, 3, some 230), (1, 0, none), (1, 1, some 510), (1, 2, some 520), (1, 3, some 530),
      (2, 0, none), (2, 1, some 910), (2, 2, some 920), (2, 3, some 930)] := by decide +kernel
    rw [ho'] at h
    exact Except.ok.inj h

end Skill
