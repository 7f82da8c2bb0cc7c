import Verif.Spec.Units
import Verif.Lemmas.CorrelationUnits
import Verif.Lemmas.Units
import Verif.Props.OwnData
/- Data in other units: what process_data makes of them. -/
namespace Skill
open Matrix Spec
variable {m : ModelDict ℝ} {a b : Int → String → ℝ} {df : LongData ℝ} {ids pers : List Int}

/-- A row in other units. -/
noncomputable def unitRow (a b : Int → String → ℝ) (r : LongRow ℝ) : LongRow ℝ := { r with cell := fun c => (r.cell c).map (fun y => a r.period c * y + b r.period c) }

theorem unitRow_rowOf {i t : ℕ} {r : Option (LongRow ℝ)} (h : RowOf df ids pers i t r) : RowOf (changeUnits a b df) ids pers i t (r.map (unitRow a b)) := by
  cases r with
  | none =>
    refine ⟨h.1, fun q hq => ?_⟩
    obtain ⟨q', hq', rfl⟩ := List.mem_map.mp hq
    exact h.2 q' hq'
  | some r => exact ⟨List.mem_map.mpr ⟨r, h.1, rfl⟩, h.2.1, h.2.2⟩

theorem baseValue_units (hok : UnitsOk m a b) {i t : ℕ} {r : Option (LongRow ℝ)} (h : RowOf df ids pers i t r) (c : String) :
    baseValue (r.map (unitRow a b)) c = (baseValue r c).map (fun y => a (pers.getD t 0) c * y + b (pers.getD t 0) c) := by
  unfold baseValue
  by_cases hc : c = "constant"
  · subst hc
    obtain ⟨h1, h2⟩ := hok.constant (pers.getD t 0)
    simp only [if_true, Option.map_some, h1, h2]
    norm_num
  · rw [if_neg hc, if_neg hc]
    cases r with
    | none => rfl
    | some r =>
      rw [List.getD_eq_getElem?_getD, h.2.2]
      rfl

theorem map_unit (v : Option ℝ) {x y : ℝ} (hx : x = 1) (hy : y = 0) : v.map (fun z => x * z + y) = v := by
  subst hx hy
  cases v <;> simp

theorem valueIs_units (hok : UnitsOk m a b) {i t : ℕ} {r : Option (LongRow ℝ)} (h : RowOf df ids pers i t r) {c : String} {v : Option ℝ} (hv : ValueIs m r c v) :
    ValueIs m (r.map (unitRow a b)) c (v.map (fun y => a (pers.getD t 0) c * y + b (pers.getD t 0) c)) := by
  rcases hv with ⟨f, o, ho, rfl, rfl⟩ | ⟨hn, rfl⟩
  · obtain ⟨h1, h2, h3, h4⟩ := hok.outcomes (pers.getD t 0) f o ho
    refine Or.inl ⟨f, o, ho, rfl, ?_⟩
    rw [baseValue_units hok h, map_unit _ h1 h2, map_unit _ h3 h4]
  · exact Or.inr ⟨hn, (baseValue_units hok h c).symm⟩

theorem valueIs_determined (hclash : NoNameClash m) {r : Option (LongRow ℝ)} {c : String} {v w : Option ℝ} (hv : ValueIs m r c v) (hw : ValueIs m r c w) : v = w := by
  rcases hv with ⟨f, o, ho, rfl, rfl⟩ | ⟨hn, rfl⟩
  · rcases hw with ⟨g, p, hp, he, rfl⟩ | ⟨hn, _⟩
    · rw [(hclash f o g p ho hp).2 he]
    · exact absurd ⟨f, o, ho, rfl⟩ hn
  · rcases hw with ⟨g, p, hp, he, _⟩ | ⟨_, rfl⟩
    · exact absurd ⟨g, p, hp, he⟩ hn
    · rfl

theorem valueIs_units_iff (hclash : NoNameClash m) (hok : UnitsOk m a b) {i t : ℕ} {r : Option (LongRow ℝ)} (h : RowOf df ids pers i t r) {c : String} {w : Option ℝ} :
    ValueIs m (r.map (unitRow a b)) c w ↔ ∃ v, ValueIs m r c v ∧ w = v.map (fun y => a (pers.getD t 0) c * y + b (pers.getD t 0) c) := by
  constructor
  · intro hw
    obtain ⟨v, hv⟩ := exists_valueIs m r c
    exact ⟨v, hv, valueIs_determined hclash hw (valueIs_units hok h hv)⟩
  · rintro ⟨v, hv, rfl⟩
    exact valueIs_units hok h hv

theorem incomplete_units (hclash : NoNameClash m) (hok : UnitsOk m a b) {i t : ℕ} {r : Option (LongRow ℝ)} (h : RowOf df ids pers i t r) (s : ℕ) :
    IncompleteControls m (r.map (unitRow a b)) s ↔ IncompleteControls m r s := by
  unfold IncompleteControls
  simp only [valueIs_units_iff hclash hok h]
  refine and_congr (exists_congr (fun c => and_congr_right (fun _ => ?_))) (exists_congr (fun w => ?_))
  · constructor
    · rintro ⟨v, hv, he⟩
      rw [eq_comm, Option.map_eq_none_iff] at he
      exact he ▸ hv
    · exact fun hv => ⟨none, hv, rfl⟩
  · constructor
    · rintro ⟨y, hw, v, hv, he⟩
      rw [eq_comm, Option.map_eq_some_iff] at he
      obtain ⟨z, rfl, _⟩ := he
      exact ⟨z, hw, hv⟩
    · rintro ⟨y, hw, hv⟩
      exact ⟨_, hw, _, hv, rfl⟩

theorem kept_units (hclash : NoNameClash m) (hok : UnitsOk m a b) {i t : ℕ} {r : Option (LongRow ℝ)} (h : RowOf df ids pers i t r) {s : ℕ} {v w w' : Option ℝ} (f : ℝ → ℝ) (hw : Kept m r s v w)
    (hw' : Kept m (r.map (unitRow a b)) s (v.map f) w') : w' = w.map f := by
  have hi := incomplete_units hclash hok h s
  rcases hw with ⟨h1, rfl⟩ | ⟨h1, rfl⟩ <;> rcases hw' with ⟨h2, rfl⟩ | ⟨h2, rfl⟩
  · rfl
  · exact absurd (hi.mpr h1) h2
  · exact absurd (hi.mp h2) h1
  · rfl

theorem hasValue_units (hclash : NoNameClash m) (hok : UnitsOk m a b) (hk : UniqueKeys df) {i t : ℕ} {c : String} {w : Option ℝ} :
    HasValue m (changeUnits a b df) ids pers i t c w ↔ ∃ v, HasValue m df ids pers i t c v ∧ w = v.map (fun y => a (pers.getD t 0) c * y + b (pers.getD t 0) c) := by
  constructor
  · rintro ⟨hil, r', hr', hv'⟩
    obtain ⟨r, hr⟩ := exists_rowOf df ids pers t hil
    rw [rowOf_unique (changeUnits_keys hk) hr' (unitRow_rowOf hr), valueIs_units_iff hclash hok hr] at hv'
    obtain ⟨v, hv, he⟩ := hv'
    exact ⟨v, ⟨hil, r, hr, hv⟩, he⟩
  · rintro ⟨v, ⟨hil, r, hr, hv⟩, rfl⟩
    exact ⟨hil, _, unitRow_rowOf hr, valueIs_units hok hr hv⟩

/-- Data in other units are accepted. -/
theorem changeUnits_dataOk (hclash : NoNameClash m) (hok : UnitsOk m a b) (h : DataOk m df ids pers) : DataOk m (changeUnits a b df) ids pers where
  keys := changeUnits_keys h.keys
  outcomes := h.outcomes
  controls := by
    intro t ht c hc
    obtain ⟨h1, i, y, h2⟩ := h.controls t ht c hc
    exact ⟨h1, i, _, (hasValue_units hclash hok h.keys).mpr ⟨_, h2, rfl⟩⟩
  measurements := by
    intro t v hv
    obtain ⟨h1, h2⟩ := h.measurements t v hv
    refine ⟨h1, ?_⟩
    rintro ⟨y, hy⟩
    have ha := hok.nonzero (pers.getD t 0) v
    have key : ∀ x, (∃ i, HasValue m (changeUnits a b df) ids pers i t v (some (a (pers.getD t 0) v * x + b (pers.getD t 0) v))) ↔ ∃ i, HasValue m df ids pers i t v (some x) := by
      intro x
      refine exists_congr (fun i => ?_)
      rw [hasValue_units hclash hok h.keys]
      constructor
      · rintro ⟨w, hw, he⟩
        rw [eq_comm, Option.map_eq_some_iff] at he
        obtain ⟨z, rfl, he⟩ := he
        have : z = x := mul_left_cancel₀ ha (by linarith)
        exact this ▸ hw
      · exact fun hw => ⟨_, hw, rfl⟩
    refine h2 ⟨(y - b (pers.getD t 0) v) / a (pers.getD t 0) v, fun x => ?_⟩
    rw [← key, hy]
    constructor
    · intro he
      rw [← he]
      field_simp
      ring
    · rintro rfl
      field_simp
      ring
  observed := by
    intro t ht f hf
    obtain ⟨h1, h2⟩ := h.observed t ht f hf
    refine ⟨h1, fun i hv => ?_⟩
    obtain ⟨v, hv, he⟩ := (hasValue_units hclash hok h.keys).mp hv
    rw [eq_comm, Option.map_eq_none_iff] at he
    exact h2 i (he ▸ hv)

theorem constant_ne (o f : String) : "constant" ≠ o ++ "_" ++ f := by
  intro h
  have h1 : '_' ∈ (o ++ "_" ++ f).toList := by simp
  rw [← h] at h1
  revert h1
  decide

/-- The data arrays in other units. -/
theorem data_units {pm : Processed ℝ} (hpm : processModel m = .ok pm) (hd : DictKeys m) (hclash : NoNameClash m) (hi : IndexOk df) (hu : NoUnusedPeriods df) (hids : IdsOf df ids) (hpers : PeriodsOf df pers)
    (hok : UnitsOk m a b) {data data' : ProcessedData ℝ} (h : processData df pm.labels pm.updateInfo pm.anchoring .estimation = .ok data)
    (h' : processData (changeUnits a b df) pm.labels pm.updateInfo pm.anchoring .estimation = .ok data') {i : ℕ} (hil : i < ids.length) :
    (∀ k row, pm.updateInfo[k]? = some row → ∃ w, entry2 (data.measurements.getD []) k i = some w ∧
      entry2 (data'.measurements.getD []) k i = some (w.map (fun y => a (pers.getD row.period 0) row.var * y + b (pers.getD row.period 0) row.var)) ∧ (w.isSome ↔ UsesObservation m df ids pers i row.period row.var) ∧
      (w.isSome → ∀ j c, ("constant" :: m.controls.getD [])[j]? = some c → ∃ x, entry3 data.controls row.period i j = some (some x) ∧
        entry3 data'.controls row.period i j = some (some (a (pers.getD row.period 0) c * x + b (pers.getD row.period 0) c)) ∧ (c = "constant" → x = 1))) ∧
    (∀ t, IsPeriod m t → ∀ j < (m.observedFactors.getD []).length, entry3 data'.observedFactors t i j = entry3 data.observedFactors t i j) := by
  have hk := ((C66_accepts_iff hpm hd hclash hi hu hids hpers).mp ⟨data, h⟩).keys
  obtain ⟨meas, hm, _, _, _, hcell⟩ := C27_data_arrays hpm hd hclash hi hu hids hpers h
  obtain ⟨meas', hm', _, _, _, hcell'⟩ := C27_data_arrays hpm hd hclash (changeUnits_index (a := a) (b := b) hi) (changeUnits_periods hu) (changeUnits_idsOf hids) (changeUnits_periodsOf hpers) h'
  rw [hm, hm', Option.getD_some, Option.getD_some]
  refine ⟨fun k row hrow => ?_, fun t ht j hj => ?_⟩
  · have hup : IsUpdate m row.period row.var := ((C01_update_info_exact hpm).2.1 _ _).mp ⟨row, List.mem_of_getElem? hrow, rfl, rfl⟩
    have ht := isUpdate_period hup
    obtain ⟨r, hr⟩ := exists_rowOf df ids pers row.period hil
    have hr' := unitRow_rowOf (a := a) (b := b) hr
    obtain ⟨v, hv⟩ := exists_valueIs m r row.var
    obtain ⟨w, h1, h2⟩ := (hcell i row.period r hil ht hr).1 k row v hrow rfl hv
    obtain ⟨w', h1', h2'⟩ := (hcell' i row.period _ hil ht hr').1 k row _ hrow rfl (valueIs_units hok hr hv)
    have hobs : w.isSome → ¬IncompleteControls m r row.period ∧ w = v := by
      intro hs
      rcases h2 with ⟨_, rfl⟩ | h2
      · cases hs
      · exact h2
    refine ⟨w, h1, by rw [h1', kept_units hclash hok hr _ h2 h2'], ⟨fun hs => ?_, ?_⟩, fun hs j c hc => ?_⟩
    · obtain ⟨y, hy⟩ := Option.isSome_iff_exists.mp hs
      obtain ⟨h3, rfl⟩ := hobs hs
      exact ⟨r, y, hr, hy ▸ hv, h3⟩
    · rintro ⟨q, y, hq, hy, hinc⟩
      obtain rfl := rowOf_unique hk hr hq
      obtain rfl := valueIs_determined hclash hy hv
      rcases h2 with ⟨h2, _⟩ | ⟨_, rfl⟩
      · exact absurd h2 hinc
      · rfl
    · obtain ⟨y, hy⟩ := Option.isSome_iff_exists.mp hs
      obtain ⟨h3, rfl⟩ := hobs hs
      obtain ⟨u, hcv⟩ := exists_valueIs m r c
      obtain ⟨z, z1, z2⟩ := (hcell i row.period r hil ht hr).2.1 j c u hc hcv
      obtain ⟨z', z1', z2'⟩ := (hcell' i row.period _ hil ht hr').2.1 j c _ hc (valueIs_units hok hr hcv)
      cases u with
      | none => exact absurd ⟨⟨c, List.mem_of_getElem? hc, hcv⟩, _, y, hup, hy ▸ hv⟩ h3
      | some x =>
        have hz : z = some x := by
          rcases z2 with ⟨z2, _⟩ | ⟨_, z2⟩
          · exact absurd z2 h3
          · exact z2
        refine ⟨x, by rw [z1, hz], by rw [z1', kept_units hclash hok hr _ z2 z2', hz]; rfl, ?_⟩
        rintro rfl
        rcases hcv with ⟨f, o, _, he, _⟩ | ⟨_, he⟩
        · exact absurd he (constant_ne o f)
        · simpa [baseValue] using he
  · obtain ⟨r, hr⟩ := exists_rowOf df ids pers t hil
    have hr' := unitRow_rowOf (a := a) (b := b) hr
    have hc : (m.observedFactors.getD [])[j]? = some (m.observedFactors.getD [])[j] := List.getElem?_eq_getElem hj
    generalize (m.observedFactors.getD [])[j] = c at hc
    obtain ⟨v, hv⟩ := exists_valueIs m r c
    obtain ⟨w, h1, h2⟩ := (hcell i t r hil ht hr).2.2 j c v hc hv
    obtain ⟨w', h1', h2'⟩ := (hcell' i t _ hil ht hr').2.2 j c _ hc (valueIs_units hok hr hv)
    obtain ⟨e1, e2⟩ := hok.observed (pers.getD t 0) c (List.mem_of_getElem? hc)
    rw [h1, h1', kept_units hclash hok hr _ h2 h2', map_unit _ e1 e2]

end Skill
