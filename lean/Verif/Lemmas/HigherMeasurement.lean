import Verif.Spec.HigherMeasurement
import Verif.Lemmas.NoLookAhead
import Verif.Lemmas.TweedieScan
/- The data arrays and the likelihood function for two individuals of which one has a higher measurement. -/
namespace Skill
open Matrix Spec

/-- Values of the model's variables other than `v` are the same in rows that differ only in the column `v`. -/
theorem valueIs_except {m : ModelDict ℝ} {r r' : Option (LongRow ℝ)} {v : String} (hv : ¬∃ g, AnchoredIn m g v)
    (h : ∀ c, UsedColumn m c → c ≠ v → r.bind (fun row => row.cell c) = r'.bind (fun row => row.cell c)) {c : String} (hcv : c ≠ v)
    (hc : c = "constant" ∨ UsedColumn m c ∨ ∃ f, Anchors m c f) (x : Option ℝ) : ValueIs m r c x ↔ ValueIs m r' c x := by
  have hb : ∀ c, c = "constant" ∨ UsedColumn m c → c ≠ v → baseValue r c = baseValue r' c := by
    intro c hc hne
    unfold baseValue
    by_cases h0 : c = "constant"
    · rw [if_pos h0, if_pos h0]
    · rw [if_neg h0, if_neg h0]
      exact h c (hc.resolve_left h0) hne
  unfold ValueIs
  have h1 : (∃ f o, AnchoredIn m f o ∧ c = o ++ "_" ++ f ∧ x = baseValue r o) ↔ ∃ f o, AnchoredIn m f o ∧ c = o ++ "_" ++ f ∧ x = baseValue r' o := by
    refine exists_congr (fun f => exists_congr (fun o => and_congr_right (fun ho => and_congr_right (fun _ => ?_))))
    rw [hb o (Or.inr (Or.inr (Or.inl ⟨f, ho⟩))) (fun e => hv ⟨f, e ▸ ho⟩)]
  have h2 : ((¬∃ f, Anchors m c f) ∧ x = baseValue r c) ↔ ((¬∃ f, Anchors m c f) ∧ x = baseValue r' c) := by
    refine and_congr_right (fun hn => ?_)
    rw [hb c (by tauto) hcv]
  rw [h1, h2]

/-- The data arrays of the two individuals. -/
theorem data_higher {m : ModelDict ℝ} {pm : Processed ℝ} (hpm : processModel m = .ok pm) (hd : DictKeys m) (hc : CleanAnchoring m) (hclash : NoNameClash m) {df df' : LongData ℝ} (hi : IndexOk df) (hi' : IndexOk df')
    (hu : NoUnusedPeriods df) (hu' : NoUnusedPeriods df') {ids pers ids' pers' : List Int} (hids : IdsOf df ids) (hpers : PeriodsOf df pers) (hids' : IdsOf df' ids') (hpers' : PeriodsOf df' pers')
    {data data' : ProcessedData ℝ} (h : processData df pm.labels pm.updateInfo pm.anchoring .estimation = .ok data) (h' : processData df' pm.labels pm.updateInfo pm.anchoring .estimation = .ok data')
    {T i i' : ℕ} {v f : String} (hv : OnlyMeasures m T v f) (hs : HigherMeasurement m T v df ids pers i df' ids' pers' i') :
    (∀ (k : ℕ) (row : URow), pm.updateInfo[k]? = some row → row.period < T ∨ row.period = T ∧ row.var ≠ v → entry2 (data.measurements.getD []) k i = entry2 (data'.measurements.getD []) k i') ∧
    (∀ (k : ℕ) (row : URow), pm.updateInfo[k]? = some row → row.period = T → row.var = v → (entry2 (data.measurements.getD []) k i = some none ∧ entry2 (data'.measurements.getD []) k i' = some none) ∨
      ∃ y y', entry2 (data.measurements.getD []) k i = some (some y) ∧ entry2 (data'.measurements.getD []) k i' = some (some y') ∧ y ≤ y') ∧
    (∀ t, IsPeriod m t → t ≤ T → ∀ j < (m.controls.getD []).length + 1, entry3 data.controls t i j = entry3 data'.controls t i' j) ∧
    (∀ t, IsPeriod m t → t ≤ T → ∀ j < (m.observedFactors.getD []).length, entry3 data.observedFactors t i j = entry3 data'.observedFactors t i' j) := by
  have hbefore : ∀ T' < T, SameHistoryUpTo m T' df ids pers i df' ids' pers' i' := fun T' hT' => ⟨hs.first, hs.second, fun t ht hle => hs.before t ht (by omega)⟩
  have hdata := fun (T' : ℕ) (hT' : T' < T) => data_sameUpTo hpm hd hclash hi hi' hu hu' hids hpers hids' hpers' h h' (hbefore T' hT')
  obtain ⟨meas, hm, _, _, _, hcell⟩ := C27_data_arrays hpm hd hclash hi hu hids hpers h
  obtain ⟨meas', hm', _, _, _, hcell'⟩ := C27_data_arrays hpm hd hclash hi' hu' hids' hpers' h'
  obtain ⟨r, hr⟩ := exists_rowOf df ids pers T hs.first
  obtain ⟨r', hr'⟩ := exists_rowOf df' ids' pers' T hs.second
  have hex := hs.others r r' hr hr'
  obtain ⟨y, y', hy, hy', hle⟩ := hs.higher r r' hr hr'
  have hM : Measures m T v f := (hv.measures f).mpr rfl
  have hperT : IsPeriod m T := isUpdate_period (Or.inl ⟨f, hM⟩)
  have hnA : ¬∃ g, Anchors m v g := fun ⟨g, hA⟩ => hc.notMeasured _ _ _ _ hA hM
  have hval : ValueIs m r v (some y) := Or.inr ⟨hnA, by unfold baseValue; rw [if_neg hv.notConstant, hy]⟩
  have hval' : ValueIs m r' v (some y') := Or.inr ⟨hnA, by unfold baseValue; rw [if_neg hv.notConstant, hy']⟩
  have hcon : ∀ c ∈ "constant" :: m.controls.getD [], c ≠ v ∧ (c = "constant" ∨ UsedColumn m c ∨ ∃ f, Anchors m c f) := by
    intro c hc
    rcases List.mem_cons.mp hc with hc | hc
    · exact ⟨fun e => hv.notConstant (e.symm.trans hc), Or.inl hc⟩
    · exact ⟨fun e => hv.notControl (e ▸ hc), Or.inr (Or.inl (Or.inr (Or.inr (Or.inl hc))))⟩
  have hinc : IncompleteControls m r T ↔ IncompleteControls m r' T := by
    unfold IncompleteControls
    refine and_congr (exists_congr (fun c => and_congr_right (fun hc => valueIs_except hv.notOutcome hex (hcon c hc).1 (hcon c hc).2 _))) ?_
    exact ⟨fun _ => ⟨v, y', Or.inl ⟨f, hM⟩, hval'⟩, fun _ => ⟨v, y, Or.inl ⟨f, hM⟩, hval⟩⟩
  have hkept : ∀ {x w w' : Option ℝ}, Kept m r T x w → Kept m r' T x w' → w = w' := by
    intro x w w' hw hw'
    rcases hw with ⟨h1, rfl⟩ | ⟨h1, rfl⟩ <;> rcases hw' with ⟨h2, rfl⟩ | ⟨h2, rfl⟩
    · rfl
    · exact absurd (hinc.mp h1) h2
    · exact absurd (hinc.mpr h2) h1
    · rfl
  refine ⟨fun k row hrow hp => ?_, fun k row hrow hp hvar => ?_, fun t ht hT j hj => ?_, fun t ht hT j hj => ?_⟩
  · rcases hp with hp | ⟨hp, hne⟩
    · exact (hdata row.period hp).1 k row hrow le_rfl
    rw [hm, hm', Option.getD_some, Option.getD_some]
    have hup : IsUpdate m row.period row.var := ((C01_update_info_exact hpm).2.1 _ _).mp ⟨row, List.mem_of_getElem? hrow, rfl, rfl⟩
    obtain ⟨x, hx⟩ := exists_valueIs m r row.var
    have hx' : ValueIs m r' row.var x := by
      refine (valueIs_except hv.notOutcome hex hne ?_ x).mp hx
      rcases hup with ⟨f, hM⟩ | ⟨_, hA⟩
      · exact Or.inr (Or.inl (Or.inl ⟨_, f, hM⟩))
      · exact Or.inr (Or.inr hA)
    obtain ⟨w, h1, h2⟩ := (hcell i T r hs.first hperT hr).1 k row x hrow hp hx
    obtain ⟨w', h1', h2'⟩ := (hcell' i' T r' hs.second hperT hr').1 k row x hrow hp hx'
    rw [h1, h1', hkept h2 h2']
  · rw [hm, hm', Option.getD_some, Option.getD_some]
    obtain ⟨w, h1, h2⟩ := (hcell i T r hs.first hperT hr).1 k row (some y) hrow hp (hvar ▸ hval)
    obtain ⟨w', h1', h2'⟩ := (hcell' i' T r' hs.second hperT hr').1 k row (some y') hrow hp (hvar ▸ hval')
    rcases h2 with ⟨q, rfl⟩ | ⟨q, rfl⟩ <;> rcases h2' with ⟨q', rfl⟩ | ⟨q', rfl⟩
    · exact Or.inl ⟨h1, h1'⟩
    · exact absurd (hinc.mp q) q'
    · exact absurd (hinc.mpr q') q
    · exact Or.inr ⟨y, y', h1, h1', hle⟩
  · rcases hT.lt_or_eq with hT | rfl
    · exact (hdata t hT).2.1 t ht le_rfl j hj
    have hj' : j < ("constant" :: m.controls.getD []).length := by simpa using hj
    have hc : ("constant" :: m.controls.getD [])[j]? = some ("constant" :: m.controls.getD [])[j] := List.getElem?_eq_getElem hj'
    generalize ("constant" :: m.controls.getD [])[j] = c at hc
    obtain ⟨x, hx⟩ := exists_valueIs m r c
    have hcc := hcon c (List.mem_of_getElem? hc)
    obtain ⟨w, h1, h2⟩ := (hcell i t r hs.first ht hr).2.1 j c x hc hx
    obtain ⟨w', h1', h2'⟩ := (hcell' i' t r' hs.second ht hr').2.1 j c x hc ((valueIs_except hv.notOutcome hex hcc.1 hcc.2 x).mp hx)
    rw [h1, h1', hkept h2 h2']
  · rcases hT.lt_or_eq with hT | rfl
    · exact (hdata t hT).2.2 t ht le_rfl j hj
    have hc : (m.observedFactors.getD [])[j]? = some (m.observedFactors.getD [])[j] := List.getElem?_eq_getElem hj
    generalize (m.observedFactors.getD [])[j] = c at hc
    have hmem := List.mem_of_getElem? hc
    obtain ⟨x, hx⟩ := exists_valueIs m r c
    obtain ⟨w, h1, h2⟩ := (hcell i t r hs.first ht hr).2.2 j c x hc hx
    obtain ⟨w', h1', h2'⟩ := (hcell' i' t r' hs.second ht hr').2.2 j c x hc ((valueIs_except hv.notOutcome hex (fun e => hv.notObserved (e ▸ hmem)) (Or.inr (Or.inl (Or.inr (Or.inr (Or.inr hmem))))) x).mp hx)
    rw [h1, h1', hkept h2 h2']

end Skill
