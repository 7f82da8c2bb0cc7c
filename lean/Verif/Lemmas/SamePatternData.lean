import Verif.Spec.SamePattern
import Verif.Lemmas.OwnData
import Verif.Lemmas.SamePattern
import Verif.Props.Pipeline
/- Measurements of individuals that have missing values at the same places. -/
namespace Skill
open Matrix Spec

theorem base_missing {m : ModelDict ℝ} {r r' : Option (LongRow ℝ)} (h : SameMissings m r r') {c : String} (hc : c = "constant" ∨ UsedColumn m c) : baseValue r c = none ↔ baseValue r' c = none := by
  unfold baseValue
  by_cases h0 : c = "constant"
  · rw [if_pos h0, if_pos h0]
  · rw [if_neg h0, if_neg h0]
    exact h c (hc.resolve_left h0)

theorem base_some {m : ModelDict ℝ} {r r' : Option (LongRow ℝ)} (h : SameMissings m r r') {c : String} (hc : c = "constant" ∨ UsedColumn m c) : (∃ y, some y = baseValue r c) ↔ ∃ y, some y = baseValue r' c := by
  have := base_missing h hc
  cases h1 : baseValue r c with
  | none => rw [this.mp h1]
  | some x =>
    cases h2 : baseValue r' c with
    | none => rw [this.mpr h2] at h1; cases h1
    | some x' => exact ⟨fun _ => ⟨x', rfl⟩, fun _ => ⟨x, rfl⟩⟩

theorem valueIs_missing {m : ModelDict ℝ} {r r' : Option (LongRow ℝ)} (h : SameMissings m r r') {c : String} (hc : c = "constant" ∨ UsedColumn m c ∨ ∃ f, Anchors m c f) :
    (ValueIs m r c none → ValueIs m r' c none) ∧ ∀ y, ValueIs m r c (some y) → ∃ y', ValueIs m r' c (some y') := by
  refine ⟨?_, fun y => ?_⟩
  · rintro (⟨f, o, ho, he, hv⟩ | ⟨hn, hv⟩)
    · exact Or.inl ⟨f, o, ho, he, ((base_missing h (Or.inr (Or.inr (Or.inl ⟨f, ho⟩)))).mp hv.symm).symm⟩
    · exact Or.inr ⟨hn, ((base_missing h (by tauto)).mp hv.symm).symm⟩
  · rintro (⟨f, o, ho, he, hv⟩ | ⟨hn, hv⟩)
    · obtain ⟨y', hy'⟩ := (base_some h (Or.inr (Or.inr (Or.inl ⟨f, ho⟩)))).mp ⟨y, hv⟩
      exact ⟨y', Or.inl ⟨f, o, ho, he, hy'⟩⟩
    · obtain ⟨y', hy'⟩ := (base_some h (by tauto)).mp ⟨y, hv⟩
      exact ⟨y', Or.inr ⟨hn, hy'⟩⟩

theorem sameMissings_symm {m : ModelDict ℝ} {r r' : Option (LongRow ℝ)} (h : SameMissings m r r') : SameMissings m r' r := fun c hc => (h c hc).symm

theorem isUpdate_used {m : ModelDict ℝ} {t : ℕ} {w : String} (hw : IsUpdate m t w) : w = "constant" ∨ UsedColumn m w ∨ ∃ f, Anchors m w f := by
  rcases hw with ⟨f, hM⟩ | ⟨_, hA⟩
  · exact Or.inr (Or.inl (Or.inl ⟨t, f, hM⟩))
  · exact Or.inr (Or.inr hA)

theorem incomplete_missing {m : ModelDict ℝ} {r r' : Option (LongRow ℝ)} (h : SameMissings m r r') {t : ℕ} (hi : IncompleteControls m r t) : IncompleteControls m r' t := by
  obtain ⟨⟨c, hc, hv⟩, w, y, hw, hy⟩ := hi
  refine ⟨⟨c, hc, (valueIs_missing h ?_).1 hv⟩, ?_⟩
  · rcases List.mem_cons.mp hc with hc | hc
    · exact Or.inl hc
    · exact Or.inr (Or.inl (Or.inr (Or.inr (Or.inl hc))))
  · obtain ⟨y', hy'⟩ := (valueIs_missing h (isUpdate_used hw)).2 y hy
    exact ⟨w, y', hw, hy'⟩

theorem kept_missing {m : ModelDict ℝ} {r r' : Option (LongRow ℝ)} (h : SameMissings m r r') {t : ℕ} {v w v' w' : Option ℝ} (hv : v.isSome = v'.isSome) (hw : Kept m r t v w) (hw' : Kept m r' t v' w') : w.isSome = w'.isSome := by
  rcases hw with ⟨h1, rfl⟩ | ⟨h1, rfl⟩ <;> rcases hw' with ⟨h2, rfl⟩ | ⟨h2, rfl⟩
  · rfl
  · exact absurd (incomplete_missing h h1) h2
  · exact absurd (incomplete_missing (sameMissings_symm h) h2) h1
  · exact hv

/-- The same measurements of the two individuals are used. -/
theorem data_pattern {m : ModelDict ℝ} {pm : Processed ℝ} (hpm : processModel m = .ok pm) (hd : DictKeys m) (hclash : NoNameClash m) {df df' : LongData ℝ} (hi : IndexOk df) (hi' : IndexOk df')
    (hu : NoUnusedPeriods df) (hu' : NoUnusedPeriods df') {ids pers ids' pers' : List Int} (hids : IdsOf df ids) (hpers : PeriodsOf df pers) (hids' : IdsOf df' ids') (hpers' : PeriodsOf df' pers')
    {data data' : ProcessedData ℝ} (h : processData df pm.labels pm.updateInfo pm.anchoring .estimation = .ok data) (h' : processData df' pm.labels pm.updateInfo pm.anchoring .estimation = .ok data')
    {T i i' : ℕ} (hs : SamePatternUpTo m T df ids pers i df' ids' pers' i') (k : ℕ) (row : URow) (hrow : pm.updateInfo[k]? = some row) (hT : row.period ≤ T) :
    ∃ w w', entry2 (data.measurements.getD []) k i = some w ∧ entry2 (data'.measurements.getD []) k i' = some w' ∧ w.isSome = w'.isSome := by
  obtain ⟨meas, hm, _, _, _, hcell⟩ := C27_data_arrays hpm hd hclash hi hu hids hpers h
  obtain ⟨meas', hm', _, _, _, hcell'⟩ := C27_data_arrays hpm hd hclash hi' hu' hids' hpers' h'
  obtain ⟨hs1, hs2, hs⟩ := hs
  rw [hm, hm', Option.getD_some, Option.getD_some]
  have hup : IsUpdate m row.period row.var := ((C01_update_info_exact hpm).2.1 _ _).mp ⟨row, List.mem_of_getElem? hrow, rfl, rfl⟩
  have ht := isUpdate_period hup
  obtain ⟨r, hr⟩ := exists_rowOf df ids pers row.period hs1
  obtain ⟨r', hr'⟩ := exists_rowOf df' ids' pers' row.period hs2
  have hsc := hs _ ht hT r r' hr hr'
  obtain ⟨v, hv⟩ := exists_valueIs m r row.var
  obtain ⟨v', hv', hvv⟩ : ∃ v', ValueIs m r' row.var v' ∧ v.isSome = v'.isSome := by
    obtain ⟨g1, g2⟩ := valueIs_missing hsc (isUpdate_used hup)
    cases v with
    | none => exact ⟨none, g1 hv, rfl⟩
    | some y =>
      obtain ⟨y', hy'⟩ := g2 y hv
      exact ⟨some y', hy', rfl⟩
  obtain ⟨w, h1, h2⟩ := (hcell i row.period r hs1 ht hr).1 k row v hrow rfl hv
  obtain ⟨w', h1', h2'⟩ := (hcell' i' row.period r' hs2 ht hr').1 k row v' hrow rfl hv'
  exact ⟨w, w', h1, h1', kept_missing hsc hvv h2 h2'⟩

end Skill
