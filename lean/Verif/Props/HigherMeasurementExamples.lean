import Verif.Props.HigherMeasurement
import Verif.Props.OwnDataExamples
import Verif.Props.CorrelationExamples
import Verif.Props.FilteredEquivalenceExamples

/-! Examples for C141. -/

namespace Skill
open Spec
namespace Ex

/-- In the first period the first two individuals differ only in `y1`. -/
noncomputable def rankedRow (id period : Int) : LongRow ℝ where
  id := id
  period := period
  cell c := some (if period = 10 ∧ c ≠ "y1" then (if id = 3 then 1 else 0) else (id + period : ℤ))

noncomputable def ranked : LongData ℝ where
  columns := ["y1", "y2", "w", "x", "o"]
  idLevel := [1, 2, 3]
  periodLevel := [10, 20]
  rows := [rankedRow 1 10, rankedRow 2 10, rankedRow 3 10, rankedRow 1 20, rankedRow 2 20, rankedRow 3 20]

theorem mem_ranked {r : LongRow ℝ} : r ∈ ranked.rows ↔ ∃ x ∈ ([1, 2, 3] : List Int), r = rankedRow x 10 ∨ r = rankedRow x 20 := by
  simp only [ranked, List.mem_cons, List.not_mem_nil, or_false, exists_eq_or_imp, exists_eq_left]
  tauto

theorem ranked_index : IndexOk ranked ∧ NoUnusedPeriods ranked ∧ UniqueKeys ranked := by
  refine ⟨⟨by show ([1, 2, 3] : List Int).Nodup; decide, by show ([10, 20] : List Int).Nodup; decide, ?_, ?_⟩, ?_, ?_⟩
  · intro r hr
    obtain ⟨x, hx, rfl | rfl⟩ := mem_ranked.mp hr <;> exact hx
  · intro r hr
    obtain ⟨x, hx, rfl | rfl⟩ := mem_ranked.mp hr <;> simp [ranked, rankedRow]
  · intro p hp
    simp only [ranked, List.mem_cons, List.not_mem_nil, or_false] at hp
    rcases hp with rfl | rfl
    · exact ⟨_, mem_ranked.mpr ⟨1, by simp, Or.inl rfl⟩, rfl⟩
    · exact ⟨_, mem_ranked.mpr ⟨1, by simp, Or.inr rfl⟩, rfl⟩
  · show ([(1, 10), (2, 10), (3, 10), (1, 20), (2, 20), (3, 20)] : List (Int × Int)).Nodup
    decide

theorem ranked_ids : IdsOf ranked [1, 2, 3] ∧ PeriodsOf ranked [10, 20] := by
  refine ⟨⟨by decide, fun x => ⟨fun hx => ⟨_, mem_ranked.mpr ⟨x, hx, Or.inl rfl⟩, rfl⟩, ?_⟩⟩, ⟨by decide, fun p => ⟨fun hp => ?_, ?_⟩⟩⟩
  · rintro ⟨r, hr, rfl⟩
    obtain ⟨x, hx, rfl | rfl⟩ := mem_ranked.mp hr <;> exact hx
  · simp only [List.mem_cons, List.not_mem_nil, or_false] at hp
    rcases hp with rfl | rfl
    · exact ⟨_, mem_ranked.mpr ⟨1, by simp, Or.inl rfl⟩, rfl⟩
    · exact ⟨_, mem_ranked.mpr ⟨1, by simp, Or.inr rfl⟩, rfl⟩
  · rintro ⟨r, hr, rfl⟩
    obtain ⟨x, hx, rfl | rfl⟩ := mem_ranked.mp hr <;> simp [rankedRow]

theorem ranked_row {i t : ℕ} (hi : i < ([1, 2, 3] : List Int).length) (ht : t < 2) : RowOf ranked [1, 2, 3] [10, 20] i t (some (rankedRow ([1, 2, 3] : List Int)[i] (10 * (t + 1)))) := by
  obtain rfl | rfl : t = 0 ∨ t = 1 := by omega
  · exact ⟨mem_ranked.mpr ⟨_, List.getElem_mem hi, Or.inl rfl⟩, List.getElem?_eq_getElem hi, rfl⟩
  · exact ⟨mem_ranked.mpr ⟨_, List.getElem_mem hi, Or.inr rfl⟩, List.getElem?_eq_getElem hi, rfl⟩

theorem ranked_value {i t : ℕ} (hi : i < ([1, 2, 3] : List Int).length) (ht : t < 2) {c : String} (hc : c ≠ "constant") :
    HasValue linearModel ranked [1, 2, 3] [10, 20] i t c ((rankedRow ([1, 2, 3] : List Int)[i] (10 * (t + 1))).cell c) :=
  ⟨hi, _, ranked_row hi ht, (valueIs_of_none rfl _ _ _).mpr (by simp [baseValue, hc])⟩

theorem ranked_ok : DataOk linearModel ranked [1, 2, 3] [10, 20] where
  keys := ranked_index.2.2
  outcomes := by rintro f o ⟨a, ⟨⟩, _⟩
  controls := by
    intro t ht c hc
    have ht := (linearModel_period t).mp ht
    simp only [linearModel, Option.getD_some, List.mem_cons, List.not_mem_nil, or_false] at hc
    rcases hc with rfl | rfl
    · exact ⟨Or.inr (Or.inl rfl), 0, 1, by decide, _, ranked_row (by decide) ht, (valueIs_of_none rfl _ _ _).mpr rfl⟩
    · exact ⟨Or.inl (by simp [ranked]), 0, _, ranked_value (by decide) ht (by decide)⟩
  measurements := by
    intro t v hv
    obtain ⟨ht, hv⟩ := (linearModel_update t v).mp hv
    have hv' : v ≠ "constant" := by rintro rfl; simp at hv
    refine ⟨Or.inl (by simp only [ranked, List.mem_cons] at hv ⊢; tauto), ?_⟩
    rintro ⟨y, hy⟩
    have e2 := (hy _).mp ⟨_, ranked_value (i := 0) (by decide) ht hv'⟩
    have e3 := (hy _).mp ⟨_, ranked_value (i := 2) (by decide) ht hv'⟩
    rw [← e3] at e2
    obtain rfl | rfl : t = 0 ∨ t = 1 := by omega
    all_goals
      by_cases h1 : v = "y1" <;> simp [h1] at e2
  observed := by
    intro t ht f hf
    have ht := (linearModel_period t).mp ht
    simp only [linearModel, Option.getD_some, List.mem_singleton] at hf
    subst hf
    refine ⟨Or.inl (by simp [ranked]), ?_⟩
    rintro i ⟨hi, r, hr, hv⟩
    rw [valueIs_of_none rfl, rowOf_unique ranked_index.2.2 hr (ranked_row hi ht)] at hv
    simp [baseValue, rankedRow] at hv

theorem linearModel_onlyMeasures : OnlyMeasures linearModel 0 "y1" "a" where
  measures g := by
    rw [linearModel_measures]
    have h : ("y1" : String) ≠ "w" := by decide
    simp [h]
  notConstant := by decide
  notControl := by decide
  notObserved := by decide
  notOutcome := by rintro ⟨g, a, ⟨⟩, _⟩

theorem ranked_higher : HigherMeasurement linearModel 0 "y1" ranked [1, 2, 3] [10, 20] 0 ranked [1, 2, 3] [10, 20] 1 where
  first := by decide
  second := by decide
  before t _ h := absurd h (Nat.not_lt_zero t)
  others r r' hr hr' c _ hc := by
    rw [rowOf_unique ranked_index.2.2 hr (ranked_row (by decide) (by decide)), rowOf_unique ranked_index.2.2 hr' (ranked_row (by decide) (by decide))]
    simp [rankedRow, hc]
  higher r r' hr hr' := by
    rw [rowOf_unique ranked_index.2.2 hr (ranked_row (by decide) (by decide)), rowOf_unique ranked_index.2.2 hr' (ranked_row (by decide) (by decide))]
    refine ⟨11, 12, ?_, ?_, by norm_num⟩
    · simp [rankedRow]
    · simp [rankedRow]

/-- C141 is not vacuous: the second individual has a higher value of `y1` in the first period than the first individual, and the same other values. Its filtered state of factor `a` in this period is not lower. -/
theorem C141_example (custom : String → CustomFn) (nan : ℝ) : ∃ (qr : QR) (params : List (Loc × ℝ)) (out : FilteredStates) (cells cells' : String → ℝ), ValidQR qr ∧
    getFilteredStates qr custom nan linearModel ranked params = .ok out ∧ out.unanchored.states.rows[0]? = some (0, cells) ∧ out.unanchored.states.rows[1]? = some (0, cells') ∧ cells "a" ≤ cells' "a" := by
  obtain ⟨qr, hqr⟩ := validQR
  obtain ⟨pm, hpm, _, _⟩ := linearModel_ok
  have hfst : (panelParams pm).map Prod.fst = pm.paramsIndex := by unfold panelParams; rw [List.map_map]; exact List.map_id _
  have hnodup : ((panelParams pm).map Prod.fst).Nodup := by rw [hfst]; exact C06_index_unique_partial hpm linearModel_names
  have hvals : ∀ l x, (l, x) ∈ panelParams pm → x = linearValues l := by
    intro l x h
    obtain ⟨l', _, h⟩ := List.mem_map.mp h
    rw [Prod.mk.injEq] at h
    rw [← h.1, ← h.2]
  have hmeas : ∀ t, IsPeriod linearModel t → ∃ v f, Measures linearModel t v f := linearModel_linear.measured
  obtain ⟨out, hout, _⟩ := C86_get_filtered_states qr hpm linearModel_names linearModel_clean (by rintro a os ⟨⟩) (noNameClash_of_none rfl) (fun f hf => (linearModel_factors f hf).1) (fun f hf => (linearModel_factors f hf).2)
    linearModel_linear.periods (fun t ht => by
      obtain ⟨v, f, h⟩ := hmeas t ht
      exact ⟨v, f, h, fun ⟨g, hg⟩ => linearModel_noAnchors v g hg⟩)
    linearModel_linear.mixture (Or.inl rfl) ranked_index.1 ranked_index.2.1 ranked_ids.1 ranked_ids.2 ranked_ok custom nan hnodup
    (fun l hl => by rw [hfst]; exact (mem_paramsIndex_iff hpm l).mpr hl) hvals (fun fs hfs => linearModel_usable custom fs.1 fs.2 hfs _)
  obtain ⟨⟨cells, cells', h1, h2, _, _, h3⟩, _⟩ := C141_monotone hqr linearModel_names linearModel_clean (by rintro a os ⟨⟩) (noNameClash_of_none rfl) (fun f hf => (linearModel_factors f hf).2) linearModel_linear.periods hmeas
    linearModel_linear.mixture (by norm_num) ranked_index.1 ranked_index.1 ranked_index.2.1 ranked_index.2.1 ranked_ids.1 ranked_ids.2 ranked_ids.1 ranked_ids.2 hnodup hvals hout hout
    (f := "a") ⟨_, List.mem_cons_self⟩ linearModel_onlyMeasures ranked_higher (fun w _ => by unfold linearValues; split_ifs <;> norm_num) (by unfold linearValues; split_ifs <;> norm_num)
  exact ⟨qr, _, out, cells, cells', hqr, hout, h1, h2, h3⟩

end Ex
end Skill
