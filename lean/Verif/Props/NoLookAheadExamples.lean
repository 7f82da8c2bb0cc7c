import Verif.Props.NoLookAhead
import Verif.Props.OwnDataExamples

/-! Examples for C132. -/

namespace Skill
open Spec
namespace Ex

/-- The individuals of `panel` with other values in the second period. -/
noncomputable def lateRow (id period : Int) : LongRow ℝ where
  id := id
  period := period
  cell _ := some (id + period + if period = 20 then 1000 else 0)

noncomputable def late (ids : List Int) : LongData ℝ where
  columns := ["y1", "y2", "w", "x", "o"]
  idLevel := ids
  periodLevel := [10, 20]
  rows := ids.map (fun x => lateRow x 10) ++ ids.map (fun x => lateRow x 20)

theorem mem_late {ids : List Int} {r : LongRow ℝ} : r ∈ (late ids).rows ↔ ∃ x ∈ ids, r = lateRow x 10 ∨ r = lateRow x 20 := by
  simp only [late, List.mem_append, List.mem_map]
  constructor
  · rintro (⟨x, hx, rfl⟩ | ⟨x, hx, rfl⟩)
    · exact ⟨x, hx, Or.inl rfl⟩
    · exact ⟨x, hx, Or.inr rfl⟩
  · rintro ⟨x, hx, rfl | rfl⟩
    · exact Or.inl ⟨x, hx, rfl⟩
    · exact Or.inr ⟨x, hx, rfl⟩

variable {ids : List Int}

theorem late_index (hs : ids.Pairwise (· < ·)) (hne : ids ≠ []) : IndexOk (late ids) ∧ NoUnusedPeriods (late ids) ∧ UniqueKeys (late ids) := by
  have hn : ids.Nodup := hs.imp (fun h => ne_of_lt h)
  refine ⟨⟨hn, by show ([10, 20] : List Int).Nodup; decide, ?_, ?_⟩, ?_, ?_⟩
  · intro r hr
    obtain ⟨x, hx, rfl | rfl⟩ := mem_late.mp hr <;> exact hx
  · intro r hr
    obtain ⟨x, hx, rfl | rfl⟩ := mem_late.mp hr <;> simp [late, lateRow]
  · intro p hp
    obtain ⟨x, hx⟩ := List.exists_mem_of_ne_nil _ hne
    simp only [late, List.mem_cons, List.not_mem_nil, or_false] at hp
    rcases hp with rfl | rfl
    · exact ⟨_, mem_late.mpr ⟨x, hx, Or.inl rfl⟩, rfl⟩
    · exact ⟨_, mem_late.mpr ⟨x, hx, Or.inr rfl⟩, rfl⟩
  · unfold UniqueKeys late
    rw [List.map_append, List.map_map, List.map_map, List.nodup_append]
    refine ⟨hn.map (fun x y h => (Prod.mk.inj h).1), hn.map (fun x y h => (Prod.mk.inj h).1), ?_⟩
    intro a ha b hb e
    obtain ⟨x, _, rfl⟩ := List.mem_map.mp ha
    obtain ⟨y, _, rfl⟩ := List.mem_map.mp hb
    have := (Prod.mk.inj e).2
    simp [lateRow] at this

theorem late_ids (hs : ids.Pairwise (· < ·)) (hne : ids ≠ []) : IdsOf (late ids) ids ∧ PeriodsOf (late ids) [10, 20] := by
  obtain ⟨x0, hx0⟩ := List.exists_mem_of_ne_nil _ hne
  refine ⟨⟨hs, fun x => ⟨fun hx => ⟨_, mem_late.mpr ⟨x, hx, Or.inl rfl⟩, rfl⟩, ?_⟩⟩, ⟨by decide, fun p => ⟨fun hp => ?_, ?_⟩⟩⟩
  · rintro ⟨r, hr, rfl⟩
    obtain ⟨x, hx, rfl | rfl⟩ := mem_late.mp hr <;> exact hx
  · simp only [List.mem_cons, List.not_mem_nil, or_false] at hp
    rcases hp with rfl | rfl
    · exact ⟨_, mem_late.mpr ⟨x0, hx0, Or.inl rfl⟩, rfl⟩
    · exact ⟨_, mem_late.mpr ⟨x0, hx0, Or.inr rfl⟩, rfl⟩
  · rintro ⟨r, hr, rfl⟩
    obtain ⟨x, hx, rfl | rfl⟩ := mem_late.mp hr <;> simp [lateRow]

theorem late_row {i t : ℕ} (hi : i < ids.length) (ht : t < 2) : RowOf (late ids) ids [10, 20] i t (some (lateRow ids[i] (10 * (t + 1)))) := by
  obtain rfl | rfl : t = 0 ∨ t = 1 := by omega
  · exact ⟨mem_late.mpr ⟨_, List.getElem_mem hi, Or.inl rfl⟩, List.getElem?_eq_getElem hi, rfl⟩
  · exact ⟨mem_late.mpr ⟨_, List.getElem_mem hi, Or.inr rfl⟩, List.getElem?_eq_getElem hi, rfl⟩

theorem late_value {i t : ℕ} (hi : i < ids.length) (ht : t < 2) {c : String} (hc : c ≠ "constant") : HasValue linearModel (late ids) ids [10, 20] i t c (some (ids[i] + (10 * (t + 1) : ℤ) + if (10 * (t + 1) : ℤ) = 20 then 1000 else 0)) :=
  ⟨hi, _, late_row hi ht, (valueIs_of_none rfl _ _ _).mpr (by simp [baseValue, hc, lateRow])⟩

theorem late_ok (hs : ids.Pairwise (· < ·)) (h2 : 2 ≤ ids.length) : DataOk linearModel (late ids) ids [10, 20] where
  keys := (late_index hs (by rintro rfl; simp at h2)).2.2
  outcomes := by rintro f o ⟨a, ⟨⟩, _⟩
  controls := by
    intro t ht c hc
    have ht := (linearModel_period t).mp ht
    simp only [linearModel, Option.getD_some, List.mem_cons, List.not_mem_nil, or_false] at hc
    rcases hc with rfl | rfl
    · exact ⟨Or.inr (Or.inl rfl), 0, 1, by omega, _, late_row (by omega) ht, (valueIs_of_none rfl _ _ _).mpr rfl⟩
    · exact ⟨Or.inl (by simp [late]), 0, _, late_value (by omega) ht (by decide)⟩
  measurements := by
    intro t v hv
    obtain ⟨ht, hv⟩ := (linearModel_update t v).mp hv
    have hv' : v ≠ "constant" := by rintro rfl; simp at hv
    refine ⟨Or.inl (by simp only [late, List.mem_cons] at hv ⊢; tauto), ?_⟩
    rintro ⟨y, hy⟩
    have e2 := (hy _).mp ⟨_, late_value (i := 0) (by omega) ht hv'⟩
    have e3 := (hy _).mp ⟨_, late_value (i := 1) (by omega) ht hv'⟩
    rw [← e3] at e2
    have e4 : ids[0] = ids[1] := by exact_mod_cast add_right_cancel (add_right_cancel e2)
    have := List.pairwise_iff_getElem.mp hs 0 1 (by omega) (by omega) (by norm_num)
    omega
  observed := by
    intro t ht f hf
    have ht := (linearModel_period t).mp ht
    simp only [linearModel, Option.getD_some, List.mem_singleton] at hf
    subst hf
    refine ⟨Or.inl (by simp [late]), ?_⟩
    rintro i ⟨hi, r, hr, hv⟩
    rw [valueIs_of_none rfl, rowOf_unique (late_index hs (by rintro rfl; simp at h2)).2.2 hr (late_row hi ht)] at hv
    simp [baseValue, lateRow] at hv

theorem late_evaluates (qr : QR) (custom : String → CustomFn) (nan : ℝ) {pm : Processed ℝ} (hpm : processModel linearModel = .ok pm) (hs : ids.Pairwise (· < ·)) (h2 : 2 ≤ ids.length) :
    ∃ inputs out, getMaximizationInputs linearModel (late ids) = .ok inputs ∧ inputs.loglike qr custom nan linearModel (panelParams pm) = .ok out := by
  have hne : ids ≠ [] := by rintro rfl; simp at h2
  obtain ⟨inputs, updates0, hin, hen0, hout⟩ := C70_likelihood_evaluates qr hpm linearModel_names linearModel_clean (by rintro a os ⟨⟩) (noNameClash_of_none rfl)
    (by
      rintro f ⟨spec, hmem⟩
      simp only [linearModel, List.mem_cons, Prod.mk.injEq, List.not_mem_nil, or_false] at hmem
      rcases hmem with ⟨rfl, rfl⟩ | ⟨rfl, rfl⟩ <;> decide)
    linearModel_linear.periods linearModel_linear.mixture (Or.inl rfl) (late_index hs hne).1 (late_index hs hne).2.1 (late_ids hs hne).1 (late_ids hs hne).2 (late_ok hs h2)
  have hix : inputs.index = pm.paramsIndex := by
    have h := hin
    unfold getMaximizationInputs at h
    simp only [py_bind_ok, py_pure_ok] at h
    obtain ⟨pm', hpm', _, _, _, _, _, _, rfl⟩ := h
    obtain rfl := Except.ok.inj (hpm.symm.trans hpm')
    rfl
  have hfst : (panelParams pm).map Prod.fst = pm.paramsIndex := by unfold panelParams; rw [List.map_map]; exact List.map_id _
  obtain ⟨out, hout, _⟩ := hout custom nan (panelParams pm) linearValues (by rw [hfst]; exact C06_index_unique_partial hpm linearModel_names) (fun l => by rw [hfst, hix])
    (by
      intro l x h
      obtain ⟨l', _, h⟩ := List.mem_map.mp h
      rw [Prod.mk.injEq] at h
      rw [← h.1, ← h.2])
    (by
      rintro ⟨f, spec⟩ hmem
      rcases linearModel_linear.transitions f spec hmem with h | h <;> rw [h] <;> exact ⟨rfl, fun h => by simp at h⟩)
  exact ⟨inputs, out, hin, hout⟩

/-- C132 is not vacuous: the datasets have the same values in the first period and other values in the second period. The contributions of individual 3 to the likelihood of the first period are the same, although it is the
first individual of one dataset and the second individual of the other dataset. -/
theorem C132_example (nan : ℝ) (custom : String → CustomFn) : ∃ (qr : QR) (params : List (Loc × ℝ)) (inputs inputs' : MaximizationInputs) (out out' : LoglikeOutput),
    getMaximizationInputs linearModel (panel [3, 5]) = .ok inputs ∧ getMaximizationInputs linearModel (late [1, 3]) = .ok inputs' ∧ inputs.loglike qr custom nan linearModel params = .ok out ∧
      inputs'.loglike qr custom nan linearModel params = .ok out' ∧ ∃ x, entry2 out.allContributions 0 0 = some x ∧ entry2 out'.allContributions 0 1 = some x := by
  obtain ⟨qr, _⟩ := validQR
  obtain ⟨pm, hpm, _, _⟩ := linearModel_ok
  obtain ⟨inputs, out, h1, e1⟩ := panel_evaluates (ids := [3, 5]) qr custom nan hpm (by decide) (by decide)
  obtain ⟨inputs', out', h2, e2⟩ := late_evaluates (ids := [1, 3]) qr custom nan hpm (by decide) (by decide)
  have i1 := panel_index (ids := [3, 5]) (by decide) (by decide)
  have i2 := late_index (ids := [1, 3]) (by decide) (by decide)
  have j1 := panel_ids (ids := [3, 5]) (by decide) (by decide)
  have j2 := late_ids (ids := [1, 3]) (by decide) (by decide)
  refine ⟨qr, _, inputs, inputs', out, out', h1, h2, e1, e2, ?_⟩
  -- the first update belongs to the first period
  obtain ⟨_, hupd, hsort, _⟩ := C01_update_info_exact hpm
  obtain ⟨s, hs, hs0, _⟩ := (hupd 0 "y1").mpr ((linearModel_update 0 "y1").mpr ⟨by omega, by simp⟩)
  obtain ⟨k, hk⟩ := List.getElem?_of_mem hs
  have hpos : 0 < pm.updateInfo.length := by have := (List.getElem?_eq_some_iff.mp hk).1; omega
  have h0 : pm.updateInfo[0].period ≤ 0 := by
    obtain ⟨hkl, hke⟩ := List.getElem?_eq_some_iff.mp hk
    rcases Nat.eq_zero_or_pos k with rfl | hkp
    · rw [hke, hs0]
    · have := List.pairwise_iff_getElem.mp hsort 0 k hpos hkl hkp
      rw [hke, hs0] at this
      exact this
  refine C132_contributions hpm linearModel_names.keys (noNameClash_of_none rfl) i1.1 i2.1 i1.2.1 i2.2.1 j1.1 j1.2 j2.1 j2.2 h1 h2 e1 e2 (T := 0) (i := 0) (i' := 1) ⟨by decide, by decide, fun t ht h0 r r' hr hr' => ?_⟩ 0 _
    (List.getElem?_eq_getElem hpos) h0
  obtain rfl : t = 0 := by omega
  rw [rowOf_unique i1.2.2 hr (panel_row (by decide) (by decide)), rowOf_unique i2.2.2 hr' (late_row (by decide) (by decide))]
  intro c _
  simp [panelRow, lateRow]

end Ex
end Skill
