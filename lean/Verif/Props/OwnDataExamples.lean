import Verif.Props.OwnStates
import Verif.Props.RescalingExamples
import Verif.Props.TransitionPlotsExamples

/-! Examples for C113. -/

namespace Skill
open Spec
namespace Ex

/-- Individuals in two periods, one row after the other. -/
noncomputable def panelRow (id period : Int) : LongRow ℝ where
  id := id
  period := period
  cell _ := some (id + period)

noncomputable def panel (ids : List Int) : LongData ℝ where
  columns := ["y1", "y2", "w", "x", "o"]
  idLevel := ids
  periodLevel := [10, 20]
  rows := ids.map (fun x => panelRow x 10) ++ ids.map (fun x => panelRow x 20)

theorem mem_panel {ids : List Int} {r : LongRow ℝ} : r ∈ (panel ids).rows ↔ ∃ x ∈ ids, r = panelRow x 10 ∨ r = panelRow x 20 := by
  simp only [panel, List.mem_append, List.mem_map]
  constructor
  · rintro (⟨x, hx, rfl⟩ | ⟨x, hx, rfl⟩)
    · exact ⟨x, hx, Or.inl rfl⟩
    · exact ⟨x, hx, Or.inr rfl⟩
  · rintro ⟨x, hx, rfl | rfl⟩
    · exact Or.inl ⟨x, hx, rfl⟩
    · exact Or.inr ⟨x, hx, rfl⟩

variable {ids : List Int}

theorem panel_index (hs : ids.Pairwise (· < ·)) (hne : ids ≠ []) : IndexOk (panel ids) ∧ NoUnusedPeriods (panel ids) ∧ UniqueKeys (panel ids) := by
  have hn : ids.Nodup := hs.imp (fun h => ne_of_lt h)
  refine ⟨⟨hn, by show ([10, 20] : List Int).Nodup; decide, ?_, ?_⟩, ?_, ?_⟩
  · intro r hr
    obtain ⟨x, hx, rfl | rfl⟩ := mem_panel.mp hr <;> exact hx
  · intro r hr
    obtain ⟨x, hx, rfl | rfl⟩ := mem_panel.mp hr <;> simp [panel, panelRow]
  · intro p hp
    obtain ⟨x, hx⟩ := List.exists_mem_of_ne_nil _ hne
    simp only [panel, List.mem_cons, List.not_mem_nil, or_false] at hp
    rcases hp with rfl | rfl
    · exact ⟨_, mem_panel.mpr ⟨x, hx, Or.inl rfl⟩, rfl⟩
    · exact ⟨_, mem_panel.mpr ⟨x, hx, Or.inr rfl⟩, rfl⟩
  · unfold UniqueKeys panel
    rw [List.map_append, List.map_map, List.map_map, List.nodup_append]
    refine ⟨hn.map (fun x y h => (Prod.mk.inj h).1), hn.map (fun x y h => (Prod.mk.inj h).1), ?_⟩
    intro a ha b hb e
    obtain ⟨x, _, rfl⟩ := List.mem_map.mp ha
    obtain ⟨y, _, rfl⟩ := List.mem_map.mp hb
    have := (Prod.mk.inj e).2
    simp [panelRow] at this

theorem panel_ids (hs : ids.Pairwise (· < ·)) (hne : ids ≠ []) : IdsOf (panel ids) ids ∧ PeriodsOf (panel ids) [10, 20] := by
  obtain ⟨x0, hx0⟩ := List.exists_mem_of_ne_nil _ hne
  refine ⟨⟨hs, fun x => ⟨fun hx => ⟨_, mem_panel.mpr ⟨x, hx, Or.inl rfl⟩, rfl⟩, ?_⟩⟩, ⟨by decide, fun p => ⟨fun hp => ?_, ?_⟩⟩⟩
  · rintro ⟨r, hr, rfl⟩
    obtain ⟨x, hx, rfl | rfl⟩ := mem_panel.mp hr <;> exact hx
  · simp only [List.mem_cons, List.not_mem_nil, or_false] at hp
    rcases hp with rfl | rfl
    · exact ⟨_, mem_panel.mpr ⟨x0, hx0, Or.inl rfl⟩, rfl⟩
    · exact ⟨_, mem_panel.mpr ⟨x0, hx0, Or.inr rfl⟩, rfl⟩
  · rintro ⟨r, hr, rfl⟩
    obtain ⟨x, hx, rfl | rfl⟩ := mem_panel.mp hr <;> simp [panelRow]

theorem panel_row {i t : ℕ} (hi : i < ids.length) (ht : t < 2) : RowOf (panel ids) ids [10, 20] i t (some (panelRow ids[i] (10 * (t + 1)))) := by
  obtain rfl | rfl : t = 0 ∨ t = 1 := by omega
  · exact ⟨mem_panel.mpr ⟨_, List.getElem_mem hi, Or.inl rfl⟩, List.getElem?_eq_getElem hi, rfl⟩
  · exact ⟨mem_panel.mpr ⟨_, List.getElem_mem hi, Or.inr rfl⟩, List.getElem?_eq_getElem hi, rfl⟩

theorem panel_value {i t : ℕ} (hi : i < ids.length) (ht : t < 2) {c : String} (hc : c ≠ "constant") : HasValue linearModel (panel ids) ids [10, 20] i t c (some (ids[i] + (10 * (t + 1) : ℤ))) :=
  ⟨hi, _, panel_row hi ht, (valueIs_of_none rfl _ _ _).mpr (by simp [baseValue, hc, panelRow])⟩

theorem panel_ok (hs : ids.Pairwise (· < ·)) (h2 : 2 ≤ ids.length) : DataOk linearModel (panel ids) ids [10, 20] where
  keys := (panel_index hs (by rintro rfl; simp at h2)).2.2
  outcomes := by rintro f o ⟨a, ⟨⟩, _⟩
  controls := by
    intro t ht c hc
    have ht := (linearModel_period t).mp ht
    simp only [linearModel, Option.getD_some, List.mem_cons, List.not_mem_nil, or_false] at hc
    rcases hc with rfl | rfl
    · exact ⟨Or.inr (Or.inl rfl), 0, 1, by omega, _, panel_row (by omega) ht, (valueIs_of_none rfl _ _ _).mpr rfl⟩
    · exact ⟨Or.inl (by simp [panel]), 0, _, panel_value (by omega) ht (by decide)⟩
  measurements := by
    intro t v hv
    obtain ⟨ht, hv⟩ := (linearModel_update t v).mp hv
    have hv' : v ≠ "constant" := by rintro rfl; simp at hv
    refine ⟨Or.inl (by simp only [panel, List.mem_cons] at hv ⊢; tauto), ?_⟩
    rintro ⟨y, hy⟩
    have e2 := (hy _).mp ⟨_, panel_value (i := 0) (by omega) ht hv'⟩
    have e3 := (hy _).mp ⟨_, panel_value (i := 1) (by omega) ht hv'⟩
    rw [← e3] at e2
    have e4 : ids[0] = ids[1] := by exact_mod_cast add_right_cancel e2
    have := List.pairwise_iff_getElem.mp hs 0 1 (by omega) (by omega) (by norm_num)
    omega
  observed := by
    intro t ht f hf
    have ht := (linearModel_period t).mp ht
    simp only [linearModel, Option.getD_some, List.mem_singleton] at hf
    subst hf
    refine ⟨Or.inl (by simp [panel]), ?_⟩
    rintro i ⟨hi, r, hr, hv⟩
    rw [valueIs_of_none rfl, rowOf_unique (panel_index hs (by rintro rfl; simp at h2)).2.2 hr (panel_row hi ht)] at hv
    simp [baseValue, panelRow] at hv

/-- The value of each parameter is 1/2, and 1 for the mixture weight. -/
noncomputable def panelParams (pm : Processed ℝ) : List (Loc × ℝ) := pm.paramsIndex.map (fun l => (l, linearValues l))

theorem panel_evaluates (qr : QR) (custom : String → CustomFn) (nan : ℝ) {pm : Processed ℝ} (hpm : processModel linearModel = .ok pm) (hs : ids.Pairwise (· < ·)) (h2 : 2 ≤ ids.length) :
    ∃ inputs out, getMaximizationInputs linearModel (panel ids) = .ok inputs ∧ inputs.loglike qr custom nan linearModel (panelParams pm) = .ok out := by
  have hne : ids ≠ [] := by rintro rfl; simp at h2
  obtain ⟨inputs, updates0, hin, hen0, hout⟩ := C70_likelihood_evaluates qr hpm linearModel_names linearModel_clean (by rintro a os ⟨⟩) (noNameClash_of_none rfl)
    (by
      rintro f ⟨spec, hmem⟩
      simp only [linearModel, List.mem_cons, Prod.mk.injEq, List.not_mem_nil, or_false] at hmem
      rcases hmem with ⟨rfl, rfl⟩ | ⟨rfl, rfl⟩ <;> decide)
    linearModel_linear.periods linearModel_linear.mixture (Or.inl rfl) (panel_index hs hne).1 (panel_index hs hne).2.1 (panel_ids hs hne).1 (panel_ids hs hne).2 (panel_ok hs h2)
  have hix : inputs.index = pm.paramsIndex := by
    have h := hin
    unfold getMaximizationInputs at h
    simp only [py_bind_ok, py_pure_ok] at h
    obtain ⟨pm', hpm', _, _, _, _, _, _, rfl⟩ := h
    obtain rfl := Except.ok.inj (hpm.symm.trans hpm')
    rfl
  have hfst : (panelParams pm).map Prod.fst = pm.paramsIndex := by unfold panelParams; rw [List.map_map]; exact List.map_id _
  obtain ⟨out, hout, _⟩ := hout custom nan (panelParams pm) linearValues (by rw [hfst]; exact C06_index_unique_partial hpm linearModel_names) (fun l => by rw [hfst, hix])
    (by
      intro l x h
      obtain ⟨l', _, h⟩ := List.mem_map.mp h
      rw [Prod.mk.injEq] at h
      rw [← h.1, ← h.2])
    (by
      rintro ⟨f, spec⟩ hmem
      rcases linearModel_linear.transitions f spec hmem with h | h <;> rw [h] <;> exact ⟨rfl, fun h => by simp at h⟩)
  exact ⟨inputs, out, hin, hout⟩

/-- C113 is not vacuous: individuals 1 and 2, individuals 3 and 5, and all four. The contribution of individual 3 is the same in the second and the third dataset, although it is the first and the third individual, respectively;
the log likelihood of all four is the sum of both log likelihoods. -/
theorem C113_example (nan : ℝ) (custom : String → CustomFn) : ∃ (qr : QR) (params : List (Loc × ℝ)) (inputs inputs' inputs'' : MaximizationInputs) (out out' out'' : LoglikeOutput),
    getMaximizationInputs linearModel (panel [1, 2]) = .ok inputs ∧ getMaximizationInputs linearModel (panel [3, 5]) = .ok inputs' ∧ getMaximizationInputs linearModel (panel [1, 2, 3, 5]) = .ok inputs'' ∧
      inputs.loglike qr custom nan linearModel params = .ok out ∧ inputs'.loglike qr custom nan linearModel params = .ok out' ∧ inputs''.loglike qr custom nan linearModel params = .ok out'' ∧
      (∃ x, out'.contributions[0]? = some x ∧ out''.contributions[2]? = some x) ∧ out''.value = out.value + out'.value := by
  obtain ⟨qr, _⟩ := validQR
  obtain ⟨pm, hpm, _, _⟩ := linearModel_ok
  obtain ⟨inputs, out, h1, e1⟩ := panel_evaluates (ids := [1, 2]) qr custom nan hpm (by decide) (by decide)
  obtain ⟨inputs', out', h2, e2⟩ := panel_evaluates (ids := [3, 5]) qr custom nan hpm (by decide) (by decide)
  obtain ⟨inputs'', out'', h3, e3⟩ := panel_evaluates (ids := [1, 2, 3, 5]) qr custom nan hpm (by decide) (by decide)
  have i1 := panel_index (ids := [1, 2]) (by decide) (by decide)
  have i2 := panel_index (ids := [3, 5]) (by decide) (by decide)
  have i3 := panel_index (ids := [1, 2, 3, 5]) (by decide) (by decide)
  have j1 := panel_ids (ids := [1, 2]) (by decide) (by decide)
  have j2 := panel_ids (ids := [3, 5]) (by decide) (by decide)
  have j3 := panel_ids (ids := [1, 2, 3, 5]) (by decide) (by decide)
  refine ⟨qr, _, inputs, inputs', inputs'', out, out', out'', h1, h2, h3, e1, e2, e3, ?_, ?_⟩
  · refine (C113_own_data linearModel_names.keys (noNameClash_of_none rfl) i2.1 i3.1 i2.2.1 i3.2.1 j2.1 j2.2 j3.1 j3.2 h2 h3 e2 e3 (i := 0) (i' := 2) ⟨by decide, by decide, fun t ht r r' hr hr' => ?_⟩).1
    have ht := (linearModel_period t).mp ht
    rw [rowOf_unique i2.2.2 hr (panel_row (by decide) ht), rowOf_unique i3.2.2 hr' (panel_row (by decide) ht)]
    exact fun c _ => rfl
  · refine C113_pooled linearModel_names.keys (noNameClash_of_none rfl) i1.1 i2.1 i3.1 i1.2.1 i2.2.1 i3.2.1 j1.1 j1.2 j2.1 j2.2 j3.1 ?_ (by decide) h1 h2 h3 e1 e2 e3
    simp only [panel, List.map_cons, List.map_nil, List.cons_append, List.nil_append]
    refine List.Perm.cons _ (List.Perm.cons _ ?_)
    exact (List.perm_append_comm_assoc [panelRow 3 10, panelRow 5 10] [panelRow 1 20, panelRow 2 20] [panelRow 3 20, panelRow 5 20])

/-- Other ids do not change the log likelihood: individual 1 becomes individual 9 and is then the second one. -/
theorem C113_ids_example (nan : ℝ) (custom : String → CustomFn) : ∃ (qr : QR) (params : List (Loc × ℝ)) (inputs inputs' : MaximizationInputs) (out out' : LoglikeOutput),
    getMaximizationInputs linearModel (panel [1, 2]) = .ok inputs ∧ getMaximizationInputs linearModel (newIds (fun x => 10 - x) (panel [1, 2])) = .ok inputs' ∧ inputs.loglike qr custom nan linearModel params = .ok out ∧
      inputs'.loglike qr custom nan linearModel params = .ok out' ∧ out'.value = out.value ∧ ∃ c, out.contributions[0]? = some c ∧ out'.contributions[1]? = some c := by
  obtain ⟨qr, _⟩ := validQR
  obtain ⟨pm, hpm, _, _⟩ := linearModel_ok
  obtain ⟨inputs, out, h1, e1⟩ := panel_evaluates (ids := [1, 2]) qr custom nan hpm (by decide) (by decide)
  have i1 := panel_index (ids := [1, 2]) (by decide) (by decide)
  have j1 := panel_ids (ids := [1, 2]) (by decide) (by decide)
  have hids' : IdsOf (newIds (fun x => 10 - x) (panel [1, 2])) [8, 9] := by
    refine ⟨by decide, fun x => ?_⟩
    simp only [newIds, panel, panelRow, List.map_cons, List.map_nil, List.cons_append, List.nil_append, List.mem_cons, List.not_mem_nil, or_false, exists_eq_or_imp, exists_eq_left]
    constructor <;> intro h <;> omega
  obtain ⟨inputs', out', h2, e2, hv, hc⟩ := C113_ids linearModel_names.keys (noNameClash_of_none rfl) i1.1 i1.2.1 (σ := fun x => 10 - x) (fun x y h => by simpa using h) j1.1 j1.2 hids' h1 e1
  exact ⟨qr, _, inputs, inputs', out, out', h1, h2, e1, e2, hv, hc 0 1 1 rfl rfl⟩

end Ex
end Skill
