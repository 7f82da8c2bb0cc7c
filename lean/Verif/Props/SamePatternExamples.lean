import Verif.Props.SamePattern
import Verif.Props.NoLookAheadExamples
import Verif.Props.DebugAgrees
import Verif.Props.Residuals

/-! Example for C142. -/

namespace Skill
open Spec
namespace Ex

/-- The individual `x` of `panel`. -/
noncomputable def panelCovariates (x : Int) : Covariates where
  isObserved _ _ := true
  control t c := if c = "constant" then 1 else x + 10 * (t + 1)
  factor t _ := x + 10 * (t + 1)

theorem panelRow_value {x : Int} {t : ℕ} {c : String} (hc : c ≠ "constant") : baseValue (some (panelRow x (10 * (t + 1)))) c = some (x + 10 * ((t : ℝ) + 1)) := by
  simp [baseValue, hc, panelRow]

theorem panel_complete {x : Int} {t : ℕ} : ¬IncompleteControls linearModel (some (panelRow x (10 * (t + 1)))) t := by
  rintro ⟨⟨c, hc, hv⟩, _⟩
  rw [valueIs_of_none rfl] at hv
  simp only [linearModel, Option.getD_some, List.mem_cons, List.not_mem_nil, or_false] at hc
  rcases hc with rfl | rfl <;> simp [baseValue, panelRow] at hv

theorem panel_describes {ids : List Int} {i : ℕ} (hi : i < ids.length) : Describes linearModel (panel ids) ids [10, 20] i (panelCovariates ids[i]) (fun t _ => ids[i] + 10 * (t + 1)) := by
  intro t ht
  have ht := (linearModel_period t).mp ht
  refine ⟨_, panel_row hi ht, ?_, ?_, ?_⟩
  · intro v hv
    obtain ⟨_, hv⟩ := (linearModel_update t v).mp hv
    have hv' : v ≠ "constant" := by rintro rfl; simp at hv
    refine ⟨_, _, (valueIs_of_none rfl _ _ _).mpr rfl, Or.inr ⟨panel_complete, rfl⟩, ?_⟩
    rw [panelRow_value hv']
    exact ⟨rfl, fun b hb => Option.some.inj hb⟩
  · intro _ c hc a ha
    rw [valueIs_of_none rfl] at ha
    simp only [linearModel, Option.getD_some, List.mem_cons, List.not_mem_nil, or_false] at hc
    rcases hc with rfl | rfl
    · simpa [baseValue, panelCovariates, eq_comm] using ha
    · rw [panelRow_value (by decide)] at ha
      rw [Option.some.inj ha]
      simp [panelCovariates]
  · intro f hf
    refine ⟨panel_complete, (valueIs_of_none rfl _ _ _).mpr ?_⟩
    simp only [linearModel, Option.getD_some, List.mem_singleton] at hf
    subst hf
    rw [panelRow_value (by decide)]
    rfl

/-- C142 is not vacuous: the first individuals of the two datasets have no missing values, and all their values are different. The standard deviation of the residual of each measurement of the second period is a positive
number, and it is the same for both. -/
theorem C142_example (nan : ℝ) (custom : String → CustomFn) : ∃ (qr : QR) (params : List (Loc × ℝ)) (inputs inputs' : MaximizationInputs) (out out' : DebugData) (sd : String → ℝ),
    getMaximizationInputs linearModel (panel [3, 5]) = .ok inputs ∧ getMaximizationInputs linearModel (late [1, 3]) = .ok inputs' ∧ inputs.debugLoglike qr custom nan linearModel params = .ok out ∧
      inputs'.debugLoglike qr custom nan linearModel params = .ok out' ∧ ∀ v ∈ ["y1", "y2", "w"], 0 < sd v ∧ ⟨some (sd v), 0, 1, 0, v⟩ ∈ out.residualSds ∧ ⟨some (sd v), 0, 1, 0, v⟩ ∈ out'.residualSds := by
  classical
  obtain ⟨qr, hqr⟩ := validQR
  obtain ⟨pm, hpm, _, _⟩ := linearModel_ok
  obtain ⟨inputs, o1, h1, e1⟩ := panel_evaluates (ids := [3, 5]) qr custom nan hpm (by decide) (by decide)
  obtain ⟨inputs', o2, h2, e2⟩ := late_evaluates (ids := [1, 3]) qr custom nan hpm (by decide) (by decide)
  have i1 := panel_index (ids := [3, 5]) (by decide) (by decide)
  have i2 := late_index (ids := [1, 3]) (by decide) (by decide)
  have j1 := panel_ids (ids := [3, 5]) (by decide) (by decide)
  have j2 := late_ids (ids := [1, 3]) (by decide) (by decide)
  have hmeas : ∀ t v, IsUpdate linearModel t v → ∃ w, IsMeasurement linearModel t w := by
    intro t v h
    obtain ⟨w, f, hw⟩ := linearModel_linear.measured t ((linearModel_period t).mpr ((linearModel_update t v).mp h).1)
    exact ⟨w, f, hw⟩
  have hex : ∃ t v, IsUpdate linearModel t v := ⟨0, "y1", (linearModel_update 0 "y1").mpr ⟨by norm_num, by simp⟩⟩
  obtain ⟨out, hd⟩ := ((C129_debug_agrees h1 linearModel_clean qr custom nan _).2 o1 e1).1.mpr ⟨hex, hmeas⟩
  obtain ⟨out', hd'⟩ := ((C129_debug_agrees h2 linearModel_clean qr custom nan _).2 o2 e2).1.mpr ⟨hex, hmeas⟩
  have hfst : (panelParams pm).map Prod.fst = pm.paramsIndex := by
    simp only [panelParams, List.map_map]
    exact List.map_id _
  have hn : ((panelParams pm).map Prod.fst).Nodup := by
    rw [hfst]
    exact C06_index_unique_partial hpm linearModel_names
  have hvals : ∀ l x, (l, x) ∈ panelParams pm → x = linearValues l := by
    intro l x h
    obtain ⟨l', _, h⟩ := List.mem_map.mp h
    rw [Prod.mk.injEq] at h
    rw [← h.1, ← h.2]
  obtain ⟨updates, hen, _, residual, sd, hsd, _, _, hrows⟩ := C123_residuals hqr hpm linearModel_linear linearModel_names (by rintro o x ⟨⟩ ⟨⟩) linearValues_proper custom nan
  obtain ⟨_, _, hrow⟩ := hrows _ [3, 5] [10, 20] _ inputs out i1.1 i1.2.1 j1.1 j1.2 hn hvals h1 hd
  have hsame := C142_residual_sds linearModel_linear linearModel_names (by rintro o x ⟨⟩ ⟨⟩) i1.1 i2.1 i1.2.1 i2.2.1 j1.1 j1.2 j2.1 j2.2 h1 h2 hn hd hd' (T := 1) (i := 0) (i' := 0) ⟨by decide, by decide, by
    intro t ht _ r r' hr hr'
    have ht := (linearModel_period t).mp ht
    rw [rowOf_unique i1.2.2 hr (panel_row (by decide) ht), rowOf_unique i2.2.2 hr' (late_row (by decide) ht)]
    intro c _
    simp [panelRow, lateRow]⟩
  have hj : ∀ v, v ∈ ["y1", "y2", "w"] → ∃ j : Fin updates.length, updates.get j = (1, v) := fun v hv =>
    List.get_of_mem ((hen.all 1 v).mpr ((linearModel_update 1 v).mpr ⟨by norm_num, by simpa using hv⟩))
  refine ⟨qr, _, inputs, inputs', out, out', fun v => if h : v ∈ ["y1", "y2", "w"] then sd (panelCovariates 3) (hj v h).choose else 0, h1, h2, hd, hd', fun v hv => ?_⟩
  simp only [dif_pos hv]
  have hjv := (hj v hv).choose_spec
  have hm : IsMeasurement linearModel (updates.get (hj v hv).choose).1 (updates.get (hj v hv).choose).2 := by
    rw [hjv]
    simp only [List.mem_cons, List.not_mem_nil, or_false] at hv
    rcases hv with rfl | rfl | rfl
    · exact ⟨"a", (linearModel_measures _ _ _).mpr ⟨by norm_num, by simp⟩⟩
    · exact ⟨"a", (linearModel_measures _ _ _).mpr ⟨by norm_num, by simp⟩⟩
    · exact ⟨"b", (linearModel_measures _ _ _).mpr ⟨by norm_num, by simp⟩⟩
  have h0 := (hrow (hj v hv).choose 0 (panelCovariates 3) _ (by decide) (panel_describes (ids := [3, 5]) (by decide)) hm).2
  rw [hjv] at h0
  have h0 := List.mem_of_getElem? h0
  have h3 := hsame _ h0 (le_refl _) (by simp)
  exact ⟨hsd _ _, h0, h3⟩

end Ex
end Skill
