import Verif.Props.UpdateInfo
import Verif.Lemmas.Anchoring
import Verif.Spec.LabelModel
/-
Measurements and anchoring equations in the table of updates.
-/
namespace Skill
open Spec
variable {m : ModelDict ℝ} {pm : Processed ℝ}

theorem purpose_iff (hpm : processModel m = .ok pm) (hc : CleanAnchoring m) {r : URow} (hr : r ∈ pm.updateInfo) : r.purpose = .measurement ↔ IsMeasurement m r.period r.var := by
  obtain ⟨_, h2, _, _, h5⟩ := C01_update_info_exact hpm
  have h := h5 r hr
  constructor
  · intro hp
    rcases (h2 r.period r.var).mp ⟨r, hr, rfl, rfl⟩ with hM | ⟨_, hA⟩
    · exact hM
    · rw [h.mpr hA] at hp
      cases hp
  · rintro ⟨f, hM⟩
    cases hp : r.purpose with
    | measurement => rfl
    | anchoring =>
      obtain ⟨g, hA⟩ := h.mp hp
      exact absurd hM (hc.notMeasured _ _ _ _ hA)

/-- Within a period the measurements come before the anchoring equations. -/
theorem measurements_first (hpm : processModel m = .ok pm) (hc : CleanAnchoring m) :
    pm.updateInfo.Pairwise (fun r q => r.period = q.period → ¬IsMeasurement m r.period r.var → ¬IsMeasurement m q.period q.var) := by
  obtain ⟨_, h2, _, _, h5⟩ := C01_update_info_exact hpm
  set as := updateAssignments (List.range pm.dimensions.nPeriods) (m.factors.map (fun fs => (fs.1, fs.2.measurements))) (outcomesOf m) with has
  have hu : pm.updateInfo = buildRows as := updateInfo_eq hpm
  have hlast : as.Pairwise (fun s q => s.period = q.period → s.purpose = .anchoring → q.purpose = .anchoring) := updateAssignments_anch_last List.pairwise_lt_range
  have hmem : ∀ s ∈ as, (s.purpose = .measurement ∧ Measures m s.period s.var s.factor) ∨ (s.purpose = .anchoring ∧ Anchors m s.var s.factor) := by
    intro s hs
    rw [has, mem_updateAssignments, mem_factors_meas_iff, ← processAnchoring_outcomes] at hs
    simp only [mem_outcomes_iff] at hs
    simpa only [Anchors, anchoringName] using hs.2
  have hkeys : (as.map UAssign.key).Pairwise (fun a b => a.1 = b.1 → (∃ f, Anchors m a.2 f) → ∃ f, Anchors m b.2 f) := by
    rw [List.pairwise_map]
    refine hlast.imp_of_mem (fun {s q} hs hq h he hA => ?_)
    have hsa : s.purpose = .anchoring := by
      rcases hmem s hs with ⟨_, hM⟩ | ⟨h, _⟩
      · obtain ⟨f, hA⟩ := hA
        exact absurd hM (hc.notMeasured _ _ _ _ hA)
      · exact h
    rcases hmem q hq with ⟨hp, _⟩ | ⟨_, hq⟩
    · rw [h he hsa] at hp
      cases hp
    · exact ⟨_, hq⟩
  have hrows : (pm.updateInfo.map URow.key).Pairwise (fun a b => a.1 = b.1 → (∃ f, Anchors m a.2 f) → ∃ f, Anchors m b.2 f) := by
    rw [hu]
    exact hkeys.sublist (buildRows_keys_sublist as)
  rw [List.pairwise_map] at hrows
  refine hrows.imp_of_mem (fun {r q} hr _ h he hM => ?_)
  obtain ⟨f, hA⟩ := h he (by
    rcases (h2 r.period r.var).mp ⟨r, hr, rfl, rfl⟩ with hM' | ⟨_, hA⟩
    · exact absurd hM' hM
    · exact hA)
  rintro ⟨g, hM'⟩
  exact hc.notMeasured _ _ _ _ hA hM'

end Skill
