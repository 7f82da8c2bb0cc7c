import Verif.Props.UnitsStates
import Verif.Props.OwnDataExamples
import Verif.Props.GradientExamples

/-! Examples for C114. -/

namespace Skill
open Spec
namespace Ex

/-- Other units: y1 is doubled and increased by 3, x is tripled and increased by 1. -/
noncomputable def unitScale (_ : Int) (c : String) : ℝ := if c = "y1" then 2 else if c = "x" then 3 else 1

noncomputable def unitZero (_ : Int) (c : String) : ℝ := if c = "y1" then 3 else if c = "x" then 1 else 0

theorem units_ok : UnitsOk linearModel unitScale unitZero where
  nonzero := by intro p c; unfold unitScale; split_ifs <;> norm_num
  constant := fun p => ⟨rfl, rfl⟩
  observed := by
    intro p f hf
    simp only [linearModel, Option.getD_some, List.mem_singleton] at hf
    subst hf
    exact ⟨rfl, rfl⟩
  controls := by rintro ⟨f, o, a, ⟨⟩, _⟩
  outcomes := by rintro p f o ⟨a, ⟨⟩, _⟩

theorem linearModel_interior (custom : String → CustomFn) : InteriorValues custom linearModel 1 linearValues where
  measSds := fun _ _ _ => by unfold linearValues; split_ifs <;> norm_num
  shockSds := fun _ _ _ _ => Or.inl (by unfold linearValues; split_ifs <;> norm_num)
  initial := fun _ _ _ _ => by unfold linearValues; split_ifs <;> norm_num
  weights := fun _ _ => by unfold linearValues; split_ifs <;> norm_num
  anchoring := fun _ _ _ _ _ => by unfold linearValues; split_ifs <;> norm_num
  transition := by
    intro t _ fs hmem
    simp only [linearModel, List.mem_cons, List.not_mem_nil, or_false] at hmem
    rcases hmem with rfl | rfl
    · exact Or.inl (by simp)
    · exact Or.inl (by simp)

/-- C114 is not vacuous: in the units above, the log likelihood of two individuals that have been observed in two periods is smaller by 4 log 2. -/
theorem C114_example (nan : ℝ) (custom : String → CustomFn) : ∃ (qr : QR) (params params' : List (Loc × ℝ)) (inputs inputs' : MaximizationInputs) (out out' : LoglikeOutput),
    getMaximizationInputs linearModel (panel [1, 2]) = .ok inputs ∧ getMaximizationInputs linearModel (changeUnits unitScale unitZero (panel [1, 2])) = .ok inputs' ∧
      inputs.loglike qr custom nan linearModel params = .ok out ∧ inputs'.loglike qr custom nan linearModel params' = .ok out' ∧ out'.value = out.value - 4 * Real.log 2 := by
  obtain ⟨qr, hqr⟩ := validQR
  obtain ⟨pm, hpm, _, _⟩ := linearModel_ok
  have hsafe : ∀ f, IsLatent linearModel f → querySafe f := by
    rintro f ⟨spec, hmem⟩
    simp only [linearModel, List.mem_cons, Prod.mk.injEq, List.not_mem_nil, or_false] at hmem
    rcases hmem with ⟨rfl, rfl⟩ | ⟨rfl, rfl⟩ <;> decide
  have hi := panel_index (ids := [1, 2]) (by decide) (by decide)
  have hj := panel_ids (ids := [1, 2]) (by decide) (by decide)
  obtain ⟨inputs, inputs', updates, h1, h2, hix, hen, h⟩ := C114_units hqr hpm linearModel_names linearModel_clean (by rintro a os ⟨⟩) (noNameClash_of_none rfl) hsafe linearModel_linear.periods linearModel_linear.mixture
    (Or.inl rfl) (by rintro o x ⟨⟩ ⟨⟩) hi.1 hi.2.1 hj.1 hj.2 (panel_ok (by decide) (by decide)) units_ok
  have hix0 : inputs.index = pm.paramsIndex := by
    have h := h1
    unfold getMaximizationInputs at h
    simp only [py_bind_ok, py_pure_ok] at h
    obtain ⟨pm', hpm', _, _, _, _, _, _, rfl⟩ := h
    obtain rfl := Except.ok.inj (hpm.symm.trans hpm')
    rfl
  have hpa : ∀ val, ParamsAre pm.paramsIndex (pm.paramsIndex.map (fun l => (l, val l))) val := by
    intro val
    have e : (pm.paramsIndex.map (fun l => (l, val l))).map Prod.fst = pm.paramsIndex := by rw [List.map_map]; exact List.map_id _
    refine ⟨by rw [e]; exact C06_index_unique_partial hpm linearModel_names, fun l => by rw [e], ?_⟩
    intro l x h
    obtain ⟨l', _, h⟩ := List.mem_map.mp h
    rw [Prod.mk.injEq] at h
    rw [← h.1, ← h.2]
  obtain ⟨out, out', e1, e2, _, e3⟩ := h custom nan _ _ linearValues (hix0 ▸ hpa _) (hix ▸ hix0 ▸ hpa _) (linearModel_interior custom) (by simp [linearValues])
  refine ⟨qr, _, _, inputs, inputs', out, out', h1, h2, e1, e2, ?_⟩
  rw [(e3 ⟨_, rfl, rfl, Or.inl rfl⟩).2]
  congr 1
  have hshift : ∀ i < 2, logUnits linearModel (panel [1, 2]) [1, 2] [10, 20] unitScale updates i = 2 * Real.log 2 := by
    intro i hi2
    have hperm : updates.Perm [(0, "y1"), (0, "y2"), (0, "w"), (1, "y1"), (1, "y2"), (1, "w")] := by
      rw [List.perm_ext_iff_of_nodup hen.1 (by decide)]
      rintro ⟨t, v⟩
      rw [hen.2, linearModel_update]
      simp only [List.mem_cons, Prod.mk.injEq, List.not_mem_nil, or_false]
      constructor
      · rintro ⟨ht, hv⟩
        have : t = 0 ∨ t = 1 := by omega
        rcases this with rfl | rfl <;> simp at hv ⊢ <;> tauto
      · rintro (⟨rfl, rfl⟩ | ⟨rfl, rfl⟩ | ⟨rfl, rfl⟩ | ⟨rfl, rfl⟩ | ⟨rfl, rfl⟩ | ⟨rfl, rfl⟩) <;> simp
    have huse : ∀ t v, t < 2 → v ≠ "constant" → UsesObservation linearModel (panel [1, 2]) [1, 2] [10, 20] i t v := by
      intro t v ht hv
      obtain ⟨hlen, r, hr, hval⟩ := panel_value (ids := [1, 2]) (i := i) hi2 ht hv
      refine ⟨r, _, hr, hval, ?_⟩
      rw [rowOf_unique hi.2.2 hr (panel_row hi2 ht)]
      rintro ⟨⟨c, hc, hcv⟩, _⟩
      simp only [linearModel, Option.getD_some, List.mem_cons, List.not_mem_nil, or_false] at hc
      rw [valueIs_of_none rfl] at hcv
      rcases hc with rfl | rfl <;> simp [baseValue, panelRow] at hcv
    unfold logUnits
    rw [(hperm.map _).sum_eq]
    have hs : ∀ (t : ℕ) v, t < 2 → v ≠ "constant" → (open Classical in if UsesObservation linearModel (panel [1, 2]) [1, 2] [10, 20] i t v then Real.log |unitScale (([10, 20] : List Int).getD t 0) v| else 0) = Real.log |unitScale 0 v| := by
      intro t v ht hv
      rw [if_pos (huse t v ht hv)]
      rfl
    simp only [List.map_cons, List.map_nil, List.sum_cons, List.sum_nil]
    rw [hs 0 "y1" (by norm_num) (by decide), hs 0 "y2" (by norm_num) (by decide), hs 0 "w" (by norm_num) (by decide), hs 1 "y1" (by norm_num) (by decide), hs 1 "y2" (by norm_num) (by decide), hs 1 "w" (by norm_num) (by decide)]
    simp [unitScale]
    ring
  simp only [List.length_cons, List.length_nil, zero_add, List.range_succ, List.range_zero, List.nil_append, List.cons_append, List.map_cons, List.map_nil, List.sum_cons, List.sum_nil]
  rw [hshift 0 (by norm_num), hshift (0 + 1) (by norm_num)]
  ring

end Ex
end Skill
