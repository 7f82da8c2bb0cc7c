import Verif.Props.Signs
import Verif.Props.EditsExamples
import Verif.Props.GradientExamples
/- **C140**: an example. -/
open scoped Real
namespace Skill.Ex
open Skill Skill.Spec

/-- Negative standard deviations, and the first column of the Cholesky factor has the other sign. -/
noncomputable def flippedValues (l : Loc) : ℝ :=
  if l.cat = .measSds ∨ l.cat = .shockSds ∨ l.cat = .initialCholcovs ∧ (l.name2 = "a-a" ∨ l.name2 = "b-a") then -linearValues l else linearValues l

theorem editModel_latent {f : String} (hf : IsLatent editModel f) : f = "a" ∨ f = "b" := by
  obtain ⟨spec, hmem⟩ := hf
  simp only [editModel, List.mem_cons, Prod.mk.injEq, List.not_mem_nil, or_false] at hmem
  rcases hmem with ⟨h, _⟩ | ⟨h, _⟩
  · exact Or.inl h
  · exact Or.inr h

theorem flipped_same_of {m : ModelDict ℝ} (hm : ∀ f, IsLatent m f → f = "a" ∨ f = "b") (k : ℕ) : SameUpToSigns m k linearValues flippedValues where
  measSds l hl := by unfold flippedValues; rw [if_pos (Or.inl hl), abs_neg]
  shockSds l hl := by unfold flippedValues; rw [if_pos (Or.inr (Or.inl hl)), abs_neg]
  chols e _ f hf := by
    rcases hm _ hf with rfl | rfl
    · refine ⟨-1, Or.inr rfl, fun g hgl => ?_⟩
      have : flippedValues ⟨.initialCholcovs, 0, Spec.mixtureName e, g ++ "-" ++ "a"⟩ = -linearValues ⟨.initialCholcovs, 0, Spec.mixtureName e, g ++ "-" ++ "a"⟩ := by
        unfold flippedValues
        refine if_pos (Or.inr (Or.inr ⟨rfl, ?_⟩))
        rcases hm _ hgl with rfl | rfl
        · exact Or.inl (show "a" ++ "-" ++ "a" = "a-a" by decide)
        · exact Or.inr (show "b" ++ "-" ++ "a" = "b-a" by decide)
      rw [this, neg_one_mul]
    · refine ⟨1, Or.inl rfl, fun g hgl => ?_⟩
      have : flippedValues ⟨.initialCholcovs, 0, Spec.mixtureName e, g ++ "-" ++ "b"⟩ = linearValues ⟨.initialCholcovs, 0, Spec.mixtureName e, g ++ "-" ++ "b"⟩ := by
        unfold flippedValues
        refine if_neg ?_
        rintro (h | h | ⟨_, h⟩)
        · cases h
        · cases h
        · rcases hm _ hgl with rfl | rfl
          · exact absurd h (show ¬("a" ++ "-" ++ "b" = "a-a" ∨ "a" ++ "-" ++ "b" = "b-a") by decide)
          · exact absurd h (show ¬("b" ++ "-" ++ "b" = "a-a" ∨ "b" ++ "-" ++ "b" = "b-a") by decide)
      rw [this, one_mul]
  others l h1 h2 h3 := by
    unfold flippedValues
    refine if_neg ?_
    rintro (h | h | ⟨h, _⟩)
    exacts [h1 h, h2 h, h3 h]

theorem flipped_same : SameUpToSigns editModel 1 linearValues flippedValues := flipped_same_of (fun _ h => editModel_latent h) 1

theorem editModel_interior (custom : String → CustomFn) : InteriorValues custom editModel 1 linearValues where
  measSds := fun _ _ _ => by simp [linearValues]
  shockSds := fun _ _ _ _ => Or.inl (by simp [linearValues])
  initial := fun _ _ _ _ => by simp [linearValues]
  weights := fun _ _ => by simp [linearValues]
  anchoring := fun _ _ _ _ _ => by simp [linearValues]
  transition := by
    intro t _ fs hmem
    simp only [editModel, List.mem_cons, List.not_mem_nil, or_false] at hmem
    rcases hmem with rfl | rfl
    · exact Or.inl (by simp)
    · exact Or.inl (by simp)

theorem edit_params {pm : Processed ℝ} (hpm : processModel editModel = .ok pm) : (⟨.measSds, 0, "y1", "-"⟩ : Loc) ∈ pm.paramsIndex ∧ (⟨.initialCholcovs, 0, "mixture_0", "b-a"⟩ : Loc) ∈ pm.paramsIndex ∧
    (⟨.initialCholcovs, 0, "mixture_0", "b-b"⟩ : Loc) ∈ pm.paramsIndex := by
  have hm : HasNMixtures editModel 1 := ⟨_, rfl, Or.inr ⟨rfl, rfl⟩⟩
  have e0 : "mixture_" ++ toString 0 = "mixture_0" := by decide +kernel
  have e1 : "b" ++ "-" ++ "a" = "b-a" := by decide
  have e2 : "b" ++ "-" ++ "b" = "b-b" := by decide
  refine ⟨(mem_paramsIndex_iff hpm _).mpr (.measSd ((editModel_update 0 "y1").mpr ⟨by norm_num, by simp⟩)), ?_, ?_⟩
  · have h : IsParam editModel ⟨.initialCholcovs, 0, "mixture_" ++ toString 0, "b" ++ "-" ++ "a"⟩ := .cholcov (i := 1) (j := 0) hm (by norm_num) (by norm_num) rfl rfl
    rw [e0, e1] at h
    exact (mem_paramsIndex_iff hpm _).mpr h
  · have h : IsParam editModel ⟨.initialCholcovs, 0, "mixture_" ++ toString 0, "b" ++ "-" ++ "b"⟩ := .cholcov (i := 1) (j := 1) hm (by norm_num) (by norm_num) rfl rfl
    rw [e0, e2] at h
    exact (mem_paramsIndex_iff hpm _).mpr h

theorem flipped_values : linearValues ⟨.measSds, 0, "y1", "-"⟩ = 1 / 2 ∧ flippedValues ⟨.measSds, 0, "y1", "-"⟩ = -1 / 2 ∧ flippedValues ⟨.initialCholcovs, 0, "mixture_0", "b-a"⟩ = -1 / 2 ∧
    flippedValues ⟨.initialCholcovs, 0, "mixture_0", "b-b"⟩ = 1 / 2 := by
  refine ⟨?_, ?_, ?_, ?_⟩ <;> simp [linearValues, flippedValues, neg_div]

/-- **C140**: a translog model of two factors in three periods with missing measurements; all standard deviations and the first column of the Cholesky factor become negative. -/
theorem C140_example (custom : String → CustomFn) (nan : ℝ) : ∃ (qr : QR) (inputs : MaximizationInputs) (params params' : List (Loc × ℝ)) (out : LoglikeOutput), getMaximizationInputs editModel editData = .ok inputs ∧
    (⟨.measSds, 0, "y1", "-"⟩, 1 / 2) ∈ params ∧ (⟨.measSds, 0, "y1", "-"⟩, -1 / 2) ∈ params' ∧ (⟨.initialCholcovs, 0, "mixture_0", "b-a"⟩, -1 / 2) ∈ params' ∧ (⟨.initialCholcovs, 0, "mixture_0", "b-b"⟩, 1 / 2) ∈ params' ∧
    inputs.loglike qr custom nan editModel params = .ok out ∧ inputs.loglike qr custom nan editModel params' = .ok out := by
  obtain ⟨qr, hqr⟩ := exists_validQR
  obtain ⟨pm, hpm, hmem⟩ := editModel_ok
  have hq : ∀ f, IsLatent editModel f → querySafe f := fun f hf => by
    rcases editModel_latent hf with rfl | rfl <;> decide
  obtain ⟨inputs, hin, h⟩ := C140_signs hqr hpm editModel_names editModel_clean (by rintro a os ⟨⟩) (noNameClash_of_none rfl) hq ((editModel_period 1).mpr (by norm_num)) (k := 1) ⟨_, rfl, Or.inr ⟨rfl, rfl⟩⟩ (Or.inl rfl) (by rintro o x ⟨⟩ ⟨⟩)
    editData_index.1 editData_index.2.1 editData_ids.1 editData_ids.2 editData_ok
  have hix0 : inputs.index = pm.paramsIndex := by
    have h := hin
    unfold getMaximizationInputs at h
    simp only [py_bind_ok, py_pure_ok] at h
    obtain ⟨pm', hpm', _, _, _, _, _, _, rfl⟩ := h
    obtain rfl := Except.ok.inj (hpm.symm.trans hpm')
    rfl
  have hpa : ∀ val, ParamsAre pm.paramsIndex (pm.paramsIndex.map (fun l => (l, val l))) val := by
    intro val
    have e : (pm.paramsIndex.map (fun l => (l, val l))).map Prod.fst = pm.paramsIndex := by rw [List.map_map]; exact List.map_id _
    refine ⟨by rw [e]; exact C06_index_unique_partial hpm editModel_names, fun l => by rw [e], ?_⟩
    intro l x h
    obtain ⟨l', _, h⟩ := List.mem_map.mp h
    rw [Prod.mk.injEq] at h
    rw [← h.1, ← h.2]
  rw [hix0] at h
  obtain ⟨⟨out, h1, h2⟩, _⟩ := h custom nan _ _ linearValues flippedValues (hpa _) (hpa _) (editModel_interior custom) flipped_same
  obtain ⟨i1, i2, i3⟩ := edit_params hpm
  obtain ⟨v1, v2, v3, v4⟩ := flipped_values
  exact ⟨qr, inputs, _, _, out, hin, List.mem_map.mpr ⟨_, i1, by rw [v1]⟩, List.mem_map.mpr ⟨_, i1, by rw [v2]⟩, List.mem_map.mpr ⟨_, i2, by rw [v3]⟩, List.mem_map.mpr ⟨_, i3, by rw [v4]⟩, h1, h2⟩

end Skill.Ex
