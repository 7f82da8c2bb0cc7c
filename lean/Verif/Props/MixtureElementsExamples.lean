import Verif.Props.MixtureElements
import Verif.Props.EditsExamples

/-! Example for C136. -/

namespace Skill
open Spec
namespace Ex

/-- The parameters of the model with two mixture elements: both elements have the same distribution, the weights are 1/4 and 3/4. -/
noncomputable def twoElementValues (l : Loc) : ℝ :=
  if l.cat = .mixtureWeights then (if l.name1 = Spec.mixtureName 0 then 1 / 4 else 3 / 4) else editValues l

theorem editModel_copies : Copies editModel 1 2 (fun _ => 0) editValues twoElementValues where
  inRange := fun _ _ => Nat.zero_lt_one
  states := fun _ _ _ _ => rfl
  cholcovs := by
    intro e' _ f g _ _
    unfold twoElementValues editValues
    rw [if_neg (by simp), if_neg (by simp), if_neg (by simp)]
  weights := by
    intro e he
    obtain rfl : e = 0 := by omega
    have h1 : Spec.mixtureName 1 ≠ Spec.mixtureName 0 := by decide +kernel
    rw [Finset.filter_true_of_mem (fun _ _ => rfl), Finset.sum_range_succ, Finset.sum_range_one]
    show (1 : ℝ) = (if Spec.mixtureName 0 = Spec.mixtureName 0 then 1 / 4 else 3 / 4) + (if Spec.mixtureName 1 = Spec.mixtureName 0 then 1 / 4 else 3 / 4)
    rw [if_pos rfl, if_neg h1]
    norm_num
  positive := fun e _ => by
    show (0 : ℝ) < 1
    norm_num
  positive' := by
    intro e' _
    show (0 : ℝ) < if Spec.mixtureName e' = Spec.mixtureName 0 then 1 / 4 else 3 / 4
    split <;> norm_num
  total := by
    rw [Finset.sum_range_one]
    rfl
  others := by
    intro l _ _ h
    exact if_neg h

theorem twoElements_evaluates (qr : QR) (custom : String → CustomFn) (nan : ℝ) :
    ∃ (inputs : MaximizationInputs) (params : List (Loc × ℝ)) (out : LoglikeOutput), getMaximizationInputs (withMixtures editModel 2) editData = .ok inputs ∧ (params.map Prod.fst).Nodup ∧
      (∀ l x, (l, x) ∈ params → x = twoElementValues l) ∧ inputs.loglike qr custom nan (withMixtures editModel 2) params = .ok out := by
  obtain ⟨pm, hpm, _⟩ := editModel_ok
  have hpm' := processModel_withMixtures hpm 2
  have hq : ∀ f, IsLatent (withMixtures editModel 2) f → querySafe f := fun f hf => by
    obtain ⟨spec, hmem⟩ := hf
    have hmem : (f, spec) ∈ editModel.factors := hmem
    simp only [editModel, List.mem_cons, Prod.mk.injEq, List.not_mem_nil, or_false] at hmem
    rcases hmem with ⟨rfl, rfl⟩ | ⟨rfl, rfl⟩ <;> decide
  have hg := withMixtures_names editModel_names 2
  have hd := editData_ok
  obtain ⟨inputs, updates, hin, _, hout⟩ := C70_likelihood_evaluates qr hpm' hg ⟨editModel_clean.latent, editModel_clean.notMeasured, editModel_clean.distinct⟩ (by rintro a os ⟨⟩) (noNameClash_of_none rfl) hq
    ((editModel_period 1).mpr (by norm_num)) (k := 2) ⟨_, rfl, Or.inl rfl⟩ (Or.inr ⟨by norm_num, rfl⟩) editData_index.1 editData_index.2.1 editData_ids.1 editData_ids.2
    ⟨hd.keys, hd.outcomes, hd.controls, hd.measurements, hd.observed⟩
  have hnd : inputs.index.Nodup := by
    obtain ⟨pm1, _, _, _, hp, _, _, _, rfl⟩ := getMaximizationInputs_ok.mp hin
    obtain rfl := Except.ok.inj (hpm'.symm.trans hp)
    exact C06_index_unique_partial hpm' hg
  have hfst : (inputs.index.map (fun l => (l, twoElementValues l))).map Prod.fst = inputs.index := by rw [List.map_map]; exact List.map_id _
  have hvals : ∀ l x, (l, x) ∈ inputs.index.map (fun l => (l, twoElementValues l)) → x = twoElementValues l := by
    intro l x h
    obtain ⟨l', _, h⟩ := List.mem_map.mp h
    rw [Prod.mk.injEq] at h
    rw [← h.1, ← h.2]
  obtain ⟨out, hout, _⟩ := hout custom nan _ twoElementValues (by rw [hfst]; exact hnd) (fun l => by rw [hfst]) hvals (by
    rintro ⟨f, spec⟩ hmem
    have hmem : (f, spec) ∈ editModel.factors := hmem
    simp only [editModel, List.mem_cons, Prod.mk.injEq, List.not_mem_nil, or_false] at hmem
    rcases hmem with ⟨rfl, rfl⟩ | ⟨rfl, rfl⟩ <;> exact ⟨rfl, fun h => by simp at h⟩)
  exact ⟨inputs, _, out, hin, by rw [hfst]; exact hnd, hvals, hout⟩

/-- C136 applies: the same likelihood with two elements. -/
theorem C136_example (qr : QR) (custom : String → CustomFn) (nan : ℝ) : ∃ (inputs inputs' : MaximizationInputs) (params params' : List (Loc × ℝ)) (out out' : LoglikeOutput),
    getMaximizationInputs editModel editData = .ok inputs ∧ getMaximizationInputs (withMixtures editModel 2) editData = .ok inputs' ∧ inputs.loglike qr custom nan editModel params = .ok out ∧ inputs'.loglike qr custom nan (withMixtures editModel 2) params' = .ok out' ∧ out'.value = out.value := by
  obtain ⟨inputs, params, out, hin, hn, hval, h⟩ := editModel_evaluates qr custom nan
  obtain ⟨inputs', params', out', hin', hn', hval', h'⟩ := twoElements_evaluates qr custom nan
  exact ⟨inputs, inputs', params, params', out, out', hin, hin', h, h', (C136_same_likelihood editModel_names editModel_clean (by rintro a os ⟨⟩) ⟨_, rfl, Or.inr ⟨rfl, rfl⟩⟩ editModel_copies hin hin' hn hval hn' hval' h h').1⟩

end Ex
end Skill
