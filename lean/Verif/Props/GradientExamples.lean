import Verif.Props.Gradient
import Verif.Props.AnchoredExamples
import Verif.Props.SimulateDatasetExamples
/-
The hypotheses of C97 and C98 can be met.
-/
namespace Skill
open Spec
namespace Ex

/-- Derivatives as Mathlib defines them. -/
noncomputable def fderivAD : AD := fun _ f x i => fderiv ℝ f x (Pi.single i 1)

theorem fderivAD_valid : ValidAD fderivAD where
  partials := by
    intro k f x hf i
    exact HasFDerivAt.comp_hasDerivAt (x i) (f := fun s => Function.update x i s) (by rw [Function.update_eq_self]; exact hf.hasFDerivAt) (hasDerivAt_update _ _ _)

noncomputable def fderivJax : JaxDerivatives := ⟨fderivAD, fderivAD, fderivAD⟩

theorem anchoredModel_interior (custom : String → CustomFn) : InteriorValues custom anchoredModel 1 linearValues where
  measSds := anchoredValues_proper.sds
  shockSds := by
    intro t _ fs _
    left
    simp [linearValues]
  initial := by
    intro e _ f _
    simp [linearValues]
  weights := anchoredValues_proper.positive
  anchoring := by
    intro t _ f o _
    simp [linearValues]
  transition := by
    intro t _ fs hmem
    simp only [anchoredModel, linearModel, List.mem_cons, List.not_mem_nil, or_false] at hmem
    rcases hmem with rfl | rfl
    · exact Or.inl (by simp)
    · exact Or.inl (by simp)

/-- Parameters in the interior of the parameter space of a model with a CES function, anchoring and two mixture elements. -/
theorem cesModel_interior (custom : String → CustomFn) : InteriorValues custom cesModel 2 cesValues where
  measSds := fun _ _ _ => by norm_num [cesValues]
  shockSds := fun _ _ _ _ => Or.inl (by norm_num [cesValues])
  initial := fun _ _ _ _ => by norm_num [cesValues]
  weights := fun _ _ => by norm_num [cesValues]
  anchoring := fun _ _ _ _ _ => by norm_num [cesValues]
  transition := by
    intro t _ fs hmem
    simp only [cesModel, List.mem_cons, List.not_mem_nil, or_false] at hmem
    rcases hmem with rfl | rfl
    · exact Or.inr (Or.inl ⟨rfl, by norm_num [cesValues], fun f _ => by norm_num [cesValues]⟩)
    · exact Or.inl (by simp)

/-- A shock standard deviation of zero, as required by the constraints, is allowed for a factor that is constant over time. -/
theorem constant_interior (custom : String → CustomFn) (val : Loc → ℝ) (h0 : ∀ t, val ⟨.shockSds, t, "b", "-"⟩ = 0) (h1 : ∀ l, (∀ t, l ≠ ⟨.shockSds, t, "b", "-"⟩) → val l = 1) :
    InteriorValues custom linearModel 1 val where
  measSds := fun _ _ _ => by rw [h1 _ (by simp)]; norm_num
  shockSds := by
    intro t _ fs hmem
    simp only [linearModel, List.mem_cons, List.not_mem_nil, or_false] at hmem
    rcases hmem with rfl | rfl
    · left
      rw [h1 _ (by simp)]
      norm_num
    · right
      rfl
  initial := fun _ _ _ _ => by rw [h1 _ (by simp)]; norm_num
  weights := fun _ _ => by rw [h1 _ (by simp)]; norm_num
  anchoring := fun _ _ _ _ _ => by rw [h1 _ (by simp)]; norm_num
  transition := by
    intro t _ fs hmem
    simp only [linearModel, List.mem_cons, List.not_mem_nil, or_false] at hmem
    rcases hmem with rfl | rfl
    · exact Or.inl (by simp [transFnOf])
    · exact Or.inl (by simp [transFnOf])

/-- A user written transition function that is differentiable: the product of a factor and a parameter. -/
theorem custom_smooth (v : String → ℝ) : TransFn.Smooth ["a", "b"] v (.custom ["b"] ["p"] (fun args _ params => (args.map Prod.snd).sum * (params.map Prod.snd).sum)) := by
  refine ⟨by simp, ?_⟩
  have : (fun z : (Fin ["b"].length → ℝ) × (Fin ["a", "b"].length → ℝ) × (Fin ["p"].length → ℝ) => ((["b"].zip (List.ofFn z.1)).map Prod.snd).sum * ((["p"].zip (List.ofFn z.2.2)).map Prod.snd).sum) =
      fun z => z.1 0 * z.2.2 0 := by
    funext z
    simp
  rw [this]
  fun_prop

/-- C97 and C98 apply to the example with anchoring. -/
theorem anchoredModel_gradient (custom : String → CustomFn) (nan : ℝ) : ∃ (qr : QR) (d : JaxDerivatives) (inputs : MaximizationInputs) (jac : AD) (L : (Loc → ℝ) → LoglikeOutput) (params : List (Loc × ℝ)) (g : List ℝ),
    ValidQR qr ∧ ValidAD d.grad ∧ getMaximizationInputsWith d anchoredModel anchoredData = .ok (inputs, jac) ∧ inputs.loglikeAndGradient d qr custom nan anchoredModel params = .ok (L linearValues, g) ∧
      inputs.jacobian jac qr custom nan anchoredModel params = .ok g ∧ IsGradient inputs.index (fun v => (L v).value) linearValues g := by
  obtain ⟨qr, hqr⟩ := validQR
  obtain ⟨pm, hpm, _, hupd⟩ := anchoredModel_ok
  obtain ⟨inputs, hin, h⟩ := C97_gradient hqr hpm anchoredModel_names anchoredModel_clean anchoredModel_order anchoredModel_clash (fun f hf => (anchoredModel_safe f hf).1)
    anchoredModel_linear.periods anchoredModel_linear.mixture (Or.inl rfl) (by rintro o x ⟨⟩ ⟨⟩) anchoredData_index.1 anchoredData_index.2.1 anchoredData_ids.1 anchoredData_ids.2 anchoredData_ok (d := fderivJax) fderivAD_valid
  obtain ⟨inputs', jac, hin', hin'', hj⟩ := C98_jacobian hqr hpm anchoredModel_names anchoredModel_clean anchoredModel_order anchoredModel_clash (fun f hf => (anchoredModel_safe f hf).1)
    anchoredModel_linear.periods anchoredModel_linear.mixture (Or.inl rfl) (by rintro o x ⟨⟩ ⟨⟩) anchoredData_index.1 anchoredData_index.2.1 anchoredData_ids.1 anchoredData_ids.2 anchoredData_ok (d := fderivJax) fderivAD_valid
    fderivAD_valid fderivAD_valid (jacobianType := "jacrev") (by simp)
  obtain rfl : inputs = inputs' := by
    rw [hin] at hin''
    exact Except.ok.inj hin''
  obtain ⟨L, hL, hgr⟩ := h custom nan
  have hix : inputs.index.Nodup := by
    have h := hin
    unfold getMaximizationInputs at h
    simp only [py_bind_ok, py_pure_ok] at h
    obtain ⟨pm', hpm', _, _, _, _, _, _, rfl⟩ := h
    exact C06_index_unique_partial hpm' anchoredModel_names
  have hfst : (inputs.index.map (fun l => (l, linearValues l))).map Prod.fst = inputs.index := by rw [List.map_map]; exact List.map_id _
  have hp : ParamsAre inputs.index (inputs.index.map (fun l => (l, linearValues l))) linearValues := by
    refine ⟨by rw [hfst]; exact hix, fun l => by rw [hfst], fun l x h => ?_⟩
    obtain ⟨l', _, h⟩ := List.mem_map.mp h
    rw [Prod.mk.injEq] at h
    rw [← h.1, ← h.2]
  have hlik := hL _ _ hp (anchoredModel_usable custom _)
  obtain ⟨g, hg1, hg2, _⟩ := hgr _ _ hp (anchoredModel_interior custom)
  obtain ⟨g', hj1, hj2⟩ := hj custom nan _ _ hp (anchoredModel_interior custom)
  obtain rfl : g = g' := by
    rw [hg1] at hj1
    exact Except.ok.inj hj1
  exact ⟨qr, fderivJax, inputs, jac, L, _, g, hqr, fderivAD_valid, hin', (C98_combined _ _ _ _ _ _ _ _ _).mpr ⟨hlik, hg1⟩, hj2, hg2⟩

end Ex
end Skill
