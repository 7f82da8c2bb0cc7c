import Verif.Props.DebugAgrees
import Verif.Props.MixtureResidualsExamples
/-
C129 applies to a model with two mixture elements.
-/
namespace Skill
namespace Ex
open Spec

/-- C129 applies to the example: both functions succeed and agree. -/
theorem C129_example (custom : String → CustomFn) (nan : ℝ) : ∃ (qr : QR) (params : List (Loc × ℝ)) (inputs : MaximizationInputs) (out : LoglikeOutput) (d : DebugData), ValidQR qr ∧
    getMaximizationInputs plainModel linearData = .ok inputs ∧ inputs.loglike qr custom nan plainModel params = .ok out ∧ inputs.debugLoglike qr custom nan plainModel params = .ok d ∧ d.value = out.value ∧
    d.contributions = out.contributions ∧ d.value = d.contributions.sum ∧ (∃ t v, IsUpdate plainModel t v) ∧ ∀ t v, IsUpdate plainModel t v → ∃ w, IsMeasurement plainModel t w := by
  obtain ⟨qr, params, inputs, d, _, _, _, _, _, _, _, _, _, _, _, hqr, hin, hd, -⟩ := C128_example custom nan
  obtain ⟨h1, h2⟩ := C129_debug_agrees hin plainModel_linear.anchoring.1 qr custom nan params
  cases hout : inputs.loglike qr custom nan plainModel params with
  | error e => rw [h1 e hout] at hd; cases hd
  | ok out =>
    obtain ⟨h3, h4⟩ := h2 out hout
    obtain ⟨a1, a2, a3, _⟩ := h4 d hd
    obtain ⟨b1, b2⟩ := h3.mp ⟨d, hd⟩
    exact ⟨qr, params, inputs, out, d, hqr, hin, hout, hd, a1, a2, a3, b1, b2⟩

/-- A factor is not measured in the second of three periods, but anchored. -/
noncomputable def gapModel : ModelDict ℝ where
  factors := [("a", { measurements := [["y"], [], ["y"]], transition := .named "linear" })]
  anchoring := some { outcomes := some [("a", "q")] }
  estimationOptions := some {}

/-- The condition of C129 fails if a factor that is not measured in some period is anchored: the period has an update, but no measurement. -/
theorem C129_example_fails : (∃ pm, processModel gapModel = .ok pm) ∧ CleanAnchoring gapModel ∧ IsUpdate gapModel 1 "q_a" ∧ ¬ ∃ w, IsMeasurement gapModel 1 w := by
  have hin : ∀ f o, AnchoredIn gapModel f o ↔ f = "a" ∧ o = "q" := by
    intro f o
    constructor
    · rintro ⟨a, ⟨⟩, os, ⟨⟩, h⟩
      simpa using h
    · rintro ⟨rfl, rfl⟩
      exact ⟨_, rfl, _, rfl, by simp⟩
  have hanch : ∀ v f, Anchors gapModel v f ↔ f = "a" ∧ v = "q_a" := by
    intro v f
    constructor
    · rintro ⟨o, h, rfl⟩
      obtain ⟨rfl, rfl⟩ := (hin f o).mp h
      exact ⟨rfl, rfl⟩
    · rintro ⟨rfl, rfl⟩
      exact ⟨"q", (hin _ _).mpr ⟨rfl, rfl⟩, rfl⟩
  have hmeas : ∀ t v f, Measures gapModel t v f → v = "y" ∧ t ≠ 1 := by
    rintro t v f ⟨spec, hs, vs, hvs, hv⟩
    simp only [gapModel, List.mem_cons, Prod.mk.injEq, List.not_mem_nil, or_false] at hs
    obtain ⟨rfl, rfl⟩ := hs
    rcases t with _ | _ | _ | t
    · simp only [List.getElem?_cons_zero, Option.some.injEq] at hvs
      subst hvs
      simpa using hv
    · simp only [zero_add, List.getElem?_cons_succ, List.getElem?_cons_zero, Option.some.injEq] at hvs
      subst hvs
      simp at hv
    · simp only [List.getElem?_cons_succ, List.getElem?_cons_zero, Option.some.injEq, Nat.reduceAdd, zero_add] at hvs
      subst hvs
      simpa using hv
    · simp at hvs
  obtain ⟨pm, hpm, hper⟩ : ∃ pm, processModel gapModel = .ok pm ∧ pm.dimensions.nPeriods = 3 := by
    have h : (processModel gapModel >>= fun pm => pure pm.dimensions.nPeriods) = (.ok 3 : Py _) := by decide +kernel
    obtain ⟨pm, hpm, h⟩ := py_bind_ok.mp h
    rw [py_pure_ok] at h
    exact ⟨pm, hpm, h⟩
  refine ⟨⟨pm, hpm⟩, ⟨?_, ?_, ?_⟩, Or.inr ⟨(isPeriod_iff hpm 1).mpr (by omega), "a", (hanch _ _).mpr ⟨rfl, rfl⟩⟩, ?_⟩
  · intro f o h
    obtain ⟨rfl, rfl⟩ := (hin f o).mp h
    exact ⟨_, List.mem_cons_self⟩
  · intro v f t g h h'
    obtain ⟨rfl, rfl⟩ := (hanch v f).mp h
    exact absurd (hmeas t _ g h').1 (by decide)
  · intro v f g h h'
    rw [((hanch v f).mp h).1, ((hanch v g).mp h').1]
  · rintro ⟨w, f, h⟩
    exact (hmeas 1 w f h).2 rfl

end Ex
end Skill
