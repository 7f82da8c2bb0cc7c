import Verif.Props.PossibleMoves
import Verif.Props.NestedModelsExamples
/- Examples for C146. -/
namespace Skill
open Spec
namespace Ex

theorem nestModel_updates (t : ℕ) (ht : IsPeriod nestModel t) : ∃ v, IsUpdate nestModel t v := by
  have ht := (editModel_period t).mp ((nestModel_nest.periods t).mp ht)
  obtain ⟨f, hf⟩ | ⟨_, f, hf⟩ := (editModel_update t "w").mpr ⟨ht, by simp⟩
  · exact ⟨"w", Or.inl ⟨f, (edit_unswitch "constant" "linear" editModel).measures t "w" f hf⟩⟩
  · obtain ⟨o, ⟨a, ⟨⟩, _⟩, _⟩ := hf

theorem nestModel_movable (val : Loc → ℝ) : MovableTransitions nestModel val := by
  intro t _ f spec hs
  rcases nestModel_nest.transition f spec hs with h | h
  · exact ⟨_, h, Or.inr (Or.inr (Or.inl rfl))⟩
  · exact ⟨_, h, Or.inl rfl⟩

/-- C146 is not vacuous: a model with a translog function and a linear function. In all three periods both factors are moved by 3, and the log likelihood of the data is the same. -/
theorem C146_example (qr : QR) (custom : String → CustomFn) (nan : ℝ) : ∃ (inputs : MaximizationInputs) (τ : Nat → String → ℝ) (val' : Loc → ℝ) (params params' : List (Loc × ℝ)) (out : LoglikeOutput),
    getMaximizationInputs nestModel editData = .ok inputs ∧ ParamsWith nestModel params nestValues ∧ ParamsWith nestModel params' val' ∧ MovedLocations custom nestModel τ nestValues val' ∧ (∀ t f, IsLatent nestModel f → τ t f = 3) ∧
    val' ⟨.initialStates, 0, Spec.mixtureName 0, "a"⟩ = 7 / 2 ∧ inputs.loglike qr custom nan nestModel params = .ok out ∧ inputs.loglike qr custom nan nestModel params' = .ok out := by
  have h := nestModel_nest
  obtain ⟨pm, hpm⟩ := h.accepted
  obtain ⟨inputs, hin, hev⟩ := h.evaluates
  obtain ⟨τ, val', h0, hmv, h1, _, _, hsame⟩ := C146_not_identified (val := nestValues) h.estimable.names (h.edit.anchoring.trans rfl) (h.edit.cleanAnchoring editModel_clean) (h.edit.sameOrder (by rintro a os ⟨⟩))
    (h.edit.noNameClash (noNameClash_of_none rfl)) nestModel_updates (by
      intro o x ho hx
      rw [h.edit.options] at ho
      obtain rfl := Option.some.inj ho
      cases hx) custom (nestModel_movable nestValues) (fun _ _ => 3)
  obtain ⟨params, hp⟩ := exists_paramsWith hpm h.estimable.names nestValues
  obtain ⟨params', hp'⟩ := exists_paramsWith hpm h.estimable.names val'
  obtain ⟨x, hx⟩ := hev qr custom nan nestValues params hp
  obtain ⟨x', hx'⟩ := hev qr custom nan val' params' hp'
  obtain ⟨out, ho, _⟩ := (loglikeValue_ok hin).mp hx
  obtain ⟨out', ho', _⟩ := (loglikeValue_ok hin).mp hx'
  have e := hsame editData _ _ editData_index.1 editData_index.2.1 editData_ids.1 editData_ids.2 inputs hin qr nan params params' hp.nodup hp'.nodup hp.values hp'.values out out' ho ho'
  have ha : IsLatent nestModel "a" := (h.edit.isLatent "a").mpr ⟨_, List.mem_cons_self⟩
  refine ⟨inputs, τ, val', params, params', out, hin, hp, hp', hmv, fun t f hf => ?_, ?_, ho, e ▸ ho'⟩
  · cases t with
    | zero =>
      have := (hmv.means 0 f hf).symm.trans (h0 0 f hf)
      linarith
    | succ t =>
      obtain ⟨spec, hs⟩ := hf
      refine h1 t f ?_
      rcases h.transition f spec hs with h2 | h2
      · exact Or.inr (Or.inr (Or.inl ⟨spec, hs, h2⟩))
      · exact Or.inl ⟨spec, hs, h2⟩
  · rw [h0 0 "a" ha]
    unfold nestValues
    rw [if_neg (by simp)]
    norm_num

end Ex
end Skill
