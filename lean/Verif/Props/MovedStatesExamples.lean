import Verif.Props.MovedStates
import Verif.Props.PossibleMovesExamples
import Verif.Props.ParamsUpToExamples
/- Examples for C147. -/
namespace Skill
open Spec
namespace Ex

/-- The anchored factor is moved by 3 in the first period and by 4 in the second period. -/
noncomputable def anchoredMove (t : Nat) (f : String) : ℝ := if f = "a" then 3 + t else 0

theorem anchoredModel_flag : ¬AnchorFlag anchoredModel AnchoringSpec.ignoreConstant := by
  rintro ⟨a, ⟨⟩, h⟩
  cases h

theorem anchoredModel_moves (custom : String → CustomFn) : MovedLocations custom anchoredModel anchoredMove linearValues (movedIntercepts anchoredModel anchoredMove linearValues) :=
  C147_anchored_moves anchoredModel_names anchoredModel_clean anchoredModel_flag custom (fun t f h => if_neg (fun hf => h ⟨"q", (anchoredModel_anchoredIn f "q").mpr ⟨hf, rfl⟩⟩)) (fun t f o _ _ => by
    unfold linearValues
    rw [if_neg (by simp)]
    norm_num)

/-- C147 is not vacuous: in the model with one anchored factor and three individuals, the filtered state of the second individual in the second period is moved by 4, and the anchored state is the same. -/
theorem C147_example (qr : QR) (custom : String → CustomFn) (nan : ℝ) : ∃ (params params' : List (Loc × ℝ)) (out out' : FilteredStates) (x x' y y' : String → ℝ),
    ParamsWith anchoredModel params linearValues ∧ ParamsWith anchoredModel params' (movedIntercepts anchoredModel anchoredMove linearValues) ∧
    getFilteredStates qr custom nan anchoredModel anchoredData params = .ok out ∧ getFilteredStates qr custom nan anchoredModel anchoredData params' = .ok out' ∧
    out.unanchored.states.rows[4]? = some (1, x) ∧ out'.unanchored.states.rows[4]? = some (1, x') ∧ out.anchored.states.rows[4]? = some (1, y) ∧ out'.anchored.states.rows[4]? = some (1, y') ∧
    x' "a" = x "a" + 4 ∧ y' "a" = y "a" ∧ x' "b" = x "b" ∧ movedIntercepts anchoredModel anchoredMove linearValues ⟨.initialStates, 0, Spec.mixtureName 0, "a"⟩ = 7 / 2 := by
  obtain ⟨pm, hpm, _⟩ := anchoredModel_ok
  obtain ⟨params, hp⟩ := exists_paramsWith hpm anchoredModel_names linearValues
  obtain ⟨params', hp'⟩ := exists_paramsWith hpm anchoredModel_names (movedIntercepts anchoredModel anchoredMove linearValues)
  have ha : IsLatent anchoredModel "a" := ⟨_, List.mem_cons_self⟩
  have hb : IsLatent anchoredModel "b" := ⟨_, List.mem_cons_of_mem _ List.mem_cons_self⟩
  have hw : ∀ e, linearValues ⟨.mixtureWeights, 0, Spec.mixtureName e, "-"⟩ = 1 := fun e => if_pos rfl
  obtain ⟨out, out', h1, h2, h3⟩ := C147_filtered_states qr hpm anchoredModel_names anchoredModel_clean anchoredModel_order anchoredModel_clash (fun f hf => (anchoredModel_safe f hf).1) (fun f hf => (anchoredModel_safe f hf).2)
    anchoredModel_linear.periods (fun t ht => by
      obtain ⟨v, f, h⟩ := anchoredModel_linear.measured t ht
      exact ⟨v, f, h, fun ⟨g, hg⟩ => anchoredModel_clean.notMeasured v g t f hg h⟩)
    anchoredModel_linear.mixture (Or.inl rfl) (by rintro o x ⟨⟩ ⟨⟩) anchoredData_index.1 anchoredData_index.2.1 anchoredData_ids.1 anchoredData_ids.2 anchoredData_ok custom nan hp.nodup (fun l hl => (hp.labels l).mpr hl) hp.values hp'.nodup (fun l hl => (hp'.labels l).mpr hl) hp'.values
    (anchoredModel_moves custom) (fun t _ => anchoredModel_usable custom _) (fun t _ => anchoredModel_usable custom _) (fun e => by rw [hw]; exact one_pos) (by simp [hw])
  obtain ⟨x, x', y, y', r1, r2, r3, r4, c1, c2, _, _⟩ := h3 1 1 anchoredModel_linear.periods (by simp)
  refine ⟨params, params', out, out', x, x', y, y', hp, hp', h1, h2, r1, r2, r3, r4, ?_, c2 "a" "q" ((anchoredModel_anchoredIn "a" "q").mpr ⟨rfl, rfl⟩) anchoredModel_flag, ?_, ?_⟩
  · rw [c1 "a" ha]
    norm_num [anchoredMove]
  · have hab : "b" ≠ "a" := by decide
    rw [c1 "b" hb, anchoredMove, if_neg hab, add_zero]
  · unfold movedIntercepts
    rw [if_pos rfl]
    unfold linearValues
    rw [if_neg (by simp)]
    norm_num [anchoredMove]

end Ex
end Skill
