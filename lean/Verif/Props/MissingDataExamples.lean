import Verif.Props.MissingData
import Verif.Props.OwnDataExamples

/-! Examples for C139. -/

namespace Skill
open Spec
namespace Ex

/-- Individual 3 has only the observed factor. -/
noncomputable def hideRow (r : LongRow ℝ) : LongRow ℝ := { r with cell := fun c => if r.id = 3 ∧ c ≠ "o" then none else r.cell c }

/-- Individuals 1, 2 and 3; individual 3 has no measurements. -/
noncomputable def hidden : LongData ℝ := { panel [1, 2, 3] with rows := (panel [1, 2, 3]).rows.map hideRow }

theorem mem_hidden {r : LongRow ℝ} : r ∈ hidden.rows ↔ ∃ q ∈ (panel [1, 2, 3]).rows, hideRow q = r := List.mem_map

theorem hidden_index : IndexOk hidden ∧ NoUnusedPeriods hidden ∧ UniqueKeys hidden := by
  obtain ⟨h1, h2, h3⟩ := panel_index (ids := [1, 2, 3]) (by decide) (by decide)
  refine ⟨⟨h1.idNodup, h1.periodNodup, ?_, ?_⟩, ?_, ?_⟩
  · intro r hr
    obtain ⟨q, hq, rfl⟩ := mem_hidden.mp hr
    exact h1.ids q hq
  · intro r hr
    obtain ⟨q, hq, rfl⟩ := mem_hidden.mp hr
    exact h1.periods q hq
  · intro p hp
    obtain ⟨q, hq, e⟩ := h2 p hp
    exact ⟨_, mem_hidden.mpr ⟨q, hq, rfl⟩, e⟩
  · unfold UniqueKeys hidden
    rw [List.map_map]
    exact h3

theorem hidden_ids : IdsOf hidden [1, 2, 3] ∧ PeriodsOf hidden [10, 20] := by
  obtain ⟨h1, h2⟩ := panel_ids (ids := [1, 2, 3]) (by decide) (by decide)
  refine ⟨⟨h1.1, fun x => (h1.2 x).trans ?_⟩, ⟨h2.1, fun x => (h2.2 x).trans ?_⟩⟩
  all_goals
    constructor
    · rintro ⟨r, hr, e⟩
      exact ⟨_, mem_hidden.mpr ⟨r, hr, rfl⟩, e⟩
    · rintro ⟨r, hr, e⟩
      obtain ⟨q, hq, rfl⟩ := mem_hidden.mp hr
      exact ⟨q, hq, e⟩

theorem hidden_row {i t : ℕ} (hi : i < 3) (ht : t < 2) : RowOf hidden [1, 2, 3] [10, 20] i t (some (hideRow (panelRow (i + 1) (10 * (t + 1))))) := by
  obtain ⟨h1, h2, h3⟩ := panel_row (ids := [1, 2, 3]) (i := i) (t := t) hi ht
  have e : ([1, 2, 3] : List Int)[i] = (i : Int) + 1 := by
    obtain rfl | rfl | rfl : i = 0 ∨ i = 1 ∨ i = 2 := by omega
    all_goals rfl
  rw [e] at h1 h2 h3
  exact ⟨mem_hidden.mpr ⟨_, h1, rfl⟩, h2, h3⟩

theorem hideRow_cell (x p : Int) (c : String) : (hideRow (panelRow x p)).cell c = if x = 3 ∧ c ≠ "o" then none else some ((x : ℝ) + (p : ℝ)) := rfl

theorem hidden_value {i t : ℕ} (hi : i < 2) (ht : t < 2) {c : String} (hc : c ≠ "constant") : HasValue linearModel hidden [1, 2, 3] [10, 20] i t c (some ((i : ℤ) + 1 + (10 * (t + 1) : ℤ) : ℤ)) := by
  refine ⟨by simp only [List.length_cons, List.length_nil]; omega, _, hidden_row (by omega) ht, (valueIs_of_none rfl _ _ _).mpr ?_⟩
  have h3 : ¬((i : ℤ) + 1 = 3 ∧ c ≠ "o") := by omega
  rw [baseValue, if_neg hc, Option.bind_some, hideRow_cell, if_neg h3]
  push_cast
  rfl

/-- Individual 3 has no measurements. -/
theorem hidden_missing {t : ℕ} (ht : t < 2) {c : String} (hc : c ≠ "constant") (hc' : c ≠ "o") : HasValue linearModel hidden [1, 2, 3] [10, 20] 2 t c none := by
  refine ⟨by decide, _, hidden_row (by omega) ht, (valueIs_of_none rfl _ _ _).mpr ?_⟩
  have h3 : (((2 : ℕ) : ℤ) + 1 = 3 ∧ c ≠ "o") := ⟨by norm_num, hc'⟩
  rw [baseValue, if_neg hc, Option.bind_some, hideRow_cell, if_pos h3]

theorem hidden_ok : DataOk linearModel hidden [1, 2, 3] [10, 20] where
  keys := hidden_index.2.2
  outcomes := by rintro f o ⟨a, ⟨⟩, _⟩
  controls := by
    intro t ht c hc
    have ht := (linearModel_period t).mp ht
    simp only [linearModel, Option.getD_some, List.mem_cons, List.not_mem_nil, or_false] at hc
    rcases hc with rfl | rfl
    · exact ⟨Or.inr (Or.inl rfl), 0, 1, by decide, _, hidden_row (by omega) ht, (valueIs_of_none rfl _ _ _).mpr rfl⟩
    · exact ⟨Or.inl (by simp [hidden, panel]), 0, _, hidden_value (by omega) ht (by decide)⟩
  measurements := by
    intro t v hv
    obtain ⟨ht, hv⟩ := (linearModel_update t v).mp hv
    have hv' : v ≠ "constant" := by rintro rfl; simp at hv
    refine ⟨Or.inl (by simp only [hidden, panel, List.mem_cons] at hv ⊢; tauto), ?_⟩
    rintro ⟨y, hy⟩
    have e2 := (hy _).mp ⟨_, hidden_value (i := 0) (by omega) ht hv'⟩
    have e3 := (hy _).mp ⟨_, hidden_value (i := 1) (by omega) ht hv'⟩
    rw [← e3] at e2
    have e4 := Int.cast_injective (α := ℝ) e2
    omega
  observed := by
    intro t ht f hf
    have ht := (linearModel_period t).mp ht
    simp only [linearModel, Option.getD_some, List.mem_singleton] at hf
    subst hf
    refine ⟨Or.inl (by simp [hidden, panel]), ?_⟩
    rintro i ⟨hi, r, hr, hv⟩
    rw [valueIs_of_none rfl, rowOf_unique hidden_index.2.2 hr (hidden_row hi ht)] at hv
    simp [baseValue, hideRow, panelRow] at hv

theorem hidden_evaluates (qr : QR) (custom : String → CustomFn) (nan : ℝ) {pm : Processed ℝ} (hpm : processModel linearModel = .ok pm) :
    ∃ inputs out, getMaximizationInputs linearModel hidden = .ok inputs ∧ inputs.loglike qr custom nan linearModel (panelParams pm) = .ok out := by
  obtain ⟨inputs, updates0, hin, hen0, hout⟩ := C70_likelihood_evaluates qr hpm linearModel_names linearModel_clean (by rintro a os ⟨⟩) (noNameClash_of_none rfl)
    (by
      rintro f ⟨spec, hmem⟩
      simp only [linearModel, List.mem_cons, Prod.mk.injEq, List.not_mem_nil, or_false] at hmem
      rcases hmem with ⟨rfl, rfl⟩ | ⟨rfl, rfl⟩ <;> decide)
    linearModel_linear.periods linearModel_linear.mixture (Or.inl rfl) hidden_index.1 hidden_index.2.1 hidden_ids.1 hidden_ids.2 hidden_ok
  have hix : inputs.index = pm.paramsIndex := by
    have h := hin
    unfold getMaximizationInputs at h
    simp only [py_bind_ok, py_pure_ok] at h
    obtain ⟨pm', hpm', _, _, _, _, _, _, rfl⟩ := h
    obtain rfl := Except.ok.inj (hpm.symm.trans hpm')
    rfl
  have hfst : (panelParams pm).map Prod.fst = pm.paramsIndex := by unfold panelParams; rw [List.map_map]; exact List.map_id _
  obtain ⟨out, hout, _⟩ := hout custom nan (panelParams pm) linearValues (by rw [hfst]; exact C06_index_unique_partial hpm linearModel_names) (fun l => by rw [hfst, hix])
    (by
      intro l x h
      obtain ⟨l', _, h⟩ := List.mem_map.mp h
      rw [Prod.mk.injEq] at h
      rw [← h.1, ← h.2])
    (by
      rintro ⟨f, spec⟩ hmem
      rcases linearModel_linear.transitions f spec hmem with h | h <;> rw [h] <;> exact ⟨rfl, fun h => by simp at h⟩)
  exact ⟨inputs, out, hin, hout⟩

theorem panelRow_id (x p : Int) : (panelRow x p).id = x := rfl
theorem hideRow_id (r : LongRow ℝ) : (hideRow r).id = r.id := rfl

/-- C139 is not vacuous: the contribution of individual 3 is zero, and the log likelihood is the one without individual 3. -/
theorem C139_example (nan : ℝ) (custom : String → CustomFn) : ∃ (qr : QR) (params : List (Loc × ℝ)) (inputs inputs' : MaximizationInputs) (out out' : LoglikeOutput),
    getMaximizationInputs linearModel (panel [1, 2]) = .ok inputs ∧ getMaximizationInputs linearModel hidden = .ok inputs' ∧
      inputs.loglike qr custom nan linearModel params = .ok out ∧ inputs'.loglike qr custom nan linearModel params = .ok out' ∧ out'.contributions[2]? = some 0 ∧ out'.value = out.value := by
  obtain ⟨qr, _⟩ := validQR
  obtain ⟨pm, hpm, hT, _⟩ := linearModel_ok
  obtain ⟨inputs, out, h1, e1⟩ := panel_evaluates (ids := [1, 2]) qr custom nan hpm (by decide) (by decide)
  obtain ⟨inputs', out', h2, e2⟩ := hidden_evaluates qr custom nan hpm
  have i1 := panel_index (ids := [1, 2]) (by decide) (by decide)
  have j1 := panel_ids (ids := [1, 2]) (by decide) (by decide)
  have hn : ((panelParams pm).map Prod.fst).Nodup := by
    have hfst : (panelParams pm).map Prod.fst = pm.paramsIndex := by unfold panelParams; rw [List.map_map]; exact List.map_id _
    rw [hfst]
    exact C06_index_unique_partial hpm linearModel_names
  have hper : IsPeriod linearModel 1 := (linearModel_period 1).mpr (by omega)
  have hno : NoClipping linearModel := ⟨_, rfl, rfl, Or.inl rfl⟩
  have hmiss : ∀ t v, IsUpdate linearModel t v → HasValue linearModel hidden [1, 2, 3] [10, 20] 2 t v none := by
    intro t v hv
    obtain ⟨ht, hv⟩ := (linearModel_update t v).mp hv
    exact hidden_missing ht (by rintro rfl; simp at hv) (by rintro rfl; simp at hv)
  refine ⟨qr, _, inputs, inputs', out, out', h1, h2, e1, e2, ?_, ?_⟩
  · exact C139_no_measurements linearModel_names linearModel_clean (by rintro a os ⟨⟩) (noNameClash_of_none rfl) hper hno hidden_index.1 hidden_index.2.1 hidden_ids.1 hidden_ids.2 h2 hn e2 (by decide) hmiss
  · refine C139_left_out linearModel_names linearModel_clean (by rintro a os ⟨⟩) (noNameClash_of_none rfl) hper hno i1.1 hidden_index.1 i1.2.1 hidden_index.2.1 j1.1 j1.2 hidden_ids.1 hidden_ids.2 (fun x => x ≠ 3) ?_ ?_ h1 h2 hn e1 e2
    · intro r
      have key : ∀ x : Int, x ≠ 3 → ∀ p, hideRow (panelRow x p) = panelRow x p := by
        intro x hx p
        simp [hideRow, panelRow, hx]
      rw [mem_hidden, mem_panel]
      constructor
      · rintro ⟨x, hx, h⟩
        have hx3 : x ≠ 3 := by rintro rfl; simp at hx
        have hx' : x ∈ ([1, 2, 3] : List Int) := by simp only [List.mem_cons, List.not_mem_nil, or_false] at hx ⊢; tauto
        refine ⟨⟨r, mem_panel.mpr ⟨x, hx', h⟩, ?_⟩, ?_⟩
        · rcases h with rfl | rfl <;> rw [key x hx3]
        · rcases h with rfl | rfl <;> rwa [panelRow_id]
      · rintro ⟨⟨q, hq, rfl⟩, h3⟩
        obtain ⟨x, hx, h⟩ := mem_panel.mp hq
        have hx3 : x ≠ 3 := by rw [hideRow_id] at h3; rcases h with rfl | rfl <;> rwa [panelRow_id] at h3
        refine ⟨x, ?_, ?_⟩
        · simp only [List.mem_cons, List.not_mem_nil, or_false] at hx ⊢
          rcases hx with e | e | e
          · exact Or.inl e
          · exact Or.inr e
          · exact absurd e hx3
        rcases h with rfl | rfl
        · left; rw [key x hx3]
        · right; rw [key x hx3]
    · intro i x hx h3 t v hv
      obtain rfl : i = 2 := by
        have hlt := (List.getElem?_eq_some_iff.mp hx).1
        simp only [List.length_cons, List.length_nil] at hlt
        obtain rfl | rfl | rfl : i = 0 ∨ i = 1 ∨ i = 2 := by omega
        · cases hx; exact absurd (by decide) h3
        · cases hx; exact absurd (by decide) h3
        · rfl
      exact hmiss t v hv

end Ex
end Skill
