import Verif.Lemmas.Heatmap
/- C58 and C75: heatmaps of correlations. -/
namespace Skill
open Spec

theorem entry2_of_shape {t : CorrTable} (h : TableShape t) {i j : ℕ} (hi : i < t.rows.length) (hj : j < t.cols.length) : ∃ x, entry2 t.cells i j = some x := by
  unfold entry2
  have hi' : i < t.cells.length := h.1 ▸ hi
  have := h.2 _ (List.getElem_mem hi')
  rw [List.getElem?_eq_getElem hi', Option.bind_some, List.getElem?_eq_getElem (by omega)]
  exact ⟨_, rfl⟩

theorem entry2_lt {β : Type} {cells : List (List β)} {i j : ℕ} {x : β} (h : entry2 cells i j = some x) : i < cells.length := by
  unfold entry2 at h
  obtain ⟨row, hrow, _⟩ := Option.bind_eq_some_iff.mp h
  exact (List.getElem?_eq_some_iff.mp hrow).1

theorem entry2_lt' {t : CorrTable} (h : TableShape t) {i j : ℕ} {x : Option ℝ} (hx : entry2 t.cells i j = some x) : i < t.rows.length ∧ j < t.cols.length := by
  refine ⟨h.1 ▸ entry2_lt hx, ?_⟩
  unfold entry2 at hx
  obtain ⟨row, hrow, hx⟩ := Option.bind_eq_some_iff.mp hx
  rw [← h.2 row (List.mem_of_getElem? hrow)]
  exact (List.getElem?_eq_some_iff.mp hx).1

/-- **C58** (without trimming). The heatmap has the rows and columns of the table. A cell has the rounded correlation if it is strictly below the diagonal, on the diagonal with show_diagonal or above it with
show_upper_triangle, and it is empty otherwise. -/
theorem C58_mask {corr : CorrTable} (h : TableShape corr) (rounding : ℕ) (showUpper showDiagonal : Bool) {out : CorrTable}
    (hout : processCorrDataForPlotting corr rounding showUpper showDiagonal false = out) :
    out.rows = corr.rows ∧ out.cols = corr.cols ∧ TableShape out ∧
      ∀ (i j : ℕ) (x : Option ℝ), entry2 corr.cells i j = some x → ∃ z, entry2 out.cells i j = some z ∧ ShownValue rounding (Shown showUpper showDiagonal i j) x z := by
  subst hout
  simp only [processCorrDataForPlotting, Bool.false_eq_true, if_false]
  refine ⟨trivial, trivial, ⟨by simp [maskCells, h.1], ?_⟩, ?_⟩
  · intro row hrow
    obtain ⟨i, hi, rfl⟩ := List.mem_iff_getElem.mp hrow
    simp only [maskCells, List.getElem_mapIdx, List.length_mapIdx]
    exact h.2 _ (List.getElem_mem _)
  · intro i j x hx
    exact ⟨_, by rw [entry2_maskCells, hx]; rfl, shownValue_mask rounding showUpper showDiagonal i j x⟩

theorem visible_iff {corr : CorrTable} (rounding : ℕ) (u d : Bool) (i j : ℕ) :
    Visible u d corr i j ↔ ∃ z, entry2 (maskCells rounding u d corr.cells) i j = some (some z) := by
  rw [entry2_maskCells]
  constructor
  · rintro ⟨hs, y, hy⟩
    refine ⟨roundDigits rounding y, ?_⟩
    rw [hy, Option.map_some, if_pos ((maskEntry_iff u d i j).mpr hs)]
    rfl
  · rintro ⟨z, hz⟩
    obtain ⟨x, hx, hz⟩ := Option.map_eq_some_iff.mp hz
    split_ifs at hz with hm
    obtain ⟨y, rfl, _⟩ := Option.map_eq_some_iff.mp hz
    exact ⟨(maskEntry_iff u d i j).mp hm, y, hx⟩

/-- **C58** (with trimming). The heatmap has the rows and columns of the table with a visible cell, in the same order, and the cells as without trimming. -/
theorem C58_trim {corr : CorrTable} (h : TableShape corr) (rounding : ℕ) (showUpper showDiagonal : Bool) {out : CorrTable}
    (hout : processCorrDataForPlotting corr rounding showUpper showDiagonal true = out) :
    ∃ rows cols : List ℕ, rows.Pairwise (· < ·) ∧ cols.Pairwise (· < ·) ∧ (∀ i, i ∈ rows ↔ ∃ j, Visible showUpper showDiagonal corr i j) ∧
      (∀ j, j ∈ cols ↔ ∃ i, Visible showUpper showDiagonal corr i j) ∧
      out.rows.length = rows.length ∧ out.cols.length = cols.length ∧ TableShape out ∧
      (∀ (a i : ℕ), rows[a]? = some i → out.rows[a]? = corr.rows[i]?) ∧ (∀ (b j : ℕ), cols[b]? = some j → out.cols[b]? = corr.cols[j]?) ∧
      ∀ (a b i j : ℕ) (x : Option ℝ), rows[a]? = some i → cols[b]? = some j → entry2 corr.cells i j = some x →
        ∃ z, entry2 out.cells a b = some z ∧ ShownValue rounding (Shown showUpper showDiagonal i j) x z := by
  subst hout
  obtain ⟨_, _, hshape, hcells⟩ := C58_mask h rounding showUpper showDiagonal rfl
  simp only [processCorrDataForPlotting, Bool.false_eq_true, if_false] at hshape hcells
  simp only [processCorrDataForPlotting, if_true]
  set cells := maskCells rounding showUpper showDiagonal corr.cells with hc
  have hclen : cells.length = corr.rows.length := hshape.1
  have hcrow : ∀ row ∈ cells, row.length = corr.cols.length := hshape.2
  set kr := cells.map (fun row => row.any Option.isSome) with hkr
  have hkrlen : kr.length = cells.length := by simp [hkr]
  set cells2 := boolSelect kr cells with hc2
  set kc := (List.range corr.cols.length).map (fun j => cells2.any (fun row => (row.getD j none).isSome)) with hkc
  have hkclen : kc.length = corr.cols.length := by simp [hkc]
  have hrow : ∀ i, i ∈ truePositions kr ↔ ∃ j, Visible showUpper showDiagonal corr i j := by
    intro i
    rw [mem_truePositions, hkr, List.getElem?_map]
    constructor
    · intro hi
      obtain ⟨row, hrow, hany⟩ := Option.map_eq_some_iff.mp hi
      obtain ⟨x, hx, hs⟩ := List.any_eq_true.mp hany
      obtain ⟨j, hj⟩ := List.getElem?_of_mem hx
      obtain ⟨z, rfl⟩ := Option.isSome_iff_exists.mp hs
      exact ⟨j, (visible_iff rounding _ _ i j).mpr ⟨z, by unfold entry2; rw [hrow, Option.bind_some, hj]⟩⟩
    · rintro ⟨j, hv⟩
      obtain ⟨z, hz⟩ := (visible_iff rounding _ _ i j).mp hv
      unfold entry2 at hz
      obtain ⟨row, hrow, hz⟩ := Option.bind_eq_some_iff.mp hz
      rw [hrow, Option.map_some, Option.some.injEq, List.any_eq_true]
      exact ⟨_, List.mem_of_getElem? hz, rfl⟩
  have hcells2 : ∀ a, cells2[a]? = (truePositions kr)[a]?.bind (fun i => cells[i]?) := fun a => boolSelect_getElem? kr cells a hkrlen.le
  have hmem2 : ∀ row, row ∈ cells2 ↔ ∃ i, i ∈ truePositions kr ∧ cells[i]? = some row := by
    intro row
    constructor
    · intro hr
      obtain ⟨a, ha⟩ := List.getElem?_of_mem hr
      rw [hcells2] at ha
      obtain ⟨i, hi, hr⟩ := Option.bind_eq_some_iff.mp ha
      exact ⟨i, List.mem_of_getElem? hi, hr⟩
    · rintro ⟨i, hi, hr⟩
      obtain ⟨a, ha⟩ := List.getElem?_of_mem hi
      refine List.mem_of_getElem? (i := a) ?_
      rw [hcells2, ha, Option.bind_some, hr]
  have hcol : ∀ j, j ∈ truePositions kc ↔ ∃ i, Visible showUpper showDiagonal corr i j := by
    intro j
    rw [mem_truePositions, hkc, List.getElem?_map]
    constructor
    · intro hj
      obtain ⟨j', hj', hany⟩ := Option.map_eq_some_iff.mp hj
      obtain ⟨_, rfl⟩ := List.getElem?_eq_some_iff.mp hj'
      rw [List.getElem_range] at hany
      obtain ⟨row, hrow, hs⟩ := List.any_eq_true.mp hany
      obtain ⟨i, _, hi⟩ := (hmem2 row).mp hrow
      obtain ⟨z, hz⟩ := Option.isSome_iff_exists.mp hs
      refine ⟨i, (visible_iff rounding _ _ i j).mpr ⟨z, ?_⟩⟩
      unfold entry2
      rw [hi, Option.bind_some]
      rw [List.getD_eq_getElem?_getD] at hz
      cases hx : row[j]? with
      | none => rw [hx] at hz; cases hz
      | some x => rw [hx, Option.getD_some] at hz; rw [hz]
    · rintro ⟨i, hv⟩
      have hi := (hrow i).mpr ⟨j, hv⟩
      obtain ⟨z, hz⟩ := (visible_iff rounding _ _ i j).mp hv
      unfold entry2 at hz
      obtain ⟨row, hr, hz⟩ := Option.bind_eq_some_iff.mp hz
      have hj : j < corr.cols.length := by
        rw [← hcrow row (List.mem_of_getElem? hr)]
        exact (List.getElem?_eq_some_iff.mp hz).1
      rw [List.getElem?_range hj, Option.map_some, Option.some.injEq, List.any_eq_true]
      exact ⟨row, (hmem2 row).mpr ⟨i, hi, hr⟩, by rw [List.getD_eq_getElem?_getD, hz]; rfl⟩
  refine ⟨truePositions kr, truePositions kc, truePositions_pairwise _, truePositions_pairwise _, hrow, hcol, ?_, ?_, ⟨?_, ?_⟩, ?_, ?_, ?_⟩
  · exact truePositions_length_eq _ _ (by omega)
  · exact truePositions_length_eq _ _ (by omega)
  · rw [List.length_map, hc2, truePositions_length_eq _ _ hkrlen.le, truePositions_length_eq _ _ (by omega)]
  · intro row hr
    obtain ⟨row', hr', rfl⟩ := List.mem_map.mp hr
    obtain ⟨i, _, hi⟩ := (hmem2 row').mp hr'
    dsimp only
    rw [truePositions_length_eq _ _ (by rw [hkclen, hcrow row' (List.mem_of_getElem? hi)]), truePositions_length_eq _ _ (by omega)]
  · intro a i ha
    rw [boolSelect_getElem? _ _ _ (by omega), ha, Option.bind_some]
  · intro b j hb
    rw [boolSelect_getElem? _ _ _ (by omega), hb, Option.bind_some]
  · intro a b i j x ha hb hx
    obtain ⟨z, hz, hsv⟩ := hcells i j x hx
    refine ⟨z, ?_, hsv⟩
    unfold entry2 at hz ⊢
    obtain ⟨row, hr, hz⟩ := Option.bind_eq_some_iff.mp hz
    rw [List.getElem?_map, hcells2, ha, Option.bind_some, hr, Option.map_some, Option.bind_some,
      boolSelect_getElem? _ _ _ (by rw [hkclen, hcrow row (List.mem_of_getElem? hr)]), hb, Option.bind_some, hz]

/-! ### C75 -/

theorem mem_lowerCells (t : CorrTable) (x : Option ℝ) : x ∈ lowerCells t ↔ ∃ i j, j < i ∧ entry2 t.cells i j = some x := by
  unfold lowerCells entry2
  rw [List.mem_flatten]
  constructor
  · rintro ⟨l, hl, hx⟩
    obtain ⟨i, hi, rfl⟩ := List.mem_iff_getElem.mp hl
    rw [List.getElem_mapIdx] at hx
    obtain ⟨j, hj, rfl⟩ := List.mem_iff_getElem.mp hx
    rw [List.length_mapIdx] at hi
    rw [List.length_take] at hj
    refine ⟨i, j, by omega, ?_⟩
    rw [List.getElem?_eq_getElem hi, Option.bind_some, List.getElem?_eq_getElem (by omega), List.getElem_take]
  · rintro ⟨i, j, hji, h⟩
    obtain ⟨row, hr, hx⟩ := Option.bind_eq_some_iff.mp h
    refine ⟨row.take i, ?_, ?_⟩
    · refine List.mem_of_getElem? (i := i) ?_
      rw [List.getElem?_mapIdx, hr]
      rfl
    · refine List.mem_of_getElem? (i := j) ?_
      rw [List.getElem?_take, if_pos hji, hx]

theorem foldl_max_abs (xs : List (Option ℝ)) (a : ℝ) (h : ∀ x ∈ xs, ∃ y, x = some y) :
    ∃ z, xs.foldl (fun a b => (do let a ← a; let b ← b; pure (max a |b|) : Option ℝ)) (some a) = some z ∧ a ≤ z ∧ (∀ y, some y ∈ xs → |y| ≤ z) ∧ (z = a ∨ ∃ y, some y ∈ xs ∧ z = |y|) := by
  induction xs generalizing a with
  | nil => exact ⟨a, rfl, le_refl _, by simp, Or.inl rfl⟩
  | cons x xs ih =>
    obtain ⟨y, rfl⟩ := h x (by simp)
    obtain ⟨z, hz, h1, h2, h3⟩ := ih (max a |y|) (fun x hx => h x (by simp [hx]))
    refine ⟨z, hz, (le_max_left _ _).trans h1, ?_, ?_⟩
    · intro w hw
      rcases List.mem_cons.mp hw with e | e
      · rw [Option.some.inj e]; exact (le_max_right _ _).trans h1
      · exact h2 w e
    · rcases h3 with h3 | ⟨w, hw, h3⟩
      · rcases max_choice a |y| with e | e
        · exact Or.inl (h3.trans e)
        · exact Or.inr ⟨y, by simp, h3.trans e⟩
      · exact Or.inr ⟨w, by simp [hw], h3⟩

theorem defaultZmax_spec {t : CorrTable} (hne : lowerCells t ≠ []) (h : ∀ x ∈ lowerCells t, ∃ y, x = some y) :
    ∃ z, defaultZmax t = .ok (some z) ∧ IsGreatest {w | ∃ i j y, j < i ∧ entry2 t.cells i j = some (some y) ∧ w = |y|} z := by
  unfold defaultZmax
  have hmem := mem_lowerCells t
  cases hl : lowerCells t with
  | nil => exact absurd hl hne
  | cons x xs =>
    rw [hl] at h hmem
    obtain ⟨y, rfl⟩ := h x (by simp)
    obtain ⟨z, hz, h1, h2, h3⟩ := foldl_max_abs xs |y| (fun x hx => h x (by simp [hx]))
    refine ⟨z, by dsimp only; rw [Option.map_some, hz], ?_, ?_⟩
    · rcases h3 with h3 | ⟨w, hw, h3⟩
      · obtain ⟨i, j, hji, he⟩ := (hmem (some y)).mp (by simp)
        exact ⟨i, j, y, hji, he, h3⟩
      · obtain ⟨i, j, hji, he⟩ := (hmem (some w)).mp (by simp [hw])
        exact ⟨i, j, w, hji, he, h3⟩
    · rintro w ⟨i, j, v, hji, he, rfl⟩
      have := (hmem (some v)).mpr ⟨i, j, hji, he⟩
      rcases List.mem_cons.mp this with e | e
      · rw [Option.some.inj e]; exact h1
      · exact h2 v e

/-- **C75** in the case of a table without missing values and without trimming: without the argument zmax, the color scale ends at the greatest absolute value (after rounding) of the correlations below the diagonal.
What is missing: this is false for trimmed heatmaps, see `C75_counterexample`, and with missing values the end of the scale is NaN. -/
theorem C75_color_scale_partial {corr : CorrTable} (h : TableShape corr) (rounding : ℕ) (showUpper showDiagonal : Bool) (hsize : 2 ≤ corr.rows.length ∧ 1 ≤ corr.cols.length)
    (hfull : ∀ i j x, entry2 corr.cells i j = some x → ∃ y, x = some y) :
    ∃ table z, plotCorrelationHeatmap corr rounding showUpper showDiagonal false none = .ok (table, some z) ∧
      IsGreatest {w | ∃ i j y, j < i ∧ entry2 table.cells i j = some (some y) ∧ w = |y|} z := by
  obtain ⟨_, _, hs, hc⟩ := C58_mask h rounding showUpper showDiagonal rfl
  have hlow : ∀ i j, j < i → ∀ x, entry2 (processCorrDataForPlotting corr rounding showUpper showDiagonal false).cells i j = some x → ∃ y, x = some y := by
    intro i j hji x hx
    obtain ⟨hi, hj⟩ := entry2_lt' hs hx
    obtain ⟨y, hy⟩ := entry2_of_shape h hi hj
    obtain ⟨z, hz, hv⟩ := hc i j y hy
    obtain ⟨w, rfl⟩ := hfull i j y hy
    obtain ⟨v, rfl, _⟩ := hv.1 (Or.inl hji) w rfl
    rw [hx] at hz
    exact ⟨v, Option.some.inj hz⟩
  obtain ⟨x, hx⟩ := entry2_of_shape hs (i := 1) (j := 0) hsize.1 hsize.2
  obtain ⟨z, hz, hg⟩ := defaultZmax_spec (t := processCorrDataForPlotting corr rounding showUpper showDiagonal false)
    (List.ne_nil_of_mem ((mem_lowerCells _ x).mpr ⟨1, 0, by omega, hx⟩))
    (fun x hx => by
      obtain ⟨i, j, hji, he⟩ := (mem_lowerCells _ x).mp hx
      exact hlow i j hji x he)
  refine ⟨_, z, ?_, hg⟩
  unfold plotCorrelationHeatmap
  simp only [hz, bind, Except.bind, pure, Except.pure]

/-- C75 is false: for a table of two correlated variables, the trimmed heatmap of the lower triangle without diagonal cannot be plotted (the maximum of an empty array is a ValueError). -/
theorem C75_counterexample (a b : String) (r s : ℝ) (rounding : ℕ) :
    plotCorrelationHeatmap ⟨[a, b], [a, b], [[some 1, some r], [some s, some 1]]⟩ rounding false false true none = .error .valueError := by
  unfold plotCorrelationHeatmap processCorrDataForPlotting maskCells
  simp [maskEntry, boolSelect, List.range_succ, defaultZmax, lowerCells, bind, Except.bind]

/-- C75 is false also for larger tables: the heatmap shows the correlation 9/10 but the color scale ends at 1/2. -/
theorem C75_counterexample_scale (a b c : String) :
    ∃ table z, plotCorrelationHeatmap ⟨[a, b, c], [a, b, c], [[some 1, some (9 / 10), some (1 / 2)], [some (9 / 10), some 1, some (9 / 10)], [some (1 / 2), some (9 / 10), some 1]]⟩ 1 false false true none = .ok (table, some z) ∧
      entry2 table.cells 0 0 = some (some (9 / 10)) ∧ z = 1 / 2 := by
  have h1 : roundDigits 1 (9 / 10) = 9 / 10 := by
    unfold roundDigits rint
    norm_num
  have h2 : roundDigits 1 (1 / 2) = 1 / 2 := by
    unfold roundDigits rint
    norm_num
  refine ⟨⟨[b, c], [a, b], [[some (9 / 10), none], [some (1 / 2), some (9 / 10)]]⟩, 1 / 2, ?_, rfl, rfl⟩
  unfold plotCorrelationHeatmap processCorrDataForPlotting maskCells
  simp [maskEntry, boolSelect, List.range_succ, defaultZmax, lowerCells, bind, Except.bind, pure, Except.pure]
  simp only [one_div] at h2
  simp [h1, h2, abs_of_pos]

end Skill
